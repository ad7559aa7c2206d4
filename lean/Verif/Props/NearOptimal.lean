import Verif.Lemmas.NearOptimal
import Verif.Props.Contracted
import Verif.Props.FloatDevice
import Verif.Spec.FloatInstances
/-!
# The map that is written is almost the best in exact arithmetic

Claim C98. Weights of the program are integers of 64 bits, and products of weights and squares may need 192 bits, so `double` rounds
penalties if weights are large. The map is still optimal up to a small part of the largest penalty.
-/
namespace SP
open FloatOps

/-- The map `im` is almost the best: if another labeling is worse than the best choice in each pixel and each pair of neighbors at most by `t`
in exact arithmetic, then `im` is worse at most by `t + ε`. -/
def NearlyBest (ε : ℚ) (left right : Image) (levels : UInt64) (c s : ℕ) (im : Image) : Prop :=
  im.width = right.width ∧ im.height = right.height ∧ im.maxValue = levels ∧
  ∀ t L, (freshGraph left right levels (ofNat c : ℚ) (ofNat s)).FeasibleAt t L →
    (freshGraph left right levels (ofNat c : ℚ) (ofNat s)).FeasibleAt (t + ε) fun x y => im.at x y

/-- What a written file is: the options and the images are acceptable, and the file is almost the best map for them, the error being not
greater than the part `part` of the largest penalty. -/
def World.NearResult {G : Type} [FloatOps G] (part : ℚ) (world : World G) (cl : CommandLine) (out : Outcome) (path text : Text) : Prop :=
  out.exit = 0 ∧ out.err = [] ∧ ∃ (o : Options) (l r : Text) (left right : Image) (levels c s : UInt64) (im : Image),
    cl = .parsed o ∧ o.outputImage = some path ∧ o.leftImage = some l ∧ o.rightImage = some r ∧
    readImage world l = .ok left ∧ readImage world r = .ok right ∧ levelsOption left o.disparityLevels = .ok levels ∧
    weightNumber o.cleanness = .ok c ∧ weightNumber o.smoothness = .ok s ∧
    AcceptedInput left right levels (ofNat c.toNat : ℚ) (ofNat s.toNat) ∧ writePgm (some im) = .ok text ∧
    (levels ≤ 65536 → Ok (readPgm world.memory none (.opened text)) fun q => q.1.fail = false ∧ q.2 = some im) ∧
    NearlyBest (part * largestPenalty left.maxValue.toNat levels c.toNat s.toNat) left right levels c.toNat s.toNat im

section
variable {F G : Type} [FloatOps F] [FloatOps G] [LawfulFloat F] {φ : F → G} {P : F → Prop} {k : ℕ}

/-- The arithmetic carries itself. -/
theorem Carrier.self (car : Carrier φ P k) : Carrier (fun a : F => a) P k where
  le _ _ := rfl
  lt _ _ := rfl
  eq _ _ := rfl
  zero := rfl
  minusOne := rfl
  sub _ _ _ _ := rfl
  P_zero := car.P_zero
  ofNat _ _ := rfl
  epsilon _ _ := rfl
  penalty a b w u v h1 h2 h3 h4 := ⟨(car.penalty a b w u v h1 h2 h3 h4).1, LawfulFloat.add_zero _, LawfulFloat.sub_zero _⟩
  add_zero a _ := LawfulFloat.add_zero a
  add_zero' a _ := LawfulFloat.add_zero a
  sub_zero a _ := LawfulFloat.sub_zero a

theorem Cut.self (Q : F → Prop) : Cut (fun a : F => a) Q := fun t => .inr ⟨t, fun _ _ h => h, fun _ h => h⟩

end

theorem Image.Meaningful.at_le {image : Image} (h : image.Meaningful) (x y : ℕ) : image.at x y ≤ image.maxValue.toNat := by
  unfold Image.at
  rw [Array.getD_eq_getD_getElem?]
  cases hv : image.data[pidx image.width.toNat x y]? with
  | none => exact Nat.zero_le _
  | some v => exact h.2.2.2 v (Array.mem_of_getElem? hv)

/-- Accepted input does not depend on arithmetic. -/
theorem accepted_exact {left right : Image} {levels c s : UInt64} (h : AcceptedInput left right levels (ofNat c.toNat : Format.binary64.Num) (ofNat s.toNat)) :
    AcceptedInput left right levels (ofNat c.toNat : ℚ) (ofNat s.toNat) := by
  obtain ⟨a1, a2, a3, a4, a5, a6, a7, -, -, a10⟩ := h
  refine ⟨a1, a2, a3, a4, a5, a6, a7, ?_, ?_, ?_⟩
  · exact decide_eq_false (not_lt.2 (Nat.cast_nonneg _))
  · exact decide_eq_false (not_lt.2 (Nat.cast_nonneg _))
  · have key : ∀ n : UInt64, lt (ofNat n.toNat : Format.binary64.Num) epsilon = false → lt (ofNat n.toNat : ℚ) epsilon = false := by
      intro n hn
      refine decide_eq_false (not_lt.2 ?_)
      rcases Nat.eq_zero_or_pos n.toNat with h0 | h0
      · rw [h0] at hn
        exact absurd hn (by decide +kernel)
      · have : (1 : ℚ) ≤ n.toNat := by exact_mod_cast h0
        show (1 / 2 ^ 52 : ℚ) ≤ n.toNat
        linarith [show (1 / 2 ^ 52 : ℚ) ≤ 1 by norm_num]
    exact a10.imp (key c) (key s)

/-- From the arithmetic of rounding to exact arithmetic. -/
theorem World.Result.near {G : Type} [FloatOps G] {world : World G} {cl : CommandLine} {out : Outcome} {path text : Text}
    (h : world.Result Format.binary64.Num cl out path text) : world.NearResult (1 / 2 ^ 47) cl out path text := by
  obtain ⟨e1, e2, o, l, r, left, right, levels, c, s, im, q1, q2, q3, q4, q5, q6, q7, q8, q9, q10, q11, q12, q13, q14, t, q15⟩ := h
  obtain ⟨a1, a2, -, -, -, -, a7, -⟩ := id q10
  refine ⟨e1, e2, o, l, r, left, right, levels, c, s, im, q1, q2, q3, q4, q5, q6, q7, q8, q9, accepted_exact q10, q11, q12,
    q15.width, q15.height, q15.levels, fun t' L ht => ?_⟩
  · have hn : ∀ n : UInt64, n.toNat ≤ 2 ^ 64 := fun n => n.toNat_lt.le
    have := q15.near (k := 192) (a := 64) (b := 64) (b' := 64) (U := left.maxValue.toNat) (by decide) (by decide) (by norm_num) (by norm_num) (hn c) (hn s)
      (hn _) (hn _) a1.at_le (fun x y => (a2.at_le x y).trans (by rw [a7])) a2.1 a2.2.1 ht
    rwa [show 64 * Format.binary64.unit = 1 / 2 ^ 47 by simp only [Format.unit, Format.binary64]; norm_num] at this

section
variable {fused : Double → Double → Double → Bool} {B : Nat} {jobs : UInt64}

/-- **C98**. Whatever the images and the weights, the map written by the program without OpenCL and CUDA is almost the best in exact arithmetic:
it is worse than any other labeling at most by `2^-47` of the largest penalty. -/
theorem C98_near_optimal {world : World Double} (hw : world.Reasonable jobs) (hruns : world.Runs B jobs) (hcpu : world.CpuOnly) (cl : CommandLine)
    (out : Outcome) (h : program world cl = .ok out) (path text : Text) (hwr : out.written = some (path, text)) :
    world.NearResult (1 / 2 ^ 47) cl out path text := by
  obtain ⟨world', h1, h2, h3⟩ := World.pullDevice carrier_double carrier_double (fun _ => rfl) hruns hcpu.devices
  exact (World.result carrier_double carrier_double.self (fun _ _ _ _ => trivial) (.self fun _ => True) h1 hw h2 h3 .id
    (fun o l r _ _ _ => world.inRange_192 o l r) h hwr).near

/-- The same if the compiler contracts expressions. -/
theorem C98_near_optimal_contracted {world : World (ContractedDouble fused)} (hw : world.Reasonable jobs) (hruns : world.Runs B jobs)
    (hcpu : world.CpuOnly) (cl : CommandLine) (out : Outcome) (h : program world cl = .ok out) (path text : Text)
    (hwr : out.written = some (path, text)) : world.NearResult (1 / 2 ^ 47) cl out path text := by
  have car := Ieee.contracted_carrier (.refl .binary64 (by decide) : Format.binary64.Agree .binary64 192) (fused := fused)
  obtain ⟨world', h1, h2, h3⟩ := World.pullDevice car car (fun _ => rfl) hruns hcpu.devices
  exact (World.result car carrier_double.self (fun _ _ _ _ => trivial) (.self fun _ => True) h1 hw h2 h3 .id
    (fun o l r _ _ _ => world.inRange_192 o l r) h hwr).near

end

/-! ## Not exactly the best -/

set_option maxRecDepth 1000000

/-- Two images without devices, in any arithmetic. -/
def plainWorld (F : Type) [FloatOps F] : World F where
  file := (floatWorld fun _ _ => .error .ub).file
  writable _ := true
  memory := 1000
  room _ := none
  solve _ := solveCsp 1
  openCL := none
  cuda := none

theorem plainWorld_ok (F : Type) [FloatOps F] : (plainWorld F).Reasonable 1 ∧ (plainWorld F).Runs 64 1 ∧ (plainWorld F).CpuOnly :=
  ⟨⟨show 1000 < 2147483648 by decide, by decide, by decide, fun _ => rfl⟩, .inr rfl, rfl, rfl⟩

/-- Weights that `double` does not keep: the second one is `2^53 + 1`. -/
def largeWeights : Options := weighted (some "562949953421312") (some "9007199254740993") none

theorem large_exact : program (plainWorld ℚ) (.parsed largeWeights) =
    .ok { exit := 0, written := some (bytes "o", bytes "P2\n4 1\n3\n0 0 0 0\n") } := by decide +kernel

theorem large_double : program (plainWorld Double) (.parsed largeWeights) =
    .ok { exit := 0, written := some (bytes "o", bytes "P2\n4 1\n3\n0 1 0 0\n") } := by decide +kernel

/-- In exact arithmetic the program writes the best map. -/
theorem World.result_exact {world : World ℚ} {B : Nat} {jobs : UInt64} (hw : world.Reasonable jobs) (hruns : world.Runs B jobs) (hcpu : world.CpuOnly)
    {o : Options} {out : Outcome} (h : program world (.parsed o) = .ok out) {path text : Text} (hwr : out.written = some (path, text)) :
    ∃ (l r : Text) (left right : Image) (levels c s : UInt64) (im : Image), o.leftImage = some l ∧ o.rightImage = some r ∧
      readImage world l = .ok left ∧ readImage world r = .ok right ∧ levelsOption left o.disparityLevels = .ok levels ∧
      weightNumber o.cleanness = .ok c ∧ weightNumber o.smoothness = .ok s ∧ writePgm (some im) = .ok text ∧
      ∃ t : ℚ, BestMap (freshGraph left right levels (ofNat c.toNat : ℚ) (ofNat s.toNat)) t im := by
  obtain ⟨-, -, o', l, r, left, right, levels, cl, sm, im, q1, -, q3, q4, q5, q6, q7, q8, q9, -, -, -, -, -, -, q16, t, q17⟩ :=
    World.written hw hruns hcpu.devices .id h hwr
  cases q1
  rw [weightOption_eq] at q8 q9
  cases hc : weightNumber o.cleanness with
  | error e => rw [hc] at q8; cases q8
  | ok c =>
  cases hs : weightNumber o.smoothness with
  | error e => rw [hs] at q9; cases q9
  | ok s =>
  rw [hc] at q8
  rw [hs] at q9
  cases q8
  cases q9
  exact ⟨l, r, left, right, levels, c, s, im, q3, q4, q5, q6, q7, rfl, rfl, q16, t, q17⟩

/-- The map need not be exactly the best if weights are large: `2^49` and `2^53 + 1` here. -/
theorem C98_not_exact : ∃ world : World Double, world.Reasonable 1 ∧ world.Runs 64 1 ∧ world.CpuOnly ∧ ∃ o out path text,
    program world (.parsed o) = .ok out ∧ out.written = some (path, text) ∧ world.NearResult (1 / 2 ^ 47) (.parsed o) out path text ∧
    ¬ world.Result ℚ (.parsed o) out path text := by
  obtain ⟨h1, h2, h3⟩ := plainWorld_ok Double
  refine ⟨plainWorld Double, h1, h2, h3, largeWeights, _, _, _, large_double, rfl, C98_near_optimal h1 h2 h3 _ _ large_double _ _ rfl, ?_⟩
  rintro ⟨-, -, o, l, r, left, right, levels, c, s, im, q1, -, q3, q4, q5, q6, q7, q8, q9, -, q10, -, -, -, t, q11⟩
  cases q1
  obtain ⟨l', r', left', right', levels', c', s', im', p3, p4, p5, p6, p7, p8, p9, p10, t', p11⟩ :=
    World.result_exact (plainWorld_ok ℚ).1 (plainWorld_ok ℚ).2.1 (plainWorld_ok ℚ).2.2 large_exact rfl
  cases q3.symm.trans p3
  cases q4.symm.trans p4
  have e5 : readImage (plainWorld ℚ) l = readImage (plainWorld Double) l := rfl
  have e6 : readImage (plainWorld ℚ) r = readImage (plainWorld Double) r := rfl
  cases q5.symm.trans (e5.symm.trans p5)
  cases q6.symm.trans (e6.symm.trans p6)
  cases q7.symm.trans p7
  cases q8.symm.trans p8
  cases q9.symm.trans p9
  obtain ⟨-, rfl⟩ := q11.unique p11
  have := q10.symm.trans p10
  exact absurd this (by decide +kernel)

end SP
