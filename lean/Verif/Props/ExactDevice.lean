import Verif.Lemmas.Flushing
import Verif.Props.FloatDevice
import Verif.Props.NearDevice
/-!
# Devices with other arithmetics

Claims C109 and C110. `float` of a device need not be that of IEEE 754: OpenCL lets devices replace subnormal numbers by zeros, and round in another
direction in the embedded profile.
-/
namespace SP
open FloatOps Gpu

section
variable {D : Type} [FloatOps D] {allowed : (Nat → Nat) → Prop} {B : Nat} {jobs : UInt64} {world : World Double}

/-- **C109**. If a device is exact for integers up to `2^k`, whatever else it does, and weights multiplied by squares of differences of intensities or
levels are at most `2^k`, then the file written by the program is the best map in exact arithmetic. Numbers of the processor that are integers up to
`2^k` are to be converted exactly. -/
theorem C109_exact_device {k : ℕ} (hk : k ≤ 53) {of : ℤ → D} (hex : ExactOn k of) {conv : Double → D}
    (hconv : ∀ n : ℤ, |n| ≤ 2 ^ k → conv (Ieee.ofInt n) = of n) (hw : world.Reasonable jobs) (hruns : world.Runs B jobs)
    (hdev : world.Devices conv allowed) (cl : CommandLine)
    (hr : ∀ o l r, cl = .parsed o → o.leftImage = some l → o.rightImage = some r → world.InRange k o l r) (out : Outcome)
    (h : program world cl = .ok out) (path text : Text) (hwr : out.written = some (path, text)) : world.Result ℚ cl out path text := by
  have car := exact_carrier (Ieee.exactOn .binary64 hk)
  obtain ⟨world', h1, h2, h3⟩ := World.pullDevice car (exact_carrier hex) (conv := conv) (fun a => hconv a.1 a.2) hruns hdev
  exact World.result car (exact_carrier (exactOn_rat k)) (fun _ _ _ _ => trivial) (Bounded.cut k) h1 hw h2 h3 .id hr h hwr

/-- Devices that may replace subnormal numbers by zeros are exact as others are. -/
theorem C109_flushing {flush : Flush .binary32} {conv : Double → Flushing flush} (hconv : Flushing.Converts conv) (hw : world.Reasonable jobs)
    (hruns : world.Runs B jobs) (hdev : world.Devices conv allowed) (cl : CommandLine)
    (hr : ∀ o l r, cl = .parsed o → o.leftImage = some l → o.rightImage = some r → world.InRange 24 o l r) (out : Outcome)
    (h : program world cl = .ok out) (path text : Text) (hwr : out.written = some (path, text)) : world.Result ℚ cl out path text := by
  have hk : 24 ≤ Format.binary32.digits := by decide
  refine C109_exact_device (by norm_num) (Flushing.exactOn flush (by decide) hk) (fun n hn => ?_) hw hruns hdev cl hr out h path text hwr
  have h1 := hconv (Ieee.ofInt n)
  rw [Ieee.convert_ofInt (k := 24) (by decide) hn] at h1
  have h2 := h1.eq (Ieee.ofInt_ordinary hk hn)
  calc conv (Ieee.ofInt n) = ⟨(conv (Ieee.ofInt n)).value⟩ := rfl
    _ = _ := by rw [h2]

/-- So are devices that compute with `float` of IEEE 754: this is C93 again. -/
theorem C109_float (hw : world.Reasonable jobs) (hruns : world.Runs B jobs) (hdev : world.Devices (Ieee.convert : Double → Single) allowed)
    (cl : CommandLine)
    (hr : ∀ o l r, cl = .parsed o → o.leftImage = some l → o.rightImage = some r → world.InRange 24 o l r) (out : Outcome)
    (h : program world cl = .ok out) (path text : Text) (hwr : out.written = some (path, text)) : world.Result ℚ cl out path text :=
  C109_exact_device (by norm_num) (Ieee.exactOn .binary32 (by decide)) (fun _ hn => Ieee.convert_ofInt (k := 24) (by decide) hn) hw hruns hdev cl hr
    out h path text hwr

end

section
variable {flush : Flush .binary32} {conv : Double → Flushing flush} (hconv : Flushing.Converts conv)
include hconv

theorem flush_nat {a : Format.binary64.Num} {n : ℕ} (h : a.1 = n) (hn : n ≤ 2 ^ 126) : conv (toDouble a) = ofNat n := by
  have h1 := hconv (toDouble a)
  rw [show (Ieee.convert (toDouble a) : Single) = ofNat n from toSingle_nat h,
    ← (Ieee.ofNat_of (Format.binary32.coarse_agree (k := 126) (by decide)) hn le_rfl).1] at h1
  have h2 := h1.eq (Format.coarse_ordinary (by decide) _)
  rw [(Ieee.ofNat_of (Format.binary32.coarse_agree (k := 126) (by decide)) hn le_rfl).1] at h2
  calc conv (toDouble a) = ⟨(conv (toDouble a)).value⟩ := rfl
    _ = _ := by rw [h2]; rfl

/-- Edges accepted by such a device would be accepted if it had subnormal numbers. -/
theorem flush_deviceMap {left right : Image} {levels : UInt64} {c s : ℕ} {t : Format.binary64.Num} {im : Image} (hw : 0 < right.width.toNat)
    (hh : 0 < right.height.toNat) (hs : s ≤ 2 ^ 64) (hlev : levels.toNat ≤ 2 ^ 31)
    (h : DeviceMap (fun a => conv (toDouble a)) (freshGraph left right levels (ofNat c : Format.binary64.Num) (ofNat s)) t im) :
    DeviceMap toSingle (freshGraph left right levels (ofNat c : Format.binary64.Num) (ofNat s)) t im := by
  refine ⟨h.least, h.node, fun x y hx hy k hk => ?_⟩
  obtain ⟨q1, q2⟩ := h.edge x y hx hy k hk
  refine ⟨q1, ?_⟩
  have hlo : im.at x y < levels.toNat := q1.2.1.2.2.1
  have hlo' : im.at (nbx x k) (nby y k) < levels.toNat := q1.2.2.1.2.2.1
  have hz : conv (toDouble zero) = zero := flush_nat hconv (n := 0) (by decide +kernel) (by norm_num)
  rw [onDevice_fresh_edgeQ hz] at q2
  rw [onDevice_fresh_edgeQ toSingle_zero]
  obtain ⟨A, eA, A0, A1, -⟩ := Format.ofNat_error (fmt := .binary64) (k := 64) (by decide) hs
  obtain ⟨a, rfl⟩ := Int.eq_ofNat_of_zero_le A0
  have ha : a ≤ 2 ^ 64 := by exact_mod_cast A1
  have ea : (ofNat s : Format.binary64.Num).1 = a := by rw [eA]; rfl
  rw [flush_nat hconv ea (ha.trans (by norm_num))] at q2
  rw [toSingle_nat ea]
  obtain ⟨p, f1, f2, f3, f4⟩ := flush_penalty flush (show Format.binary32.least ≤ _ by decide) (k := 126) (by decide) (a := 64) (b := 31) (by norm_num)
    ha (hlo.le.trans hlev) (hlo'.le.trans hlev)
  rw [f1, f2, f2, f2]
  rw [f3, f4, f4, f4] at q2
  have ht0 : 0 ≤ t.1 := by
    obtain ⟨q1, q2⟩ := h.node 0 0 hw hh
    have := q2 _ q1
    rw [LawfulFloat.sub_self] at this
    have hz : (zero : Format.binary64.Num).1 = 0 := by decide +kernel
    rw [← hz]
    exact of_decide_eq_true this
  refine flush_le flush (by decide) (y := (conv (toDouble t)).value) (fun m hm => ?_) (hconv (toDouble t)) q2
  rw [toSingle_nonneg ht0] at hm
  unfold Ieee.rounded at hm
  split at hm <;> cases hm

/-- **C110**. Whatever the images and the weights, a map found by a device with `float` that may replace subnormal numbers by zeros is almost the best:
the bound of C99 holds for it. -/
theorem C110_near_optimal_flushing {allowed : (Nat → Nat) → Prop} {B : Nat} {jobs : UInt64} {world : World Double} (hw : world.Reasonable jobs)
    (hruns : world.Runs B jobs) (hdev : world.Devices conv allowed) (cl : CommandLine) (out : Outcome) (h : program world cl = .ok out)
    (path text : Text) (hwr : out.written = some (path, text)) : world.NearResult (1 / 2 ^ 19) cl out path text :=
  World.near_device (flush_nat hconv (n := 0) (by decide +kernel) (by norm_num)) (flush_deviceMap hconv) hw hruns hdev cl out h path text hwr

end

/-! ## Non-vacuity -/

section
variable {D : Type} [FloatOps D]
set_option maxRecDepth 1000000

/-- The images of `floatWorld` and another device. -/
def deviceWorld (conv : Double → D) (launch : Launcher D) : World Double :=
  { floatWorld (fun _ _ => .error .ub) with openCL := some (findLabelingCl conv launch) }

theorem deviceWorld_ok (conv : Double → D) {launch : Launcher D} (h : launch.Possible cspIteration (· = id)) :
    (deviceWorld conv launch).Reasonable 1 ∧ (deviceWorld conv launch).Runs 64 1 ∧ (deviceWorld conv launch).Devices conv (· = id) := by
  refine ⟨⟨by show 1000 < 2147483648; decide, by decide, by decide, fun _ => rfl⟩, .inr rfl, fun f hf => ?_, fun f hf => by cases hf⟩
  cases hf
  exact ⟨launch, h, .inl rfl⟩

theorem deviceWorld_computed {conv : Double → D} {o : Options} (hp : o.parallel = some (bytes "CL")) {out : Outcome}
    (h : program (deviceWorld conv (computed cspIteration id floatTurns)) (.parsed o) = .ok out) :
    program (deviceWorld conv (.ofTurns cspIteration id floatTurns)) (.parsed o) = .ok out := by
  rcases refines_program (world := deviceWorld conv (.ofTurns cspIteration id floatTurns))
    (world' := deviceWorld conv (computed cspIteration id floatTurns)) computed_refines rfl rfl o hp with ⟨e, -, he⟩ | he
  · rw [he] at h; cases h
  · rw [he]; exact h

theorem deviceWorld_inRange (conv : Double → D) (launch : Launcher D) :
    ∀ o l r, CommandLine.parsed (weighted none none (some "CL")) = .parsed o → o.leftImage = some l → o.rightImage = some r →
      (deviceWorld conv launch).InRange 24 o l r := by
  have one : ∀ c, weightNumber ((none : Option String).map bytes) = .ok c → c.toNat ≤ 2 ^ 0 := by
    intro c hc
    cases hc
    decide
  exact floatWorld_inRange (fun _ _ => .error .ub) (a := 0) (d := 0) (by norm_num) (by norm_num) one one

/-- Integers nearest to numbers of the processor. -/
def toInteger : Double → Int
  | .fin s m => if s then -⌊m.1⌋ else ⌊m.1⌋
  | _ => 0

theorem toInteger_ofInt (n : ℤ) (hn : |n| ≤ 2 ^ 24) : toInteger (Ieee.ofInt n) = n := by
  obtain ⟨e1, e2⟩ := Ieee.ofInt_eq (fmt := .binary64) (k := 24) (by decide) hn
  rw [e1]
  show (if decide ((Format.binary64.rounding.round n).1 < 0) then -⌊|(Format.binary64.rounding.round n).1|⌋ else ⌊|(Format.binary64.rounding.round n).1|⌋) = n
  rw [e2]
  rcases lt_or_ge n 0 with h | h
  · have h' : (n : ℚ) < 0 := by exact_mod_cast h
    rw [decide_eq_true h', if_pos rfl, abs_of_neg h', ← Int.cast_neg, Int.floor_intCast, neg_neg]
  · have h' : (0 : ℚ) ≤ n := by exact_mod_cast h
    rw [decide_eq_false (not_lt.2 h'), if_neg (by simp), abs_of_nonneg h', Int.floor_intCast]

/-- C109: a device that computes with integers. -/
example : ∃ world : World Double, world.Reasonable 1 ∧ world.Runs 64 1 ∧ world.Devices toInteger (· = id) ∧
    ∃ out path text, program world (.parsed (weighted none none (some "CL"))) = .ok out ∧ out.written = some (path, text) ∧
      world.Result ℚ (.parsed (weighted none none (some "CL"))) out path text := by
  obtain ⟨h1, h2, h3⟩ := deviceWorld_ok toInteger (Launcher.ofTurns_possible (D := Int) (allowed := (· = id)) (group := id) rfl floatTurns)
  have h4 : program (deviceWorld toInteger (computed cspIteration id floatTurns)) (.parsed (weighted none none (some "CL"))) =
      .ok { exit := 0, out := [.openCL], written := some (bytes "o", bytes "P2\n4 1\n3\n0 1 0 0\n") } := by decide +kernel
  have h4 := deviceWorld_computed rfl h4
  exact ⟨_, h1, h2, h3, _, _, _, h4, rfl, C109_exact_device (by norm_num) (exactOn_int 24) toInteger_ofInt h1 h2 h3 _ (deviceWorld_inRange _ _) _ h4 _ _ rfl⟩

/-- Conversion by a device without subnormal numbers. -/
def flushedFloat (x : Double) : Flushing (.always .binary32) := ⟨(Ieee.convert x).flushed⟩

/-- C109, C110: a device without subnormal numbers. -/
example : ∃ world : World Double, world.Reasonable 1 ∧ world.Runs 64 1 ∧ Flushing.Converts flushedFloat ∧ world.Devices flushedFloat (· = id) ∧
    ∃ out path text, program world (.parsed (weighted none none (some "CL"))) = .ok out ∧ out.written = some (path, text) ∧
      world.Result ℚ (.parsed (weighted none none (some "CL"))) out path text ∧
      world.NearResult (1 / 2 ^ 19) (.parsed (weighted none none (some "CL"))) out path text := by
  obtain ⟨h1, h2, h3⟩ := deviceWorld_ok flushedFloat (Launcher.ofTurns_possible (allowed := (· = id)) (group := id) rfl floatTurns)
  have h4 : program (deviceWorld flushedFloat (computed cspIteration id floatTurns)) (.parsed (weighted none none (some "CL"))) =
      .ok { exit := 0, out := [.openCL], written := some (bytes "o", bytes "P2\n4 1\n3\n0 1 0 0\n") } := by decide +kernel
  have h4 := deviceWorld_computed rfl h4
  have hc : Flushing.Converts flushedFloat := fun _ => Ieee.flushed_flushed _
  exact ⟨_, h1, h2, hc, h3, _, _, _, h4, rfl, C109_flushing hc h1 h2 h3 _ (deviceWorld_inRange _ _) _ h4 _ _ rfl,
    C110_near_optimal_flushing hc h1 h2 h3 _ _ h4 _ _ rfl⟩

/-- Such devices do not compute as others do. -/
example : let x : Single := mul epsilon (mul epsilon epsilon)
    (Flush.always .binary32).mul x x = Ieee.signedZero false ∧ (Flush.never .binary32).mul x x ≠ Ieee.signedZero false := by decide +kernel

end

end SP
