import Verif.Lemmas.DoubleExact
/-!
# Properties C90 to C93: `double` and `float`

Other properties hold for every arithmetic with the laws of `LawfulFloat`. Numbers of IEEE 754 have no such laws: infinities and NaN
violate them, and zero has two signs. Here the program is considered with `double` itself, and with `float` on devices.
-/
set_option linter.unusedSectionVars false

namespace SP
open FloatOps Gpu

/-! ## What these numbers are -/

-- rounding of fractions
example : add (Ieee.rounded false (1 / 10) : Double) (Ieee.rounded false (2 / 10)) ≠ Ieee.rounded false (3 / 10) := by decide +kernel
-- rounding of integers, ties to even
example : add (ofNat (2 ^ 53) : Double) (ofNat 1) = ofNat (2 ^ 53) := by decide +kernel
example : add (ofNat (2 ^ 53 + 2) : Double) (ofNat 1) = ofNat (2 ^ 53 + 4) := by decide +kernel
example : add (ofNat (2 ^ 24) : Single) (ofNat 1) = ofNat (2 ^ 24) := by decide +kernel
-- overflow
example : (ofNat (2 ^ 1024) : Double) = .inf false := by decide +kernel
example : mul (ofNat (2 ^ 64) : Single) (ofNat (2 ^ 64)) = .inf false := by decide +kernel
-- NaN, which is not equal to itself
example : sub (.inf false : Double) (.inf false) = .nan := by decide +kernel
example : eq (.nan : Double) .nan = false := by decide +kernel
-- underflow, zeros
example : mul (Ieee.rounded false (1 / 2 ^ 600) : Double) (Ieee.rounded true (1 / 2 ^ 600)) = Ieee.signedZero true := by decide +kernel
example : eq (Ieee.signedZero true : Double) zero = true ∧ (Ieee.signedZero true : Double) ≠ zero := by decide +kernel
-- conversion
example : (Ieee.convert (ofNat 16777217 : Double) : Single) = ofNat 16777216 := by decide +kernel
-- `numeric_limits<double>::epsilon()`
example : lt (add (ofNat 1 : Double) epsilon) (add (ofNat 1) (mul epsilon (ofNat 2))) = true ∧ eq (add (ofNat 1 : Double) epsilon) (ofNat 1) = false ∧
    eq (add (ofNat 1 : Double) (mul epsilon (Ieee.rounded false (1 / 2)))) (ofNat 1) = true := by decide +kernel

/-! ## C90: penalties are finite -/

/-- A nonnegative integer, not greater than `bound`. -/
def Ieee.IsNatural {fmt : Format} (bound : ℕ) (v : Ieee fmt) : Prop := ∃ m n, v = .fin false m ∧ m.1 = (n : ℕ) ∧ n ≤ bound

/-- Neither an infinity nor NaN. -/
def Ieee.IsFinite {fmt : Format} (v : Ieee fmt) : Prop := ∃ neg m, v = .fin neg m

/-- The map of finite numbers to `double`. -/
abbrev toDouble : Format.binary64.Num → Double := Ieee.of (.refl .binary64)

/-- Numbers of 192 bits fit `double`. -/
theorem carrier_double : Carrier toDouble (Ieee.Small 192) 192 :=
  Ieee.carrier (.refl .binary64 (by decide))

theorem small_natural {fmt fmt' : Format} {wi : fmt.Within fmt'} {k : ℕ} {a : fmt.Num} (h : Ieee.Small k a) : (Ieee.of wi a).IsNatural (2 ^ k) := by
  obtain ⟨n, h1, h2⟩ := h
  refine ⟨Ieee.magnitudeOf wi a, n, ?_, ?_, h2⟩
  · rw [Ieee.of, decide_eq_false (not_lt.2 (h1 ▸ Nat.cast_nonneg n))]
  · rw [Ieee.magnitudeOf_val, h1, Nat.abs_cast]

section
variable {F : Type} [FloatOps F] {B : Nat} {jobs : UInt64}

/-- Numbers of 64 bits give numbers of 192 bits. -/
theorem World.inRange_192 (world : World F) (o : Options) (l r : Text) : world.InRange 192 o l r :=
  fun _ _ _ c s _ _ _ _ _ => ⟨c.toNat_lt.le.trans (by norm_num), s.toNat_lt.le.trans (by norm_num), fun _ _ => SP.inRange_192 _ _ _ _ _⟩

end

/-- Graphs of the program with `double` are those of the lawful arithmetic. -/
theorem readGraph_double {world : World Double} {o : Options} {l r : Text} {g : DisparityGraph Double} (h : readGraph world o l r = .ok g) :
    ∃ g' : DisparityGraph Format.binary64.Num, FromInput 192 g' ∧ g = g'.mapF (.of toDouble) := by
  let w : World Double :=
    { file := world.file, writable := world.writable, memory := world.memory, room := world.room,
      solve := fun _ _ => .error .ub, openCL := none, cuda := none }
  let w' : World Format.binary64.Num :=
    { file := world.file, writable := world.writable, memory := world.memory, room := world.room,
      solve := fun _ _ => .error .ub, openCL := none, cuda := none }
  have hs : SameWorld toDouble (Ieee.Small 192) 192 w' w := ⟨rfl, rfl, rfl, rfl, fun _ _ _ => Sim.error _, trivial, trivial⟩
  have hsim := readGraph_transfer carrier_double hs o l r (w'.inRange_192 o l r)
  rw [show readGraph w o l r = readGraph world o l r from rfl, h] at hsim
  cases hg' : readGraph w' o l r with
  | error e => rw [hg'] at hsim; exact hsim.elim
  | ok g' => rw [hg'] at hsim; exact ⟨g', hsim⟩

/-- **C90**. Whatever the images and the options of the program, no penalty overflows: every penalty of a node or an edge and every
lowest penalty is a nonnegative integer (so neither infinity, nor NaN, nor negative zero) not greater than `2^192`, and every threshold
to be tried is finite. -/
theorem C90_penalties_finite {world : World Double} {o : Options} {l r : Text} {g : DisparityGraph Double} (h : readGraph world o l r = .ok g) :
    (∀ n v, nodePenalty g n = .ok v → v.IsNatural (2 ^ 192)) ∧
    (∀ e v, e.node.disparity < g.disparityLevels → e.neighbor.disparity < g.disparityLevels → edgePenalty g e = .ok v →
      v.IsNatural (2 ^ 192)) ∧
    ∀ lowest, mkLowestPenalties g = .ok lowest →
      (∀ v ∈ lowest.pixels, v.IsNatural (2 ^ 192)) ∧ (∀ v ∈ lowest.neighborhoods, v.IsNatural (2 ^ 192)) ∧
      ∀ thresholds, fetchAvailablePenalties lowest = .ok thresholds → ∀ t ∈ thresholds, t.IsFinite := by
  obtain ⟨g', hg, rfl⟩ := readGraph_double h
  have car := carrier_double
  have key : ∀ {m : M Format.binary64.Num} {n : M Double} {v : Double}, Sim (fun a b => Ieee.Small 192 a ∧ b = toDouble a) m n → n = .ok v →
      v.IsNatural (2 ^ 192) := by
    intro m n v hs hn
    subst hn
    cases m with
    | error e => exact hs.elim
    | ok a =>
      obtain ⟨h1, rfl⟩ := hs
      exact small_natural h1
  refine ⟨fun n v hv => key (hg.node car n) hv, fun e v h1 h2 hv => key (hg.edge car e h1 h2) hv, fun lowest hl => ?_⟩
  have hs := mkLowestPenalties_transfer car.toHom (hg.carried car)
  rw [hl] at hs
  cases hl' : mkLowestPenalties g' with
  | error e => rw [hl'] at hs; exact hs.elim
  | ok lowest' =>
    rw [hl'] at hs
    obtain ⟨rfl, hc, -⟩ := hs
    refine ⟨?_, ?_, ?_⟩
    · intro v hv
      obtain ⟨a, ha, rfl⟩ := Array.mem_map.1 hv
      exact small_natural (hc.pixels a ha)
    · intro v hv
      obtain ⟨a, ha, rfl⟩ := Array.mem_map.1 hv
      exact small_natural (hc.neighborhoods a ha)
    · intro ts ht t hm
      have hs := fetchAvailablePenalties_transfer car.toHom hc
      rw [ht] at hs
      cases hts : fetchAvailablePenalties lowest' with
      | error e => rw [hts] at hs; exact hs.elim
      | ok ts' =>
        rw [hts] at hs
        obtain rfl : ts = ts'.map toDouble := hs
        obtain ⟨a, -, rfl⟩ := List.mem_map.1 hm
        exact ⟨_, _, rfl⟩

-- it would not be so with `float`: the largest weight gives infinite penalties, and their differences are NaN
example : sub (mul (ofNat 18446744073709551615) (sqr (sub (ofNat 4294967295) (ofNat 0))) : Single) (ofNat 0) = .inf false ∧
    sub (mul (ofNat 18446744073709551615) (sqr (sub (ofNat 4294967295) (ofNat 0))) : Single)
      (mul (ofNat 18446744073709551615) (sqr (sub (ofNat 4294967295) (ofNat 0)))) = .nan := by decide +kernel

/-! ## C91: the program with `double` -/

section
variable {D : Type} [FloatOps D] {B : Nat} {jobs : UInt64}

/-- For each way to execute the program with `double` there is a way to execute it in an arithmetic with laws, such that both do the same
for every command line. Devices may do anything. -/
theorem C91_same_program {world : World Double} {conv : Double → D} {allowed : (Nat → Nat) → Prop} (hruns : world.Runs B jobs)
    (hdev : world.Devices conv allowed) :
    ∃ world' : World Format.binary64.Num, world'.Runs B jobs ∧ (world.solve.Possible B jobs → world'.solve.Possible B jobs) ∧
      world'.Devices (fun a => conv (toDouble a)) allowed ∧ world'.file = world.file ∧ world'.writable = world.writable ∧
      world'.memory = world.memory ∧ world'.room = world.room ∧ ∀ cl, program world cl = program world' cl := by
  obtain ⟨world', h1, h2, h3, h4⟩ := World.pull carrier_double hruns hdev
  exact ⟨world', h2, h3, h4, h1.file, h1.writable, h1.memory, h1.room, fun cl => program_transfer carrier_double h1 cl fun o l r _ _ _ => world'.inRange_192 o l r⟩

/-- C61 for `double`. -/
theorem C91_program_safe_partial {world : World Double} {conv : Double → D} {allowed : (Nat → Nat) → Prop} (hw : world.Reasonable jobs)
    (hs : world.solve.Possible B jobs) (hdev : world.Devices conv allowed)
    (hfiles : ∀ path text, world.file path = some text → HarmlessFile text) (cl : CommandLine) :
    (Ok (program world cl) fun out => out.exit = 0 ∨ out.exit = 1) ∨
    (program world cl = .error .nonterm ∧ B ≠ 1 ∧ jobs ≠ 1) ∨
    (program world cl = .error .ub ∧ ∃ kernel : Kernel D, IsKernel kernel ∧ Misses kernel allowed .ub) := by
  obtain ⟨world', -, h2, h3, e1, e2, e3, e4, h5⟩ := C91_same_program (.inl hs) hdev
  rw [h5]
  exact C61_program_safe_partial ⟨e3 ▸ hw.memory, hw.jobs_pos, hw.jobs_small, e4 ▸ hw.room⟩ (h2 hs) h3 (by rw [e1]; exact hfiles) cl

end

section
variable {B : Nat} {jobs : UInt64}

/-- C61 for `double` without OpenCL and CUDA. -/
theorem C91_threads_partial {world : World Double} (hw : world.Reasonable jobs) (hs : world.solve.Possible B jobs) (hcpu : world.CpuOnly)
    (hfiles : ∀ path text, world.file path = some text → HarmlessFile text) (cl : CommandLine) :
    (Ok (program world cl) fun out => out.exit = 0 ∨ out.exit = 1) ∨ (program world cl = .error .nonterm ∧ B ≠ 1 ∧ jobs ≠ 1) := by
  rcases C91_program_safe_partial hw hs hcpu.devices hfiles cl with h | h | ⟨-, kernel, -, -, d, group, P, -, hg, -⟩
  · exact .inl h
  · exact .inr h
  · exact hg.elim

/-- The program with `double` always ends with an exit status if workers are executed one after another (or there is one thread). -/
theorem C91_in_order_partial {world : World Double} (hw : world.Reasonable jobs) (hs : world.solve = fun _ => solveCsp jobs)
    (hcpu : world.CpuOnly) (hfiles : ∀ path text, world.file path = some text → HarmlessFile text) (cl : CommandLine) :
    Ok (program world cl) fun out => out.exit = 0 ∨ out.exit = 1 := by
  have car := carrier_double
  let world' : World Format.binary64.Num :=
    { file := world.file, writable := world.writable, memory := world.memory, room := world.room,
      solve := fun _ => solveCsp jobs, openCL := none, cuda := none }
  have hsame : SameWorld toDouble (Ieee.Small 192) 192 world' world := by
    refine ⟨rfl, rfl, rfl, rfl, fun n c hc => ?_, ?_, ?_⟩
    · rw [hs]
      exact solveCsp_transfer car.toHom hc.graph hc.lowest jobs ⟨rfl, rfl, rfl, rfl⟩
    · rw [hcpu.1]; trivial
    · rw [hcpu.2]; trivial
  rw [program_transfer car hsame cl fun o l r _ _ _ => world'.inRange_192 o l r]
  exact C61_in_order_partial (world := world') ⟨hw.memory, hw.jobs_pos, hw.jobs_small, hw.room⟩ rfl ⟨rfl, rfl⟩ hfiles cl

end

/-! ### What is written -/

/-- What a written file is: the options and the images are acceptable, and the file is the best map for them, penalties being computed in the
arithmetic `H`. -/
def World.Result {G : Type} [FloatOps G] (H : Type) [FloatOps H] (world : World G) (cl : CommandLine) (out : Outcome) (path text : Text) : Prop :=
  out.exit = 0 ∧ out.err = [] ∧ ∃ (o : Options) (l r : Text) (left right : Image) (levels c s : UInt64) (im : Image),
    cl = .parsed o ∧ o.outputImage = some path ∧ o.leftImage = some l ∧ o.rightImage = some r ∧
    readImage world l = .ok left ∧ readImage world r = .ok right ∧ levelsOption left o.disparityLevels = .ok levels ∧
    weightNumber o.cleanness = .ok c ∧ weightNumber o.smoothness = .ok s ∧
    AcceptedInput left right levels (ofNat c.toNat : H) (ofNat s.toNat) ∧ writePgm (some im) = .ok text ∧
    (levels ≤ 65536 → Ok (readPgm world.memory none (.opened text)) fun q => q.1.fail = false ∧ q.2 = some im) ∧
    im.width = left.width ∧ im.height = left.height ∧
    ∃ t : H, BestMap (freshGraph left right levels (ofNat c.toNat : H) (ofNat s.toNat)) t im

section
variable {F G H D : Type} [FloatOps F] [FloatOps G] [FloatOps H] [FloatOps D] [LawfulFloat F] [LawfulFloat D]
variable {φ : F → G} {ψ : F → H} {P Q : F → Prop} {k : ℕ} {B : Nat} {jobs : UInt64}

/-- Weights and graphs in the other arithmetic. -/
theorem accepted_map (car : Carrier ψ P k) {left right : Image} {levels : UInt64} {c s : ℕ} (hc : c ≤ 2 ^ k) (hs : s ≤ 2 ^ k)
    (h : AcceptedInput left right levels (ofNat c : F) (ofNat s)) : AcceptedInput left right levels (ofNat c : H) (ofNat s) := by
  obtain ⟨h1, h2, h3, h4, h5, h6, h7, h8, h9, h10⟩ := h
  have hz : ∀ n ≤ 2 ^ k, lt (ofNat n : H) zero = lt (ofNat n : F) zero := by
    intro n hn
    rw [← car.ofNat n hn, ← car.zero, car.lt]
  exact ⟨h1, h2, h3, h4, h5, h6, h7, (hz c hc).trans h8, (hz s hs).trans h9, by rw [car.epsilon c hc, car.epsilon s hs]; exact h10⟩

theorem fresh_map (car : Carrier ψ P k) {left right : Image} {levels : UInt64} {c s : ℕ} (hc : c ≤ 2 ^ k) (hs : s ≤ 2 ^ k) :
    (freshGraph left right levels (ofNat c : F) (ofNat s)).mapF (.of ψ) = freshGraph left right levels (ofNat c) (ofNat s) := by
  simp only [DisparityGraph.mapF, freshGraph, Array.map_replicate, car.zero', car.ofNat c hc, car.ofNat s hs]

omit [FloatOps H] [FloatOps D] [LawfulFloat D] in
/-- If an arithmetic carries that of the program, then what is known of maps in the first one is true of written files. -/
theorem World.result_of {R : DisparityGraph F → Image → Prop} (car : Carrier φ P k) {world' : World F} {world : World G}
    (hsame : SameWorld φ P k world' world) (hw : world.Reasonable jobs)
    (hmap : ∀ p out f, chooseParallelism world' p = some (out, f) → ∀ g : DisparityGraph F, g.Fresh → g.h + jobs.toNat ≤ 18446744073709551616 →
      ∀ im, Par.labeledMap world'.solve f g = .ok im → SizedMap g im ∧ R g im) {cl : CommandLine}
    (hr : ∀ o l r, cl = .parsed o → o.leftImage = some l → o.rightImage = some r → world.InRange k o l r) {out : Outcome}
    (h : program world cl = .ok out) {path text : Text} (hwr : out.written = some (path, text)) :
    out.exit = 0 ∧ out.err = [] ∧ ∃ (o : Options) (l r : Text) (left right : Image) (levels c s : UInt64) (im : Image),
      cl = .parsed o ∧ o.outputImage = some path ∧ o.leftImage = some l ∧ o.rightImage = some r ∧
      readImage world l = .ok left ∧ readImage world r = .ok right ∧ levelsOption left o.disparityLevels = .ok levels ∧
      weightNumber o.cleanness = .ok c ∧ weightNumber o.smoothness = .ok s ∧
      AcceptedInput left right levels (ofNat c.toNat : F) (ofNat s.toNat) ∧ writePgm (some im) = .ok text ∧
      (levels ≤ 65536 → Ok (readPgm world.memory none (.opened text)) fun q => q.1.fail = false ∧ q.2 = some im) ∧
      im.data.size ≤ world.memory ∧ SizedMap (freshGraph left right levels (ofNat c.toNat : F) (ofNat s.toNat)) im ∧
      c.toNat ≤ 2 ^ k ∧ s.toNat ≤ 2 ^ k ∧ FromInput k (freshGraph left right levels (ofNat c.toNat : F) (ofNat s.toNat)) ∧
      (freshGraph left right levels (ofNat c.toNat : F) (ofNat s.toNat)).Fresh ∧
      R (freshGraph left right levels (ofNat c.toNat : F) (ofNat s.toNat)) im := by
  have him : ∀ path, readImage world path = readImage world' path := readImage_transfer hsame
  have hr' : ∀ o l r, cl = .parsed o → o.leftImage = some l → o.rightImage = some r → world'.InRange k o l r := by
    intro o l r h1 h2 h3 left right levels c s
    rw [← him l, ← him r]
    exact hr o l r h1 h2 h3 left right levels c s
  rw [program_transfer car hsame cl hr'] at h
  have hw' : world'.Reasonable jobs := ⟨hsame.memory ▸ hw.memory, hw.jobs_pos, hw.jobs_small, hsame.room ▸ hw.room⟩
  obtain ⟨e1, e2, o, l, r, left, right, levels, cl', sm', im, q1, q2, q3, q4, q5, q6, q7, q8, q9, q10, q11, q12, q13, q14, q15, q16, q17⟩ :=
    World.written_of hw' hmap h hwr
  rw [weightOption_eq] at q8 q9
  cases hc : weightNumber o.cleanness with
  | error e => rw [hc] at q8; cases q8
  | ok c =>
  cases hs : weightNumber o.smoothness with
  | error e => rw [hs] at q9; cases q9
  | ok s =>
  rw [hc] at q8
  rw [hs] at q9
  cases q8
  cases q9
  obtain ⟨hck, hsk, hin⟩ := hr' o l r q1 q3 q4 left right levels c s q5 q6 q7 hc hs
  have hvalid : imageValid left = .ok true ∧ imageValid right = .ok true := by
    have key : ∀ {path : Text} {i : Image}, readImage world' path = .ok i → i.Meaningful → imageValid i = .ok true := by
      intro path i hi hm
      obtain ⟨tx, -, pl, sl⟩ := readImage_ok hi
      have hz := pgmOf_sized pl sl hw'.memory
      obtain ⟨b, e, hb⟩ := imageValid_mk i hz.size hz.small
      rw [e, hb.2 hm]
    exact ⟨key q5 q10.1, key q6 q10.2.1⟩
  have hfrom : FromInput k (freshGraph left right levels (ofNat c.toNat : F) (ofNat s.toNat)) := by
    refine ⟨?_, ⟨_, _, rfl, rfl, hin hvalid.1 hvalid.2⟩, fun a ha => (Array.mem_replicate.1 ha).2⟩
    have := q10.2.2.1
    rw [UInt64.lt_iff_toNat_lt]
    exact lt_trans (by decide) this
  refine ⟨e1, e2, o, l, r, left, right, levels, c, s, im, q1, q2, q3, q4, (him l).trans q5, (him r).trans q6, q7, hc, hs, q10, q16, fun hlev => ?_,
    hsame.memory ▸ q15, q12, hck, hsk, hfrom, q11, q17⟩
  obtain ⟨tx', e1, e2⟩ := C46_round_trip im q13 q14 (by rw [q12.levels]; exact hlev) world'.memory q15 none
  rw [q16] at e1
  cases e1
  rw [← hsame.memory]
  exact e2

/-- If the lawful arithmetic carries both that of the program and another one, then the file is the best map in the other arithmetic. -/
theorem World.result (car : Carrier φ P k) (carψ : Carrier ψ P k) (hQ : ∀ a b, P a → P b → Q (sub a b)) (hcut : Cut ψ Q)
    {world' : World F} {world : World G} (hsame : SameWorld φ P k world' world) (hw : world.Reasonable jobs) (hruns : world'.Runs B jobs)
    {conv : F → D} {allowed : (Nat → Nat) → Prop} (hdev : world'.Devices conv allowed) (hconv : Faithful conv) {cl : CommandLine}
    (hr : ∀ o l r, cl = .parsed o → o.leftImage = some l → o.rightImage = some r → world.InRange k o l r) {out : Outcome}
    (h : program world cl = .ok out) {path text : Text} (hwr : out.written = some (path, text)) : world.Result H cl out path text := by
  obtain ⟨e1, e2, o, l, r, left, right, levels, c, s, im, q1, q2, q3, q4, q5, q6, q7, q8, q9, q10, q11, q12, -, q14, q15, q16, q17, q18, t, q19⟩ :=
    World.result_of (R := fun g im => ∃ t, BestMap g t im) car hsame hw (fun p ms f hc g hg hfit im him => by
      obtain ⟨t, ht⟩ := World.map_best hruns hdev hconv hc hg hw.jobs_pos hfit him
      exact ⟨ht.sized, t, ht⟩) hr h hwr
  refine ⟨e1, e2, o, l, r, left, right, levels, c, s, im, q1, q2, q3, q4, q5, q6, q7, q8, q9, accepted_map carψ q15 q16 q10, q11, q12, ?_, ?_, ψ t, ?_⟩
  · rw [q14.width]; exact q10.2.2.2.2.1.symm
  · rw [q14.height]; exact q10.2.2.2.2.2.1.symm
  · have := q19.map carψ q17 hQ hcut q18.width_pos q18.height_pos
    rwa [fresh_map carψ q15 q16] at this

end

section
variable {B : Nat} {jobs : UInt64} {world : World Double}

/-- C62 for `double`: whatever the number of threads and their schedules, whenever the program without OpenCL and CUDA writes a file, the
file is the best map, penalties being those computed with `double`. -/
theorem C91_written_file (hw : world.Reasonable jobs) (hruns : world.Runs B jobs) (hcpu : world.CpuOnly) (cl : CommandLine) (out : Outcome)
    (h : program world cl = .ok out) (path text : Text) (hwr : out.written = some (path, text)) : world.Result Double cl out path text := by
  obtain ⟨world', h1, h2, h3⟩ := World.pullDevice carrier_double carrier_double (fun _ => rfl) hruns hcpu.devices
  exact World.result carrier_double carrier_double (fun _ _ _ _ => trivial) (Ieee.cut_of _) h1 hw h2 h3 .id
    (fun o l r _ _ _ => world.inRange_192 o l r) h hwr

/-- Two executions of the program with `double` without OpenCL and CUDA write the same text for the same images, levels and weights,
whatever the numbers of threads and schedules. -/
theorem C91_same_file {world' : World Double} {B' : Nat} {jobs' : UInt64} (hw : world.Reasonable jobs) (hw' : world'.Reasonable jobs')
    (hruns : world.Runs B jobs) (hruns' : world'.Runs B' jobs') (hcpu : world.CpuOnly) (hcpu' : world'.CpuOnly)
    (hfile : world'.file = world.file) (o : Options) (parallel' output' : Option Text) (help' : Bool)
    (out out' : Outcome) (h : program world (.parsed o) = .ok out)
    (h' : program world' (.parsed { o with parallel := parallel', outputImage := output', help := help' }) = .ok out')
    (path text path' text' : Text) (hwr : out.written = some (path, text)) (hwr' : out'.written = some (path', text')) : text = text' := by
  obtain ⟨w, h1, h2, h3⟩ := World.pullDevice carrier_double carrier_double (fun _ => rfl) hruns hcpu.devices
  obtain ⟨w', h1', h2', h3'⟩ := World.pullDevice carrier_double carrier_double (fun _ => rfl) hruns' hcpu'.devices
  rw [program_transfer carrier_double h1 _ fun o l r _ _ _ => w.inRange_192 o l r] at h
  rw [program_transfer carrier_double h1' _ fun o l r _ _ _ => w'.inRange_192 o l r] at h'
  exact C62_same_file ⟨h1.memory ▸ hw.memory, hw.jobs_pos, hw.jobs_small, h1.room ▸ hw.room⟩
    ⟨h1'.memory ▸ hw'.memory, hw'.jobs_pos, hw'.jobs_small, h1'.room ▸ hw'.room⟩ h2 h2' h3 h3' .id .id
    (h1'.file.trans (hfile.trans h1.file.symm)) o parallel' output' help' out out' h h' path text path' text' hwr hwr'

/-! ## C92: exact optimum -/

/-- **C92**. If weights multiplied by squares of differences of intensities or levels are at most `2^53`, then the file written by the program
without OpenCL and CUDA is the best map in exact arithmetic: rounding of `double` changes nothing. -/
theorem C92_exact (hw : world.Reasonable jobs) (hruns : world.Runs B jobs) (hcpu : world.CpuOnly) (cl : CommandLine)
    (hr : ∀ o l r, cl = .parsed o → o.leftImage = some l → o.rightImage = some r → world.InRange 53 o l r) (out : Outcome)
    (h : program world cl = .ok out) (path text : Text) (hwr : out.written = some (path, text)) : world.Result ℚ cl out path text := by
  have car : Carrier toDouble (Ieee.Small 53) 53 := Ieee.carrier (.refl .binary64 (by decide))
  obtain ⟨world', h1, h2, h3⟩ := World.pullDevice car car (fun _ => rfl) hruns hcpu.devices
  have hk : 53 ≤ Format.binary64.digits := by decide
  exact World.result car (Format.value_carrier hk) (Format.difference_of hk) (Format.cut_value hk) h1 hw h2 h3 .id hr h hwr

/-! ## C93: `float` on devices -/

/-- `float` is a part of `double`. -/
theorem carrier_mixed : Carrier (Ieee.of Format.single_within_double) (Ieee.Small 24) 24 := Ieee.carrier Format.single_within_double.agree

theorem carrier_single : Carrier (Ieee.of (.refl .binary32)) (Ieee.Small 24) 24 := Ieee.carrier (.refl .binary32 (by decide))

variable {allowed : (Nat → Nat) → Prop}

/-- **C93**, what holds. Full statement: whatever the weights, the file written by the program is the best map in exact arithmetic, even if the
labeling is found by a device with `float`. It is false for large weights (`C93_float_device_refuted`). It holds if weights multiplied by
squares of differences of intensities or levels are at most `2^24`. -/
theorem C93_float_device_partial (hw : world.Reasonable jobs) (hruns : world.Runs B jobs)
    (hdev : world.Devices (Ieee.convert : Double → Single) allowed) (cl : CommandLine)
    (hr : ∀ o l r, cl = .parsed o → o.leftImage = some l → o.rightImage = some r → world.InRange 24 o l r) (out : Outcome)
    (h : program world cl = .ok out) (path text : Text) (hwr : out.written = some (path, text)) : world.Result ℚ cl out path text := by
  obtain ⟨world', h1, h2, h3⟩ := World.pullDevice carrier_mixed carrier_single (Ieee.convert_of _) hruns hdev
  have hk : 24 ≤ Format.binary32.digits := by decide
  exact World.result carrier_mixed (Format.value_carrier hk) (Format.difference_of hk) (Format.cut_value hk) h1 hw h2 h3 .id hr h hwr

end

/-! ## Usual numbers -/

/-- Sizes of numbers from sizes of weights, intensities and levels. -/
theorem World.inRange_of {F : Type} [FloatOps F] {world : World F} (hmem : world.memory < 2147483648) {k : ℕ} (o : Options) (l r : Text)
    (a b d e : ℕ) (hk : a + 2 * b ≤ k) (hk' : d + 2 * e ≤ k) (hc : ∀ c, weightNumber o.cleanness = .ok c → c.toNat ≤ 2 ^ a)
    (hs : ∀ s, weightNumber o.smoothness = .ok s → s.toNat ≤ 2 ^ d)
    (hl : ∀ im, readImage world l = .ok im → im.maxValue.toNat ≤ 2 ^ b ∧ ∀ n, levelsOption im o.disparityLevels = .ok n → n.toNat ≤ 2 ^ e)
    (hr : ∀ im, readImage world r = .ok im → im.maxValue.toNat ≤ 2 ^ b) : world.InRange k o l r := by
  intro left right levels c s h1 h2 h3 h4 h5
  have hpow : ∀ {i j n : ℕ}, i ≤ j → n ≤ 2 ^ i → n ≤ 2 ^ j := fun h hn => hn.trans (Nat.pow_le_pow_right (by norm_num) h)
  have key : ∀ {path : Text} {im : Image}, readImage world path = .ok im → imageValid im = .ok true → im.maxValue.toNat ≤ 2 ^ b →
      ∀ v ∈ im.data, v.toNat ≤ 2 ^ b := by
    intro path im hi hv hm v hmem'
    obtain ⟨tx, -, pl, sl⟩ := readImage_ok hi
    have hz := pgmOf_sized pl sl hmem
    obtain ⟨x, ex, hx⟩ := imageValid_mk im hz.size hz.small
    rw [hv] at ex
    cases ex
    exact ((hx.1 rfl).2.2.2 v hmem').trans hm
  exact ⟨hpow (by omega) (hc c h4), hpow (by omega) (hs s h5), fun v1 v2 =>
    ⟨⟨a, b, hk, hc c h4, key h1 v1 (hl left h1).1, key h2 v2 (hr right h2)⟩, ⟨d, e, hk', hs s h5, (hl left h1).2 levels h3⟩⟩⟩

/-- Images of 8 bits, not more than 4096 levels, weights that are not given: devices with `float` give the exact optimum. -/
theorem C93_usual_partial {B : Nat} {jobs : UInt64} {world : World Double} {allowed : (Nat → Nat) → Prop} (hw : world.Reasonable jobs)
    (hruns : world.Runs B jobs) (hdev : world.Devices (Ieee.convert : Double → Single) allowed) (o : Options) (hc : o.cleanness = none)
    (hs : o.smoothness = none)
    (hl : ∀ l im, o.leftImage = some l → readImage world l = .ok im → im.maxValue ≤ 255 ∧ ∀ n, levelsOption im o.disparityLevels = .ok n → n ≤ 4096)
    (hr : ∀ r im, o.rightImage = some r → readImage world r = .ok im → im.maxValue ≤ 255) (out : Outcome)
    (h : program world (.parsed o) = .ok out) (path text : Text) (hwr : out.written = some (path, text)) :
    world.Result ℚ (.parsed o) out path text := by
  refine C93_float_device_partial hw hruns hdev _ (fun o' l r ho h1 h2 => ?_) out h path text hwr
  cases ho
  have one : ∀ c, weightNumber (none : Option Text) = .ok c → c.toNat ≤ 2 ^ 0 := by
    intro c hc
    cases hc
    decide
  refine World.inRange_of hw.memory o l r 0 8 0 12 (by norm_num) (by norm_num) (by rw [hc]; exact one) (by rw [hs]; exact one) ?_ ?_
  · intro im hi
    obtain ⟨k1, k2⟩ := hl l im h1 hi
    exact ⟨(UInt64.le_iff_toNat_le.1 k1).trans (by decide), fun n hn => (UInt64.le_iff_toNat_le.1 (k2 n hn)).trans (by decide)⟩
  · intro im hi
    exact (UInt64.le_iff_toNat_le.1 (hr r im h2 hi)).trans (by decide)

end SP
