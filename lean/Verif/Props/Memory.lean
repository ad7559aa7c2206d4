import Verif.Props.Images
import Verif.Model.Memory
/-!
# C106: not enough memory

Whatever allocations fail, the program does what it does if there is enough memory, or it writes nothing and prints a message.
-/
namespace SP
open FloatOps

theorem Refines.bind_of {E : Err → Prop} {β γ : Type} {m m' : M β} {f f' : β → M γ} (h : Refines E m m')
    (hf : ∀ a, m = .ok a → Refines E (f a) (f' a)) : Refines E (m >>= f) (m' >>= f') := by
  rcases h with ⟨e, he, rfl⟩ | rfl
  · exact .inl ⟨e, he, rfl⟩
  · cases m with
    | error e => exact .inr rfl
    | ok a => exact hf a rfl

/-- An allocation before `m'`. -/
theorem Refines.after {E : Err → Prop} {β : Type} {m m' : M β} {a : M Unit} (ha : ∀ e, a = .error e → E e) (h : Refines E m m') :
    Refines E m (a >>= fun _ => m') := by
  cases a with
  | error e => exact .inl ⟨e, ha e rfl, rfl⟩
  | ok u => exact h

variable {F : Type} [FloatOps F]

/-- The reparametrization is longer than a vector may be. -/
def TooLong (world : World F) (o : Options) (l r : Text) : Prop :=
  ∃ left right levels, readImage world l = .ok left ∧ readImage world r = .ok right ∧ levelsOption left o.disparityLevels = .ok levels ∧
    MAX_SIZE < left.width.toNat * left.height.toNat * 4 * levels.toNat

/-- Exceptions because of memory. -/
inductive OutOfMemory (memory : Memory) (large : Prop) : Err → Prop where
  | allocation (a : Allocation) (n : Nat) (h : memory a n = false) : OutOfMemory memory large (.exc .badAlloc)
  | length (h : large) : OutOfMemory memory large (.exc .lengthError)

section
variable {memory : Memory} {large : Prop}

theorem Memory.new_error (a : Allocation) (n : Nat) : ∀ e, memory.new a n = .error e → OutOfMemory memory large e := by
  intro e h
  unfold Memory.new at h
  cases hm : memory a n with
  | true => rw [hm] at h; cases h
  | false => rw [hm] at h; cases h; exact .allocation a n hm

theorem Memory.vector_error {a : Allocation} {n max : Nat} (hn : max < n → large) :
    ∀ e, memory.vector a n max = .error e → OutOfMemory memory large e := by
  intro e h
  unfold Memory.vector at h
  split at h
  · cases h
    exact .length (hn ‹_›)
  · exact Memory.new_error a n e h

/-- Sizes of arrays of the graph are allowed. -/
structure Allowed (g : DisparityGraph F) : Prop where
  pixels : (g.right.height * g.right.width).toNat ≤ MAX_SIZE
  neighborhoods : (NEIGHBORS_COUNT * g.right.height * g.right.width).toNat ≤ MAX_SIZE
  nodes : (g.right.width * g.right.height * g.disparityLevels).toNat ≤ MAX_BITS
  map : (g.left.height * g.left.width).toNat ≤ MAX_SIZE

theorem limited_lowest {g : DisparityGraph F} (hg : Allowed g) :
    Refines (OutOfMemory memory large) (mkLowestPenalties g) (Limited.mkLowestPenalties memory g) :=
  .after (Memory.vector_error fun h => absurd hg.pixels (by omega)) <|
    .after (Memory.vector_error fun h => absurd hg.neighborhoods (by omega)) (.refl _)

theorem limited_fetch (p : LowestPenalties F) :
    Refines (OutOfMemory memory large) (fetchAvailablePenalties p) (Limited.fetchAvailablePenalties memory p) := by
  unfold fetchAvailablePenalties Limited.fetchAvailablePenalties
  refine .cfor fun x s => .bind (.cfor fun y s => ?_) fun s => .refl _
  refine .bind (.refl _) fun l => .bind (.refl _) fun a => .after (Memory.new_error _ _) <| .bind (.cfor fun n s => ?_) fun s => .refl _
  exact .ite (.refl _) (.bind (.refl _) fun l => .bind (.refl _) fun a => .after (Memory.new_error _ _) (.refl _))

theorem limited_constraint {g : DisparityGraph F} (hg : Allowed g) (n : Nat) (p : LowestPenalties F) (t : F) :
    Refines (OutOfMemory memory large) (mkConstraintGraph g p t) (Limited.mkConstraintGraph memory n g p t) :=
  .after (Memory.vector_error fun h => absurd hg.nodes (by omega)) (.refl _)

variable {solve : Solver F}

theorem limited_search {g : DisparityGraph F} (hg : Allowed g) {p : LowestPenalties F} {arr : Array F} (fuel : Nat) (lo hi : UInt64) (calls : Nat) :
    Refines (OutOfMemory memory large) (Par.thresholdSearch solve p g arr fuel lo hi calls)
      (Limited.thresholdSearch memory solve p g arr fuel lo hi calls) := by
  induction fuel generalizing lo hi calls with
  | zero => exact .refl _
  | succ fuel ih =>
    unfold Par.thresholdSearch Limited.thresholdSearch
    refine .ite (.bind (.refl _) fun t => .bind (limited_constraint hg _ _ _) fun c => .bind (.refl _) fun r => ?_) (.refl _)
    exact .ite (ih _ _ _) (ih _ _ _)

theorem limited_solved {g : DisparityGraph F} (hg : Allowed g) :
    Refines (OutOfMemory memory large) (Par.solvedGraph solve g) (Limited.solvedGraph memory solve g) := by
  have e : Par.solvedGraph solve g = (mkLowestPenalties g >>= fun p => fetchAvailablePenalties p >>= fun a =>
      Par.calculateMinimalConsistentThreshold solve p g a.toArray >>= fun q => mkConstraintGraph g p q.1 >>= fun c => solve q.2 c >>= fun r => do
        if !r.2 then throw (.exc (.logicError "Cannot solve CSP problem. This should not ever happen. Refer to the developers."))
        return (r.1, q.2 + 1)) := by
    unfold Par.solvedGraph Par.minimalThreshold
    simp only [bind_assoc, pure_bind]
  rw [e]
  unfold Limited.solvedGraph
  refine .bind (limited_lowest hg) fun p => .bind (limited_fetch p) fun a => .bind ?_ fun q => .bind (limited_constraint hg _ _ _) fun c =>
    .bind (.refl _) fun r => .refl _
  exact .after (Memory.new_error _ _) (.bind (limited_search hg _ _ _ _) fun r => .refl _)

theorem limited_labeled {g : DisparityGraph F} (hg : Allowed g) (label : Labeler F) :
    Refines (OutOfMemory memory large) (Par.labeledMap solve label g) (Limited.labeledMap memory solve label g) := by
  unfold Par.labeledMap Limited.labeledMap
  refine .bind (limited_solved hg) fun r => .bind (.refl _) fun r => .ite (.refl _) ?_
  exact .after (Memory.vector_error fun h => absurd hg.map (by omega)) (.refl _)

end

/-- Sizes of a graph that has been read. -/
theorem accepted_sizes {left right : Image} {levels : UInt64} {c s : F} (ha : AcceptedInput left right levels c s)
    (hl : left.Sized) (hs : left.data.size < 2147483648) :
    (left.width * left.height * NEIGHBORS_COUNT * levels).toNat = left.width.toNat * left.height.toNat * 4 * levels.toNat ∧
    Allowed (freshGraph left right levels c s) := by
  have hfit := accepted_fits ha hl hs
  have hsz : left.width.toNat * left.height.toNat < 2147483648 := hl.size ▸ hs
  obtain ⟨⟨w1, h1, -, -⟩, -, h5, h6, h7, h8, -⟩ := ha
  have hL : levels.toNat < 2147483648 := by nlinarith
  have hm : left.height.toNat * left.width.toNat < 2147483648 := by rw [Nat.mul_comm]; exact hsz
  have hnodes : left.width.toNat * left.height.toNat * levels.toNat < 9223372036854775744 := by nlinarith
  have four : NEIGHBORS_COUNT.toNat = 4 := rfl
  have e1 : (left.width * left.height).toNat = left.width.toNat * left.height.toNat := by
    rw [UInt64.toNat_mul, Nat.mod_eq_of_lt (by omega)]
  have e2 : (left.height * left.width).toNat = left.height.toNat * left.width.toNat := by
    rw [UInt64.toNat_mul, Nat.mod_eq_of_lt (by omega)]
  have e3 : (left.width * left.height * NEIGHBORS_COUNT).toNat = left.width.toNat * left.height.toNat * 4 := by
    rw [UInt64.toNat_mul, e1, four, Nat.mod_eq_of_lt (by omega)]
  have h4 : left.height.toNat ≤ left.height.toNat * left.width.toNat := Nat.le_mul_of_pos_right _ w1
  have e4 : (NEIGHBORS_COUNT * left.height).toNat = 4 * left.height.toNat := by
    rw [UInt64.toNat_mul, four, Nat.mod_eq_of_lt (by omega)]
  refine ⟨?_, ⟨?_, ?_, ?_, ?_⟩⟩
  · rw [UInt64.toNat_mul, e3, Nat.mod_eq_of_lt hfit]
  · show (right.height * right.width).toNat ≤ _
    rw [← h7, ← h8, e2]
    exact le_trans hm.le (by decide)
  · show (NEIGHBORS_COUNT * right.height * right.width).toNat ≤ _
    rw [← h7, ← h8, UInt64.toNat_mul, e4, Nat.mul_assoc, Nat.mod_eq_of_lt (by omega)]
    exact le_trans (Nat.mul_le_mul_left 4 hm.le) (by decide)
  · show (right.width * right.height * levels).toNat ≤ _
    rw [← h7, ← h8, UInt64.toNat_mul, e1, Nat.mod_eq_of_lt (by omega)]
    exact hnodes.le
  · show (left.height * left.width).toNat ≤ _
    rw [e2]
    exact le_trans hm.le (by decide)

section
variable {memory : Memory} {world : World F}

theorem readGraph_allowed (hw : world.memory < 2147483648) {o : Options} {l r : Text} {g : DisparityGraph F} (h : readGraph world o l r = .ok g) :
    Allowed g := by
  unfold readGraph at h
  obtain ⟨left, h1, h⟩ := bind_eq_ok h
  obtain ⟨right, h2, h⟩ := bind_eq_ok h
  obtain ⟨levels, h3, h⟩ := bind_eq_ok h
  obtain ⟨c, -, h⟩ := bind_eq_ok h
  obtain ⟨s, -, h⟩ := bind_eq_ok h
  have hl := readImage_sized hw h1
  have hr := readImage_sized hw h2
  obtain ⟨-, -, -, hs⟩ := readImage_ok h1
  by_cases ha : AcceptedInput left right levels c s
  · rw [(mkDisparityGraph_mk hl hr).1 ha] at h
    cases h
    exact (accepted_sizes ha hl (by omega)).2
  · obtain ⟨what, e⟩ := (mkDisparityGraph_mk hl hr).2 ha
    rw [e] at h
    cases h

omit [FloatOps F] in
theorem limited_readImage {large : Prop} (n : Nat) (path : Text) :
    Refines (OutOfMemory memory large) (readImage world path) (Limited.readImage memory world n path) := by
  unfold Limited.readImage
  cases readImage world path with
  | error e => exact .refl _
  | ok im => exact .after (Memory.new_error _ _) (.refl _)

theorem limited_readGraph (hw : world.memory < 2147483648) (o : Options) (l r : Text) :
    Refines (OutOfMemory memory (TooLong world o l r)) (readGraph world o l r) (Limited.readGraph memory world o l r) := by
  unfold readGraph Limited.readGraph
  refine .bind_of (limited_readImage 0 l) fun left h1 => .bind_of (limited_readImage 1 r) fun right h2 => .bind_of (.refl _) fun levels h3 =>
    .bind (.refl _) fun c => .bind (.refl _) fun s => ?_
  unfold Limited.mkDisparityGraph
  refine .after (Memory.new_error _ _) (.after (Memory.new_error _ _) ?_)
  have hl := readImage_sized hw h1
  have hr := readImage_sized hw h2
  obtain ⟨-, -, -, hs⟩ := readImage_ok h1
  by_cases ha : AcceptedInput left right levels c s
  · rw [(mkDisparityGraph_mk hl hr).1 ha, bind_ok]
    refine .after (Memory.vector_error fun h => ?_) (.refl _)
    rw [(accepted_sizes ha hl (by omega)).1] at h
    exact ⟨left, right, levels, h1, h2, h3, h⟩
  · obtain ⟨what, e⟩ := (mkDisparityGraph_mk hl hr).2 ha
    rw [e]
    exact .refl _

theorem limited_compute (hw : world.memory < 2147483648) (o : Options) (label : Labeler F) (l r output : Text) :
    Refines (OutOfMemory memory (TooLong world o l r)) (compute world o label l r output) (Limited.compute memory world o label l r output) := by
  unfold compute Limited.compute
  exact .bind_of (limited_readGraph hw o l r) fun g hg => .bind (limited_labeled (readGraph_allowed hw hg) label) fun im => .refl _

/-- **C106**. Whatever allocations fail, the program does the same as with enough memory, or it writes nothing, prints the message about
memory and ends with status 1. There is one exception: if the reparametrization has more elements than a vector may have, `std::length_error`
is thrown; it is a `std::logic_error`, so the status is 0. -/
theorem C106_memory (hw : world.memory < 2147483648) (cl : CommandLine) :
    Limited.program memory world cl = program world cl ∨
    ((∃ a n, memory a n = false) ∧ ∃ out, Limited.program memory world cl =
      .ok { exit := 1, out := out, err := [.unexpected "std::bad_alloc"] }) ∨
    (∃ o l r, cl = .parsed o ∧ o.leftImage = some l ∧ o.rightImage = some r ∧ TooLong world o l r) ∧ ∃ out, Limited.program memory world cl =
      .ok { exit := 0, out := out, err := [.logicError "vector"] } := by
  unfold Limited.program
  cases hstart : memory .start 0 with
  | false => exact .inr (.inl ⟨⟨_, _, hstart⟩, [], rfl⟩)
  | true =>
    simp only [Bool.not_true, Bool.false_eq_true, if_false]
    cases cl with
    | repeated => exact .inl rfl
    | wrong => exact .inl rfl
    | parsed o =>
      simp only
      rcases ho : o.outputImage with _ | output <;> rcases hl : o.leftImage with _ | l <;> rcases hr : o.rightImage with _ | r <;>
        try exact .inl rfl
      simp only
      cases hc : chooseParallelism world o.parallel with
      | none => exact .inl rfl
      | some q =>
        obtain ⟨out, label⟩ := q
        have hp : program world (.parsed o) = handle out (compute world o label l r output) := by
          unfold program
          simp only [ho, hl, hr, hc]
        simp only
        rw [hp]
        rcases limited_compute (memory := memory) hw o label l r output with ⟨e, he, h⟩ | h
        · rw [h]
          cases he with
          | allocation a n ha =>
            refine .inr (.inl ⟨⟨a, n, ha⟩, out, ?_⟩)
            unfold Limited.thrown
            simp only
            split <;> rfl
          | length hlarge =>
            unfold Limited.thrown
            simp only
            split
            · exact .inr (.inr ⟨⟨o, l, r, rfl, hl, hr, hlarge⟩, out, rfl⟩)
            · exact .inr (.inl ⟨⟨_, _, (Bool.not_eq_true _).mp ‹¬ memory .message 0 = true›⟩, out, rfl⟩)
        · rw [← h]
          cases compute world o label l r output with
          | ok w => exact .inl rfl
          | error e =>
            cases e with
            | exc e =>
              unfold Limited.thrown
              simp only
              split
              · exact .inl rfl
              · exact .inr (.inl ⟨⟨_, _, (Bool.not_eq_true _).mp ‹¬ memory .message 0 = true›⟩, out, rfl⟩)
            | _ => exact .inl rfl

/-- A file is written only if it is written with enough memory, and it is the same file. -/
theorem C106_written (hw : world.memory < 2147483648) (cl : CommandLine) (out : Outcome) (h : Limited.program memory world cl = .ok out)
    (hwr : out.written ≠ none) : program world cl = .ok out := by
  rcases C106_memory (memory := memory) hw cl with h1 | ⟨-, out', h1⟩ | ⟨-, out', h1⟩
  · exact h1 ▸ h
  · rw [h] at h1; cases h1; exact absurd rfl hwr
  · rw [h] at h1; cases h1; exact absurd rfl hwr

/-- If there is enough memory and `4 * width * height * levels` is less than `2^60`, then nothing is different. -/
theorem C106_enough (hw : world.memory < 2147483648) (henough : ∀ a n, memory a n = true) (cl : CommandLine)
    (hsmall : ∀ o l r, cl = .parsed o → o.leftImage = some l → o.rightImage = some r → ¬ TooLong world o l r) :
    Limited.program memory world cl = program world cl := by
  rcases C106_memory (memory := memory) hw cl with h1 | ⟨⟨a, n, h⟩, -⟩ | ⟨⟨o, l, r, h1, h2, h3, h⟩, -⟩
  · exact h1
  · rw [henough] at h; cases h
  · exact absurd h (hsmall o l r h1 h2 h3)

/-- With less than `2^29` pixels no array is too large. -/
theorem C106_small (hw : world.memory < 536870912) {o : Options} {l r : Text} {left : Image} {levels : UInt64}
    (h1 : readImage world l = .ok left) (h3 : levelsOption left o.disparityLevels = .ok levels) (hle : levels ≤ left.width)
    (h0 : 0 < left.height) : ¬ TooLong world o l r := by
  rintro ⟨left', right', levels', e1, -, e3, h⟩
  cases h1.symm.trans e1
  cases h3.symm.trans e3
  have hs := readImage_sized (by omega) h1
  obtain ⟨-, -, -, hm⟩ := readImage_ok h1
  rw [hs.size] at hm
  have hle' := UInt64.le_iff_toNat_le.1 hle
  have h0' := UInt64.lt_iff_toNat_lt.1 h0
  have h0'' : 1 ≤ left.height.toNat := h0'
  have : left.width.toNat ≤ left.width.toNat * left.height.toNat := Nat.le_mul_of_pos_right _ h0''
  have k1 : left.width.toNat * left.height.toNat ≤ 536870911 := by omega
  have k2 : levels.toNat ≤ 536870911 := by omega
  have : left.width.toNat * left.height.toNat * 4 * levels.toNat ≤ 536870911 * 4 * 536870911 :=
    Nat.mul_le_mul (Nat.mul_le_mul_right 4 k1) k2
  have : MAX_SIZE = 1152921504606846975 := rfl
  omega

/-- An array that is too large ends the program with status 0, whatever the memory for it is, if there is enough memory for everything before it. -/
theorem C106_too_long (hw : world.memory < 2147483648) {o : Options} {l r output : Text} {left right : Image} {levels : UInt64} {c s : F}
    {out : List Message} {label : Labeler F} (ho : o.outputImage = some output)
    (hl : o.leftImage = some l) (hr : o.rightImage = some r) (hp : chooseParallelism world o.parallel = some (out, label))
    (h1 : readImage world l = .ok left) (h2 : readImage world r = .ok right) (h3 : levelsOption left o.disparityLevels = .ok levels)
    (h4 : weightOption o.cleanness = .ok c) (h5 : weightOption o.smoothness = .ok s) (ha : AcceptedInput left right levels c s)
    (hlarge : MAX_SIZE < left.width.toNat * left.height.toNat * 4 * levels.toNat)
    (hm : memory .start 0 = true ∧ (∀ k n, memory (.image k) n = true) ∧ memory .message 0 = true) :
    Limited.program memory world (.parsed o) = .ok { exit := 0, out := out, err := [.logicError "vector"] } := by
  have hnew : ∀ k n, memory.new (.image k) n = .ok () := by
    intro k n
    unfold Memory.new
    rw [hm.2.1, if_pos rfl]
  have hg : Limited.readGraph memory world o l r = .error (.exc .lengthError) := by
    unfold Limited.readGraph Limited.readImage Limited.mkDisparityGraph
    simp only [h1, h2, h3, h4, h5, hnew, bind_ok, pure_bind]
    have hsl := readImage_sized hw h1
    obtain ⟨-, -, -, hs⟩ := readImage_ok h1
    rw [(mkDisparityGraph_mk hsl (readImage_sized hw h2)).1 ha, bind_ok, (accepted_sizes ha hsl (by omega)).1]
    unfold Memory.vector
    rw [if_pos hlarge]
    rfl
  unfold Limited.program Limited.compute
  simp only [hm.1, ho, hl, hr, hp, hg]
  show handle out (Limited.thrown memory (.error (.exc .lengthError))) = _
  unfold Limited.thrown
  simp only [hm.2.2, if_true]
  rfl

end

/-! ## Examples -/

/-- The exception happens: two images of `1 × 2^30` pixels with `2^30` levels. -/
theorem C106_too_long_example : ∃ (world : World Double) (o : Options), world.memory < 2147483648 ∧
    Limited.program (fun _ _ => true) world (.parsed o) = .ok { exit := 0, err := [.logicError "vector"] } := by
  obtain ⟨n, hn⟩ : ∃ n : UInt64, n.toNat = 1073741824 := ⟨1073741824, rfl⟩
  have hsized : (Image.mk n 1 1 (Array.replicate n.toNat 0)).Sized :=
    ⟨by rw [Array.size_replicate]; exact (Nat.mul_one _).symm, by rw [Array.size_replicate]; omega⟩
  have hm : (Image.mk n 1 1 (Array.replicate n.toNat 0)).Meaningful := by
    refine ⟨by show 0 < n.toNat; omega, by show 0 < (1 : UInt64).toNat; decide, by show 0 < (1 : UInt64).toNat; decide, ?_⟩
    intro v hv
    rw [Array.mem_replicate] at hv
    rw [hv.2]
    exact Nat.zero_le _
  obtain ⟨text, -, ⟨s, im⟩, hread, hfail, rfl⟩ := C46_round_trip _ hsized hm (by show (1 : UInt64) ≤ 65536; decide) n.toNat
    (by rw [Array.size_replicate]) none
  let world : World Double := { file := fun _ => some text, writable := fun _ => true, memory := n.toNat, solve := fun _ => solveCsp 1 }
  have himage : ∀ path, readImage world path = .ok ⟨n, 1, 1, Array.replicate n.toNat 0⟩ := by
    intro path
    unfold readImage
    simp only [world, hread, bind_ok]
    rw [show s.fail = false from hfail]
    rfl
  refine ⟨world,
    { leftImage := some (bytes "l"), rightImage := some (bytes "r"), outputImage := some (bytes "o") },
    by show n.toNat < _; omega,
    C106_too_long (output := bytes "o") (label := Par.labelCpu world.solve) (c := ofNat 1) (s := ofNat 1)
      (by show n.toNat < _; omega) rfl rfl rfl rfl
      (himage _) (himage _) rfl rfl rfl 
      ⟨hm, hm, by show 1 < n.toNat; omega, le_refl _, rfl, rfl, rfl, by decide +kernel, by decide +kernel, .inl (by decide +kernel)⟩ ?_
      ⟨rfl, fun _ _ => rfl, rfl⟩⟩
  show MAX_SIZE < n.toNat * 1 * 4 * n.toNat
  rw [hn]
  decide

-- there is memory for everything but the graph number 1
example : Limited.program (fun a _ => a != .nodes 1) smallWorld (.parsed (smallOptions "o")) =
    .ok { exit := 1, out := [.openMP], err := [.unexpected "std::bad_alloc"] } := by decide +kernel

-- arrays of at most 48 elements are enough for 3×2 pixels with 2 levels, and a map is written
example : Limited.program (fun _ n => decide (n ≤ 48)) smallWorld (.parsed (smallOptions "o")) =
    .ok { exit := 0, out := [.openMP], written := some (bytes "o", bytes "P2\n3 2\n2\n1 1 0\n1 1 0\n") } := by decide +kernel

end SP
