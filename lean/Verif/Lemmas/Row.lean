import Verif.Spec.Row
import Verif.Lemmas.Finder
import Verif.Lemmas.MinClosed
/-!
# Facts about constraint satisfaction in a row (independent of the code)
-/
set_option linter.unusedSectionVars false

namespace SP
open FloatOps
variable {w : Nat} {E : EdgeRel} {S T U : NodeSet} {L : Nat → Nat → Nat}

theorem hasNb_row {x y k : Nat} : HasNb w 1 x y k ↔ y = 0 ∧ ((k = 0 ∧ x + 1 < w) ∨ (k = 1 ∧ 0 < x ∧ x < w)) := by
  unfold HasNb
  omega

theorem supported_row {x d : Nat} (hx : x < w) : Supported w 1 E S x 0 d ↔
    (0 < x → ∃ d', S (x - 1) 0 d' ∧ E x 0 1 d d') ∧ (x + 1 < w → ∃ d', S (x + 1) 0 d' ∧ E x 0 0 d d') := by
  constructor
  · intro h
    exact ⟨fun h0 => h 1 (hasNb_row.2 ⟨rfl, .inr ⟨rfl, h0, hx⟩⟩), fun h1 => h 0 (hasNb_row.2 ⟨rfl, .inl ⟨rfl, h1⟩⟩)⟩
  · rintro ⟨h1, h2⟩ k hk
    obtain ⟨-, ⟨rfl, h⟩ | ⟨rfl, h, -⟩⟩ := hasNb_row.1 hk
    · exact h2 h
    · exact h1 h

/-- Edges to the right are edges to the left. -/
theorem edge_left (hs : EdgeSymm w 1 E) {x d d' : Nat} (hx : x + 1 < w) : E x 0 0 d d' ↔ E (x + 1) 0 1 d' d := by
  constructor
  · exact hs x 0 0 d d' (hasNb_row.2 ⟨rfl, .inl ⟨rfl, hx⟩⟩)
  · exact hs (x + 1) 0 1 d' d (hasNb_row.2 ⟨rfl, .inr ⟨rfl, by omega, hx⟩⟩)

theorem consistent_row (hs : EdgeSymm w 1 E) : Consistent w 1 E S L ↔
    ∀ x, x < w → S x 0 (L x 0) ∧ (0 < x → E x 0 1 (L x 0) (L (x - 1) 0)) := by
  constructor
  · intro h x hx
    exact ⟨(h x 0 hx (by omega)).1, fun h0 => (h x 0 hx (by omega)).2 1 (hasNb_row.2 ⟨rfl, .inr ⟨rfl, h0, hx⟩⟩)⟩
  · intro h x y hx hy
    obtain rfl : y = 0 := by omega
    refine ⟨(h x hx).1, fun k hk => ?_⟩
    obtain ⟨-, ⟨rfl, h1⟩ | ⟨rfl, h1, -⟩⟩ := hasNb_row.1 hk
    · exact (edge_left hs h1).2 ((h (x + 1) h1).2 (by omega))
    · exact (h x hx).2 h1

/-- The pixels of a row. -/
def rowOrder (w : Nat) : List (Nat × Nat) := (List.range w).map fun x => (x, 0)

theorem solveOrder_row {jobs : Nat} (hj : 0 < jobs) : solveOrder w 1 jobs = rowOrder w := by
  unfold solveOrder
  obtain ⟨n, rfl⟩ : ∃ n, jobs = n + 1 := ⟨jobs - 1, by omega⟩
  rw [List.range_succ_eq_map, List.flatMap_cons]
  have h0 : jobRows 1 (n + 1) 0 = 1 := by
    unfold jobRows
    rw [show 1 - 0 + (n + 1 - 1) = n + 1 by omega]
    exact Nat.div_self (by omega)
  have h1 : ∀ i, jobRows 1 (n + 1) (i + 1) = 0 := by
    intro i
    unfold jobRows
    exact Nat.div_eq_of_lt (by omega)
  have h2 : ((List.map Nat.succ (List.range n)).flatMap fun i => jobPixels w (n + 1) i (jobRows 1 (n + 1) i)) = [] := by
    rw [List.flatMap_eq_nil_iff]
    intro i hi
    obtain ⟨j, -, rfl⟩ := List.mem_map.1 hi
    rw [Nat.succ_eq_add_one, h1]
    rfl
  rw [h2, h0, List.append_nil]
  unfold jobPixels rowOrder
  simp

/-- The nodes left after a pass from left to right. -/
theorem sweep_row {x d : Nat} : sweep w 1 E (rowOrder w) S x 0 d ↔ S x 0 d ∧ (x < w →
    (0 < x → ∃ d', sweep w 1 E (rowOrder w) S (x - 1) 0 d' ∧ E x 0 1 d d') ∧
    (x + 1 < w → ∃ d', S (x + 1) 0 d' ∧ E x 0 0 d d')) := by
  have key : ∀ m, m ≤ w → ∀ x d, sweep w 1 E (rowOrder m) S x 0 d ↔ S x 0 d ∧ (x < m →
      (0 < x → ∃ d', sweep w 1 E (rowOrder m) S (x - 1) 0 d' ∧ E x 0 1 d d') ∧
      (x + 1 < w → ∃ d', S (x + 1) 0 d' ∧ E x 0 0 d d')) := by
    intro m
    induction m with
    | zero => intro _ x d; simp [rowOrder, sweep]
    | succ m ih =>
      intro hm x d
      have ih := ih (by omega)
      have e : rowOrder (m + 1) = rowOrder m ++ [(m, 0)] := by simp [rowOrder, List.range_succ]
      rw [e, sweep_snoc]
      have hoth : ∀ x d, x ≠ m → (removeUnsupported w 1 E (sweep w 1 E (rowOrder m) S) m 0 x 0 d ↔
          sweep w 1 E (rowOrder m) S x 0 d) := fun x d hne => removeUnsupported_other fun h => hne h.1
      by_cases hx : x = m
      · subst hx
        have h0 : ∀ d, sweep w 1 E (rowOrder x) S x 0 d ↔ S x 0 d := fun d => by rw [ih x d]; simp
        have h1 : ∀ d, sweep w 1 E (rowOrder x) S (x + 1) 0 d ↔ S (x + 1) 0 d := fun d => by
          rw [ih (x + 1) d]
          constructor
          · exact fun h => h.1
          · exact fun h => ⟨h, fun h => by omega⟩
        unfold removeUnsupported
        simp only [h0, and_self, forall_const]
        rw [supported_row (by omega)]
        refine and_congr_right fun _ => ?_
        rw [show (x < x + 1) ↔ True by simp, true_imp_iff]
        refine and_congr (forall_congr' fun hpos => exists_congr fun d' => ?_) (forall_congr' fun _ => exists_congr fun d' => ?_)
        · refine and_congr ⟨fun h => ⟨h, fun h => absurd h.1 (by omega)⟩, fun h => h.1⟩ Iff.rfl
        · rw [h1]
      · rw [hoth x d hx, ih x d]
        refine and_congr_right fun _ => ?_
        by_cases hlt : x < m
        · rw [show (x < m) ↔ (x < m + 1) from ⟨fun _ => by omega, fun _ => hlt⟩]
          refine forall_congr' fun _ => and_congr (forall_congr' fun hpos => exists_congr fun d' => ?_) Iff.rfl
          rw [hoth (x - 1) d' (by omega)]
        · exact ⟨fun _ h => by omega, fun _ h => by omega⟩
  exact key w (Nat.le_refl w) x d

/-- A chain to the left. -/
theorem chain_left (hT : ∀ x d, x < w → T x 0 d → 0 < x → ∃ d', T (x - 1) 0 d' ∧ E x 0 1 d d') :
    ∀ x d, x < w → T x 0 d → ∃ L : Nat → Nat → Nat, L x 0 = d ∧ ∀ x', x' ≤ x → T x' 0 (L x' 0) ∧
      (0 < x' → E x' 0 1 (L x' 0) (L (x' - 1) 0)) := by
  intro x
  induction x with
  | zero =>
    intro d _ hd
    refine ⟨fun _ _ => d, rfl, fun x' hx' => ?_⟩
    obtain rfl : x' = 0 := by omega
    exact ⟨hd, fun h => absurd h (by omega)⟩
  | succ x ih =>
    intro d hx hd
    obtain ⟨d', h1, h2⟩ := hT (x + 1) d hx hd (by omega)
    obtain ⟨L, h3, h4⟩ := ih d' (by omega) h1
    refine ⟨fun x' y => if x' = x + 1 then d else L x' y, by simp, fun x' hx' => ?_⟩
    rcases Nat.lt_or_ge x x' with h | h
    · obtain rfl : x' = x + 1 := by omega
      simp only [if_true, Nat.add_sub_cancel]
      rw [if_neg (by omega), h3]
      exact ⟨hd, fun _ => h2⟩
    · simp only
      rw [if_neg (by omega), if_neg (by omega)]
      exact h4 x' h

/-- A pass from left to right decides whether there is a labeling: the nodes left in the last column are those to which there are chains from the first one. -/
theorem row_labeling (hs : EdgeSymm w 1 E) (hw : 0 < w) (hal : AllAlive w 1 (sweep w 1 E (rowOrder w) S)) :
    ∃ L, Consistent w 1 E S L := by
  obtain ⟨d, hd⟩ := hal (w - 1) 0 (by omega) (by omega)
  obtain ⟨L, -, hL⟩ := chain_left (T := sweep w 1 E (rowOrder w) S) (w := w) (E := E)
    (fun x d hx h => ((sweep_row.1 h).2 hx).1) (w - 1) d (by omega) hd
  refine ⟨L, (consistent_row hs).2 fun x hx => ?_⟩
  obtain ⟨h1, h2⟩ := hL x (by omega)
  exact ⟨sweep_sub _ _ _ _ h1, h2⟩

/-- Each node of an arc consistent set belongs to a labeling. -/
theorem row_extend (hs : EdgeSymm w 1 E) (ha : ArcConsistent w 1 E T) {x d : Nat} (hx : x < w) (hd : T x 0 d) :
    ∃ L, Consistent w 1 E T L ∧ L x 0 = d := by
  have hleft : ∀ x d, x < w → T x 0 d → 0 < x → ∃ d', T (x - 1) 0 d' ∧ E x 0 1 d d' :=
    fun x d hx h => ((supported_row hx).1 (ha x 0 d h)).1
  obtain ⟨L0, h0, h1⟩ := chain_left hleft x d hx hd
  -- to the right
  have hright : ∀ n, x + n < w → ∃ L : Nat → Nat → Nat, L x 0 = d ∧ ∀ x', x' ≤ x + n → T x' 0 (L x' 0) ∧
      (0 < x' → E x' 0 1 (L x' 0) (L (x' - 1) 0)) := by
    intro n
    induction n with
    | zero => exact fun _ => ⟨L0, h0, h1⟩
    | succ n ih =>
      intro hn
      obtain ⟨L, h2, h3⟩ := ih (by omega)
      obtain ⟨d', h4, h5⟩ := ((supported_row (by omega)).1 (ha (x + n) 0 _ (h3 (x + n) (by omega)).1)).2 (by omega)
      refine ⟨fun x' y => if x' = x + (n + 1) then d' else L x' y, ?_, fun x' hx' => ?_⟩
      · simp only
        rw [if_neg (by omega)]
        exact h2
      · rcases Nat.lt_or_ge (x + n) x' with h | h
        · obtain rfl : x' = x + (n + 1) := by omega
          simp only [if_true]
          rw [if_neg (by omega)]
          exact ⟨h4, fun _ => (edge_left hs (by omega)).1 h5⟩
        · simp only
          rw [if_neg (by omega), if_neg (by omega)]
          exact h3 x' h
  obtain ⟨L, h2, h3⟩ := hright (w - 1 - x) (by omega)
  exact ⟨L, (consistent_row hs).2 fun x' hx' => h3 x' (by omega), h2⟩

/-! ## The choice of nodes from left to right -/

theorem RowAhead.mem {k x d : Nat} (h : RowAhead w E S k x d) : S x 0 d := by
  cases k with
  | zero => exact h
  | succ k => exact h.1

theorem RowAhead.pred {k x d : Nat} (h : RowAhead w E S (k + 1) x d) : RowAhead w E S k x d := by
  induction k generalizing x d with
  | zero => exact h.1
  | succ k ih =>
    refine ⟨h.1, fun hx => ?_⟩
    obtain ⟨d', h1, h2⟩ := h.2 hx
    exact ⟨d', h1, ih h2⟩

/-- Labels of a labeling can be continued as far as needed. -/
theorem Consistent.rowAhead (hs : EdgeSymm w 1 E) (hL : Consistent w 1 E S L) : ∀ k x, x < w → RowAhead w E S k x (L x 0) := by
  have h := (consistent_row hs).1 hL
  intro k
  induction k with
  | zero => exact fun x hx => (h x hx).1
  | succ k ih => exact fun x hx => ⟨(h x hx).1, fun h1 => ⟨_, (edge_left hs h1).2 ((h (x + 1) h1).2 (by omega)), ih (x + 1) h1⟩⟩

/-- Nodes when the first `x` columns have been processed: they have nodes of `L` only. -/
structure RowState (w : Nat) (E : EdgeRel) (S : NodeSet) (L : Nat → Nat → Nat) (x : Nat) (T : NodeSet) : Prop where
  done : ∀ y, y < x → ∀ d, T y 0 d → d = L y 0
  rest : ∀ y, x ≤ y → y < w → ∀ d, T y 0 d ↔ RowAhead w E S (x + 1) y d ∧ (0 < y → ∃ d', T (y - 1) 0 d' ∧ E y 0 1 d d')

theorem RowState.start : RowState w E S L 0 (sweep w 1 E (rowOrder w) S) where
  done y hy := by omega
  rest y _ hy d := by
    rw [sweep_row]
    constructor
    · rintro ⟨h1, h2⟩
      exact ⟨⟨h1, fun h => let ⟨d', a, b⟩ := (h2 hy).2 h; ⟨d', b, a⟩⟩, (h2 hy).1⟩
    · rintro ⟨⟨h1, h2⟩, h3⟩
      exact ⟨h1, fun _ => ⟨h3, fun h => let ⟨d', a, b⟩ := h2 h; ⟨d', b, a⟩⟩⟩

/-- The candidates for the next column. -/
theorem RowState.candidates {x : Nat} (h : RowState w E S L x T) (hal : AllAlive w 1 T) (hx : x < w) {d : Nat} :
    T x 0 d ↔ RowCandidate w E S L x d := by
  rw [h.rest x (Nat.le_refl x) hx]
  unfold RowCandidate
  refine and_congr_right fun _ => forall_congr' fun h0 => ?_
  constructor
  · rintro ⟨d', h1, h2⟩
    rwa [h.done (x - 1) (by omega) _ h1] at h2
  · intro h2
    obtain ⟨d', h1⟩ := hal (x - 1) 0 (by omega) (by omega)
    obtain rfl := h.done (x - 1) (by omega) _ h1
    exact ⟨_, h1, h2⟩

/-- Only `b` is left in the column `x`, then there is one more pass. -/
theorem RowState.step (hs : EdgeSymm w 1 E) {x : Nat} (h : RowState w E S L x T) (hUT : Sub U T)
    (hb : ∀ d, U x 0 d → d = L x 0) (hother : ∀ y d, y ≠ x → (U y 0 d ↔ T y 0 d)) :
    RowState w E S L (x + 1) (sweep w 1 E (rowOrder w) U) where
  done y hy d hd := by
    have hU := sweep_sub _ _ _ _ hd
    rcases Nat.lt_or_ge y x with h1 | h1
    · exact h.done y h1 d (hUT _ _ _ hU)
    · obtain rfl : y = x := by omega
      exact hb d hU
  rest y hxy hy d := by
    rw [sweep_row, hother y d (by omega)]
    constructor
    · rintro ⟨h1, h2⟩
      obtain ⟨a1, -⟩ := (h.rest y (by omega) hy d).1 h1
      refine ⟨⟨a1.mem, fun hlt => ?_⟩, (h2 hy).1⟩
      obtain ⟨d', b1, b2⟩ := (h2 hy).2 hlt
      rw [hother (y + 1) d' (by omega)] at b1
      exact ⟨d', b2, ((h.rest (y + 1) (by omega) hlt d').1 b1).1⟩
    · rintro ⟨h1, h2⟩
      have hT : T y 0 d := (h.rest y (by omega) hy d).2 ⟨h1.pred, fun h0 => by
        obtain ⟨d', b1, b2⟩ := h2 h0
        exact ⟨d', hUT _ _ _ (sweep_sub _ _ _ _ b1), b2⟩⟩
      refine ⟨hT, fun _ => ⟨h2, fun hlt => ?_⟩⟩
      obtain ⟨d', b1, b2⟩ := h1.2 hlt
      refine ⟨d', ?_, b1⟩
      rw [hother (y + 1) d' (by omega)]
      exact (h.rest (y + 1) (by omega) hlt d').2 ⟨b2, fun _ => ⟨d, hT, (edge_left hs hlt).1 b1⟩⟩

theorem RowState.congr {x : Nat} {L' : Nat → Nat → Nat} (h : RowState w E S L x T) (hL : ∀ y, y < x → L' y 0 = L y 0) :
    RowState w E S L' x T :=
  ⟨fun y hy d hd => by rw [hL y hy]; exact h.done y hy d hd, h.rest⟩

section
variable {F : Type} [FloatOps F] [LawfulFloat F] {q : Nat → Nat → Nat → F}

theorem RowBest.congr {x : Nat} {L' : Nat → Nat → Nat} (h : RowBest w E S q L x) (hL : ∀ y, y ≤ x → L' y 0 = L y 0) :
    RowBest w E S q L' x := by
  unfold RowBest RowCandidate at *
  rw [hL x (Nat.le_refl x), hL (x - 1) (by omega)]
  exact h

/-- The choices are determined. -/
theorem RowBest.unique {L' : Nat → Nat → Nat} (h : ∀ x, x < w → RowBest w E S q L x) (h' : ∀ x, x < w → RowBest w E S q L' x) :
    ∀ n, n ≤ w → ∀ x, x < n → L x 0 = L' x 0 := by
  intro n
  induction n with
  | zero => intro _ x hx; omega
  | succ n ih =>
    intro hn x hx
    have ih := ih (by omega)
    rcases Nat.lt_or_ge x n with hlt | hge
    · exact ih x hlt
    obtain rfl : x = n := by omega
    have hc : ∀ d, RowCandidate w E S L x d ↔ RowCandidate w E S L' x d := by
      intro d
      unfold RowCandidate
      refine and_congr_right fun _ => forall_congr' fun h0 => ?_
      rw [ih (x - 1) (by omega)]
    obtain ⟨a1, a2⟩ := h x (by omega)
    obtain ⟨b1, b2⟩ := h' x (by omega)
    obtain ⟨p1, p2⟩ := a2 _ ((hc _).2 b1)
    obtain ⟨r1, r2⟩ := b2 _ ((hc _).1 a1)
    rcases Nat.lt_trichotomy (L x 0) (L' x 0) with h | h | h
    · have := r2 h
      rw [LawfulFloat.lt_iff, p1] at this
      cases this
    · exact h
    · have := p2 h
      rw [LawfulFloat.lt_iff, r1] at this
      cases this

end
end SP
