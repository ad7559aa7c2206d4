import Verif.Model.Finder
import Verif.Lemmas.SolveCsp
import Verif.Lemmas.Closure
import Verif.Lemmas.Float
/-!
# Refinement of `choose_best_node` and `find_labeling`
-/
set_option linter.unusedSectionVars false

namespace SP
open FloatOps ConstraintGraph
variable {F : Type} [FloatOps F] {c : ConstraintGraph F}

/-- One iteration of the first loop of `choose_best_node`. -/
noncomputable def bestStep (c : ConstraintGraph F) (x y : Nat) (m : F) (d : Nat) : F :=
  open Classical in
  if c.Av x y d then
    if lt m zero then c.disparityGraph.nodeQ x y d else min' (c.disparityGraph.nodeQ x y d) m
  else m

/-- The value that the first loop of `choose_best_node` computes. -/
noncomputable def bestQ (c : ConstraintGraph F) (x y : Nat) : F :=
  (List.range (min c.levels (c.w - x))).foldl (bestStep c x y) minusOne

theorem bestPenalty_mk (hc : c.Valid) {x y : Nat} (hx : x < c.w) (hy : y < c.h) :
    bestPenalty c (mkPixel x y) = .ok (bestQ c x y) := by
  have hb := hc.bounds
  have h1 := hb.bw
  have h3 := hb.bl
  have hll : c.disparityGraph.disparityLevels.toNat = c.levels := rfl
  have hwl : c.disparityGraph.left.width.toNat = c.w := by rw [hc.graph.width_eq]; rfl
  rw [← Ok.eq_iff]
  unfold bestPenalty bestQ
  refine (cfor_all (min c.levels (c.w - x))
    (fun j m => m = (List.range j).foldl (bestStep c x y) minusOne)
    (by rw [hll]; omega) ?_ rfl ?_)
  · intro k hk
    have : (mkPixel x y).x = UInt64.ofNat x := rfl
    simp only [this]
    rw [cond_two (by omega), hwl, hll]
  · rintro j m hj rfl
    refine Ok.bind (isNodeAvailable_mk hc hx hy (show j < c.levels by omega)) ?_
    intro b hb
    rw [List.range_succ, List.foldl_append, List.foldl_cons, List.foldl_nil]
    cases b
    · have hna : ¬ c.Av x y j := fun h => by have := hb.2 h; simp at this
      simp only [Bool.not_false, if_true]
      refine Ok.pure ⟨rfl, ?_⟩
      unfold bestStep
      rw [if_neg hna]
    · have hav := hb.1 rfl
      simp only [Bool.not_true, Bool.false_eq_true, if_false]
      have hn : c.disparityGraph.IsNode x y j := ⟨hx, hy, by show j < c.levels; omega, by show x + j < c.w; omega⟩
      have e : nodePenalty c.disparityGraph (mkNode x y j) = .ok (c.disparityGraph.nodeQ x y j) :=
        nodePenalty_mk hc.graph hn
      change Ok (nodePenalty c.disparityGraph (mkNode x y j) >>= _) _
      rw [e, bind_ok]
      generalize hm : (List.range j).foldl (bestStep c x y) minusOne = m
      have e' : bestStep c x y m j =
          if lt m zero then c.disparityGraph.nodeQ x y j else min' (c.disparityGraph.nodeQ x y j) m := by
        unfold bestStep
        rw [if_pos hav]
      rw [e']
      split
      · exact Ok.pure ⟨rfl, rfl⟩
      · exact Ok.pure ⟨rfl, rfl⟩

/-- The node that `choose_best_node` keeps: the first available one not worse than the computed penalty. -/
def Kept (c : ConstraintGraph F) (x y d : Nat) : Prop :=
  c.Av x y d ∧ lt (bestQ c x y) (c.disparityGraph.nodeQ x y d) = false ∧
  ∀ d', d' < d → c.Av x y d' → lt (bestQ c x y) (c.disparityGraph.nodeQ x y d') = true

theorem Kept.unique {x y d d' : Nat} (h : Kept c x y d) (h' : Kept c x y d') : d = d' := by
  rcases Nat.lt_trichotomy d d' with hlt | he | hlt
  · have := h'.2.2 d hlt h.1
    rw [h.2.1] at this
    exact Bool.noConfusion this
  · exact he
  · have := h.2.2 d' hlt h'.1
    rw [h'.2.1] at this
    exact Bool.noConfusion this

/-- Exact outcome of `choose_best_node`. -/
theorem chooseBestNode_mk (hc : c.Valid) (hp : c.Proper) {x y : Nat} (hx : x < c.w) (hy : y < c.h) :
    Ok (chooseBestNode c (mkPixel x y)) fun r => c.Same r.1 ∧ r.1.Valid ∧
      (∀ x' y' d, r.1.Av x' y' d ↔ c.Av x' y' d ∧ (x' = x ∧ y' = y → Kept c x y d)) ∧
      (r.2 = true ↔ ∃ d, Kept c x y d) := by
  have hb := hc.bounds
  have h1 := hb.bw
  have h3 := hb.bl
  have hll : c.disparityGraph.disparityLevels.toNat = c.levels := rfl
  have hwl : c.disparityGraph.left.width.toNat = c.w := by rw [hc.graph.width_eq]; rfl
  unfold chooseBestNode
  rw [bestPenalty_mk hc hx hy, bind_ok]
  refine (cfor_all (min c.levels (c.w - x))
    (fun j (s : ConstraintGraph F × Bool) => c.Same s.1 ∧ s.1.Valid ∧
      (∀ x' y' d, s.1.Av x' y' d ↔ c.Av x' y' d ∧ (x' = x ∧ y' = y ∧ d < j → Kept c x y d)) ∧
      (s.2 = true ↔ ∃ d, d < j ∧ Kept c x y d))
    (by rw [hll]; omega) ?_ ⟨Same.refl c, hc, by simp, by simp⟩ ?_).mono ?_
  · intro k hk
    have : (mkPixel x y).x = UInt64.ofNat x := rfl
    simp only [this]
    rw [cond_two (by omega), hwl, hll]
  · rintro j ⟨s, ch⟩ hj ⟨hsame, hv, hav, hch⟩
    simp only at hsame hv hav hch
    have hxs : x < s.w := by rw [hsame.w_eq]; exact hx
    have hys : y < s.h := by rw [hsame.h_eq]; exact hy
    have hjl : j < c.levels := by omega
    have hjs : j < s.levels := by rw [hsame.levels_eq]; exact hjl
    have havj : s.Av x y j ↔ c.Av x y j := by rw [hav]; simp
    refine Ok.bind (isNodeAvailable_mk hv hxs hys hjs) ?_
    intro b hb
    rw [havj] at hb
    cases b
    · have hna : ¬ c.Av x y j := fun h => by have := hb.2 h; simp at this
      simp only [Bool.not_false, if_true]
      refine Ok.pure ⟨rfl, hsame, hv, ?_, ?_⟩
      · intro x' y' d
        rw [hav]
        refine and_congr_right fun h => ?_
        constructor
        · rintro h' ⟨rfl, rfl, hd⟩
          by_cases e : d = j
          · subst e; exact absurd h hna
          · exact h' ⟨rfl, rfl, by omega⟩
        · rintro h' ⟨e1, e2, hd⟩
          exact h' ⟨e1, e2, by omega⟩
      · simp only
        rw [hch]
        constructor
        · rintro ⟨d, a, b⟩; exact ⟨d, by omega, b⟩
        · rintro ⟨d, a, b⟩
          by_cases e : d = j
          · subst e; exact absurd b.1 hna
          · exact ⟨d, by omega, b⟩
    · have hcv := hb.1 rfl
      simp only [Bool.not_true, Bool.false_eq_true, if_false]
      have hn : s.disparityGraph.IsNode x y j := by
        rw [hsame.1]; exact ⟨hx, hy, hjl, by show x + j < c.w; omega⟩
      have e : nodePenalty s.disparityGraph (mkNode x y j) = .ok (c.disparityGraph.nodeQ x y j) := by
        rw [nodePenalty_mk hv.graph hn, hsame.1]
      change Ok (nodePenalty s.disparityGraph (mkNode x y j) >>= _) _
      rw [e, bind_ok]
      have hkj : Kept c x y j ↔ ¬ (ch || lt (bestQ c x y) (c.disparityGraph.nodeQ x y j)) = true := by
        rw [Bool.or_eq_true, not_or, hch]
        constructor
        · intro hk
          refine ⟨?_, by rw [hk.2.1]; simp⟩
          rintro ⟨d, hd, hkd⟩
          exact absurd (hk.unique hkd) (by omega)
        · rintro ⟨h1, h2⟩
          refine ⟨hcv, by simpa using h2, ?_⟩
          -- among smaller disparities there is no kept one, so none is good enough
          intro d hd
          induction d using Nat.strongRecOn with
          | _ d ih =>
            intro hdav
            cases hl : lt (bestQ c x y) (c.disparityGraph.nodeQ x y d)
            · exact absurd ⟨d, hd, hdav, hl, fun d' hd' => ih d' hd' (by omega)⟩ h1
            · rfl
      by_cases hcond : (ch || lt (bestQ c x y) (c.disparityGraph.nodeQ x y j)) = true
      · rw [if_pos hcond]
        have hnk : ¬ Kept c x y j := fun h => hkj.1 h hcond
        refine Ok.bind (makeNodeUnavailable_mk hv hxs hys hjs) ?_
        rintro s' ⟨g1, g2, g3⟩
        refine Ok.pure ⟨rfl, hsame.trans g1, g2, ?_, ?_⟩
        · intro x' y' d
          rw [g3, hav]
          constructor
          · rintro ⟨⟨a1, a2⟩, a3⟩
            refine ⟨a1, ?_⟩
            rintro ⟨rfl, rfl, hd⟩
            exact a2 ⟨rfl, rfl, by
              have : d ≠ j := fun e => a3 ⟨rfl, rfl, e⟩
              omega⟩
          · rintro ⟨a1, a2⟩
            refine ⟨⟨a1, fun ⟨e1, e2, e3⟩ => a2 ⟨e1, e2, by omega⟩⟩, ?_⟩
            rintro ⟨rfl, rfl, rfl⟩
            exact hnk (a2 ⟨rfl, rfl, by omega⟩)
        · simp only
          rw [hch]
          constructor
          · rintro ⟨d, a, b⟩; exact ⟨d, by omega, b⟩
          · rintro ⟨d, a, b⟩
            by_cases e : d = j
            · subst e; exact absurd b hnk
            · exact ⟨d, by omega, b⟩
      · rw [if_neg hcond]
        have hk : Kept c x y j := hkj.2 hcond
        refine Ok.pure ⟨rfl, hsame, hv, ?_, ?_⟩
        · intro x' y' d
          simp only
          rw [hav]
          refine and_congr_right fun h => ?_
          constructor
          · rintro h' ⟨rfl, rfl, hd⟩
            by_cases e : d = j
            · subst e; exact hk
            · exact h' ⟨rfl, rfl, by omega⟩
          · rintro h' ⟨e1, e2, hd⟩
            exact h' ⟨e1, e2, by omega⟩
        · simp only [true_iff]
          exact ⟨j, by omega, hk⟩
  · rintro ⟨s, ch⟩ ⟨hsame, hv, hav, hch⟩
    refine ⟨hsame, hv, ?_, ?_⟩
    · intro x' y' d
      rw [hav]
      refine and_congr_right fun h => ?_
      constructor
      · rintro h' ⟨rfl, rfl⟩
        have hn := hp _ _ _ h
        have l1 : d < c.levels := hn.2.2.1
        have l2 : x' + d < c.w := hn.2.2.2
        exact h' ⟨rfl, rfl, by omega⟩
      · rintro h' ⟨e1, e2, _⟩
        exact h' ⟨e1, e2⟩
    · rw [hch]
      constructor
      · rintro ⟨d, _, h⟩; exact ⟨d, h⟩
      · rintro ⟨d, h⟩
        have hn := hp _ _ _ h.1
        have l1 : d < c.levels := hn.2.2.1
        have l2 : x + d < c.w := hn.2.2.2
        exact ⟨d, by omega, h⟩

/-! ## Lawful numbers -/

section Lawful
variable [LawfulFloat F]

/-- The computed penalty is the penalty of an available node, unless there are none. -/
theorem bestFold_attained (c : ConstraintGraph F) (x y n : Nat) :
    let m := (List.range n).foldl (bestStep c x y) minusOne
    (m = minusOne ∧ ∀ d, d < n → ¬ c.Av x y d) ∨ ∃ d, d < n ∧ c.Av x y d ∧ m = c.disparityGraph.nodeQ x y d := by
  induction n with
  | zero => exact .inl ⟨rfl, fun d hd => by omega⟩
  | succ n ih =>
    rw [List.range_succ, List.foldl_append, List.foldl_cons, List.foldl_nil]
    generalize (List.range n).foldl (bestStep c x y) minusOne = m at ih
    unfold bestStep
    by_cases hav : c.Av x y n
    · rw [if_pos hav]
      right
      by_cases hneg : lt m zero = true
      · rw [if_pos hneg]
        exact ⟨n, by omega, hav, rfl⟩
      · rw [if_neg hneg]
        unfold min'
        by_cases hle : le (c.disparityGraph.nodeQ x y n) m = true
        · rw [if_pos hle]
          exact ⟨n, by omega, hav, rfl⟩
        · rw [if_neg hle]
          rcases ih with ⟨h, -⟩ | ⟨d, h1, h2, h3⟩
          · rw [h] at hneg
            exact absurd LawfulFloat.minusOne_neg hneg
          · exact ⟨d, by omega, h2, h3⟩
    · rw [if_neg hav]
      rcases ih with ⟨h, h'⟩ | ⟨d, h1, h2, h3⟩
      · refine .inl ⟨h, fun d hd hd' => ?_⟩
        by_cases e : d = n
        · subst e; exact hav hd'
        · exact h' d (by omega) hd'
      · exact .inr ⟨d, by omega, h2, h3⟩

/-- If penalties are not negative the computed penalty is the lowest one. -/
theorem bestFold_le (c : ConstraintGraph F) (x y n : Nat)
    (hnn : ∀ d, c.Av x y d → le zero (c.disparityGraph.nodeQ x y d) = true) :
    ∀ d, d < n → c.Av x y d →
      le ((List.range n).foldl (bestStep c x y) minusOne) (c.disparityGraph.nodeQ x y d) = true := by
  induction n with
  | zero => intro d hd; omega
  | succ n ih =>
    intro d hd hdav
    rw [List.range_succ, List.foldl_append, List.foldl_cons, List.foldl_nil]
    have hat := bestFold_attained c x y n
    simp only at hat
    generalize (List.range n).foldl (bestStep c x y) minusOne = m at ih hat
    unfold bestStep
    by_cases hav : c.Av x y n
    · rw [if_pos hav]
      by_cases hneg : lt m zero = true
      · rw [if_pos hneg]
        by_cases e : d = n
        · subst e; exact LawfulFloat.le_refl _
        · rcases hat with ⟨-, h⟩ | ⟨d', h1, h2, h3⟩
          · exact absurd hdav (h d (by omega))
          · rw [h3, LawfulFloat.lt_iff, hnn d' h2] at hneg
            exact Bool.noConfusion hneg
      · rw [if_neg hneg]
        unfold min'
        by_cases hle : le (c.disparityGraph.nodeQ x y n) m = true
        · rw [if_pos hle]
          by_cases e : d = n
          · subst e; exact LawfulFloat.le_refl _
          · exact LawfulFloat.le_trans _ _ _ hle (ih d (by omega) hdav)
        · rw [if_neg hle]
          by_cases e : d = n
          · subst e
            rcases LawfulFloat.le_total (c.disparityGraph.nodeQ x y d) m with h | h
            · exact absurd h hle
            · exact h
          · exact ih d (by omega) hdav
    · rw [if_neg hav]
      by_cases e : d = n
      · subst e; exact absurd hdav hav
      · exact ih d (by omega) hdav

theorem proper_bound (hp : c.Proper) {x y d : Nat} (h : c.Av x y d) : d < min c.levels (c.w - x) := by
  have hn := hp _ _ _ h
  have l1 : d < c.levels := hn.2.2.1
  have l2 : x + d < c.w := hn.2.2.2
  omega

/-- Some node is kept if and only if some node is available. -/
theorem kept_exists (hp : c.Proper) {x y : Nat} : (∃ d, Kept c x y d) ↔ ∃ d, c.Av x y d := by
  constructor
  · rintro ⟨d, h⟩; exact ⟨d, h.1⟩
  · rintro ⟨d, hd⟩
    rcases bestFold_attained c x y (min c.levels (c.w - x)) with ⟨-, h⟩ | ⟨d', h1, h2, h3⟩
    · exact absurd hd (h d (proper_bound hp hd))
    · have hgood : lt (bestQ c x y) (c.disparityGraph.nodeQ x y d') = false := by
        unfold bestQ
        rw [h3]
        cases hl : lt (c.disparityGraph.nodeQ x y d') (c.disparityGraph.nodeQ x y d')
        · rfl
        · rw [LawfulFloat.lt_iff, LawfulFloat.le_refl] at hl
          exact Bool.noConfusion hl
      clear hd h1 h3
      induction d' using Nat.strongRecOn with
      | _ d ih =>
        by_cases hsm : ∃ d', d' < d ∧ c.Av x y d' ∧ lt (bestQ c x y) (c.disparityGraph.nodeQ x y d') = false
        · obtain ⟨d', a1, a2, a3⟩ := hsm
          exact ih d' a1 a2 a3
        · refine ⟨d, h2, hgood, fun d' hd' hav => ?_⟩
          cases hl : lt (bestQ c x y) (c.disparityGraph.nodeQ x y d')
          · exact absurd ⟨d', hd', hav, hl⟩ hsm
          · rfl

/-- If penalties are not negative, the kept node is the best one, the first among equals. -/
theorem kept_iff_best (hp : c.Proper) {x y d : Nat}
    (hnn : ∀ d, c.Av x y d → le zero (c.disparityGraph.nodeQ x y d) = true) :
    Kept c x y d ↔ c.Av x y d ∧
      (∀ d', c.Av x y d' → le (c.disparityGraph.nodeQ x y d) (c.disparityGraph.nodeQ x y d') = true) ∧
      ∀ d', d' < d → c.Av x y d' → lt (c.disparityGraph.nodeQ x y d) (c.disparityGraph.nodeQ x y d') = true := by
  have hle : ∀ d, c.Av x y d → le (bestQ c x y) (c.disparityGraph.nodeQ x y d) = true :=
    fun d hd => bestFold_le c x y _ hnn d (proper_bound hp hd) hd
  have hat : ∀ d, c.Av x y d → ∃ d', c.Av x y d' ∧ bestQ c x y = c.disparityGraph.nodeQ x y d' := by
    intro d hd
    rcases bestFold_attained c x y (min c.levels (c.w - x)) with ⟨-, h⟩ | ⟨d', -, h2, h3⟩
    · exact absurd hd (h d (proper_bound hp hd))
    · exact ⟨d', h2, h3⟩
  have nlt : ∀ {a b : F}, lt a b = false ↔ le b a = true := by
    intro a b
    have := LawfulFloat.lt_iff a b
    cases h1 : lt a b <;> cases h2 : le b a <;> simp_all
  constructor
  · rintro ⟨h1, h2, h3⟩
    have e : bestQ c x y = c.disparityGraph.nodeQ x y d :=
      LawfulFloat.le_antisymm _ _ (hle d h1) (nlt.1 h2)
    rw [← e]
    exact ⟨h1, hle, h3⟩
  · rintro ⟨h1, h2, h3⟩
    obtain ⟨d', h4, h5⟩ := hat d h1
    have e : bestQ c x y = c.disparityGraph.nodeQ x y d :=
      LawfulFloat.le_antisymm _ _ (hle d h1) (by rw [h5]; exact h2 d' h4)
    unfold Kept
    rw [e]
    exact ⟨h1, nlt.2 (LawfulFloat.le_refl _), h3⟩

end Lawful

/-! ## `find_labeling` -/

/-- The body of the loops of `find_labeling`. -/
def labelStep (jobs : UInt64) (g : ConstraintGraph F) (pixel : Pixel) : M (ConstraintGraph F × Bool) := do
  let (g, chosen) ← chooseBestNode g pixel
  if !chosen then return (g, false)
  let (g, solved) ← solveCsp jobs g
  return (g, solved)

/-- Rule for `find_labeling`: `I x y` holds when the columns before `x` and the pixels above `y` in the column `x` are done. -/
theorem findLabeling_rule {jobs : UInt64} (hc : c.Valid) (I : Nat → Nat → ConstraintGraph F → Prop)
    (Q : ConstraintGraph F × Bool → Prop) (h0 : I 0 0 c)
    (hstep : ∀ x y g, x < c.w → y < c.h → I x y g →
      Ok (labelStep jobs g (mkPixel x y)) fun r => (r.2 = true ∧ I x (y + 1) r.1) ∨ (r.2 = false ∧ Q r))
    (hrow : ∀ x g, x < c.w → I x c.h g → I (x + 1) 0 g)
    (hend : ∀ g, I c.w 0 g → Q (g, true)) : Ok (findLabeling jobs c) Q := by
  have hwl : c.disparityGraph.left.width.toNat = c.w := by rw [hc.graph.width_eq]; rfl
  have hhl : c.disparityGraph.left.height.toNat = c.h := by rw [hc.graph.height_eq]; rfl
  have hb := hc.bounds
  unfold findLabeling
  refine cfor_ok 0 c.w (fun x s => s.2 = true ∧ I x 0 s.1) rfl (by omega) ?_ ⟨rfl, h0⟩ ?_ ?_
  · intro k _ hk
    rw [cond_lt _ _ (by omega), hwl]
  · rintro x ⟨s, b⟩ - hx ⟨rfl, hI⟩
    refine Ok.bind (P := fun r => (r.2 = true ∧ I x c.h r.1) ∨ (r.2 = false ∧ Q r)) ?_ ?_
    · refine cfor_ok 0 c.h (fun y s => s.2 = true ∧ I x y s.1) rfl (by omega) ?_ ⟨rfl, hI⟩ ?_ ?_
      · intro k _ hk
        rw [cond_lt _ _ (by omega), hhl]
      · rintro y ⟨s, b⟩ - hy ⟨rfl, hI⟩
        obtain ⟨r, hr, hQ⟩ := hstep x y s hx hy hI
        unfold labelStep at hr
        change Ok (chooseBestNode s (mkPixel x y) >>= _) _
        cases h1 : chooseBestNode s (mkPixel x y) with
        | error e => rw [h1] at hr; simp at hr
        | ok r1 =>
          obtain ⟨g1, b1⟩ := r1
          rw [h1, bind_ok] at hr
          rw [bind_ok]
          cases b1
          · simp only [Bool.not_false, if_true, pure_eq_ok] at hr ⊢
            cases hr
            refine Ok.pure ?_
            simpa using hQ
          · simp only [Bool.not_true, Bool.false_eq_true, if_false] at hr ⊢
            cases h2 : solveCsp jobs g1 with
            | error e => rw [h2] at hr; simp at hr
            | ok r2 =>
              obtain ⟨g2, b2⟩ := r2
              rw [h2, bind_ok] at hr
              rw [bind_ok]
              cases b2
              · simp only [Bool.not_false, if_true, pure_eq_ok] at hr ⊢
                cases hr
                refine Ok.pure ?_
                simpa using hQ
              · simp only [Bool.not_true, Bool.false_eq_true, if_false, pure_eq_ok] at hr ⊢
                cases hr
                refine Ok.pure ?_
                simpa using hQ
      · intro s hs
        rw [Nat.max_eq_right (Nat.zero_le _)] at hs
        exact .inl hs
    · rintro ⟨s, b⟩ h
      refine Ok.pure ?_
      rcases h with ⟨h1, h2⟩ | ⟨h1, h2⟩
      · simp only at h1
        subst h1
        simpa using hrow x s hx h2
      · simp only at h1
        subst h1
        simpa using h2
  · rintro ⟨s, b⟩ ⟨h1, h2⟩
    rw [Nat.max_eq_right (Nat.zero_le _)] at h2
    simp only at h1
    subst h1
    exact hend s h2

/-- The set after the choice in one pixel. -/
def keepBest (g : ConstraintGraph F) (x y : Nat) : NodeSet :=
  fun x' y' d => g.Av x' y' d ∧ (x' = x ∧ y' = y → Kept g x y d)

theorem keepBest_sub (g : ConstraintGraph F) (x y : Nat) : Sub (keepBest g x y) g.Av := fun _ _ _ h => h.1

/-- Exact outcome of a step of `find_labeling`. -/
theorem labelStep_mk {g : ConstraintGraph F} (hg : g.Valid) (hp : g.Proper) {jobs : Nat} (hj : 0 < jobs)
    (hfit : g.h + jobs ≤ 18446744073709551616) {x y : Nat} (hx : x < g.w) (hy : y < g.h) :
    Ok (labelStep (UInt64.ofNat jobs) g (mkPixel x y)) fun r => g.Same r.1 ∧ r.1.Valid ∧ Sub r.1.Av g.Av ∧
      let S := sweep g.w g.h g.E (solveOrder g.w g.h jobs) (keepBest g x y)
      ((AllAlive g.w g.h S ∧ (∃ d, Kept g x y d) ∧ r.1.Av = S ∧ r.2 = true) ∨
        ((¬ AllAlive g.w g.h S ∨ ¬ ∃ d, Kept g x y d) ∧ r.2 = false)) := by
  unfold labelStep
  refine Ok.bind (chooseBestNode_mk hg hp hx hy) ?_
  rintro ⟨g1, b1⟩ ⟨h1, h2, h3, h4⟩
  simp only at h1 h2 h3 h4
  have hav : g1.Av = keepBest g x y := by
    funext x' y' d
    exact propext (h3 x' y' d)
  have hsub : Sub g1.Av g.Av := by rw [hav]; exact keepBest_sub g x y
  cases b1
  · simp only [Bool.not_false, if_true]
    refine Ok.pure ⟨h1, h2, hsub, .inr ⟨.inr fun h => ?_, rfl⟩⟩
    have := h4.2 h
    simp at this
  · simp only [Bool.not_true, Bool.false_eq_true, if_false]
    refine Ok.bind (solveCsp_mk h2 (h1.proper hp hsub) hj (by rw [h1.h_eq]; exact hfit)) ?_
    rintro ⟨g2, b2⟩ ⟨k1, k2, k3⟩
    rw [h1.w_eq, h1.h_eq, h1.E_eq, hav] at k3
    refine Ok.pure ⟨h1.trans k1, k2, ?_, ?_⟩
    · rcases k3 with ⟨-, e, -⟩ | ⟨-, e, -⟩
      · simp only at e ⊢
        rw [e]
        exact (sweep_sub _).trans (keepBest_sub g x y)
      · intro x' y' d h
        exact absurd h (e x' y' d)
    · rcases k3 with ⟨a1, a2, a3⟩ | ⟨a1, -, a3⟩
      · exact .inl ⟨a1, h4.1 rfl, a2, a3⟩
      · exact .inr ⟨.inl a1, a3⟩

/-- A sweep over all pixels that changes nothing means arc consistency. -/
theorem arc_of_sweep {w h jobs : Nat} {E : EdgeRel} {S : NodeSet} (hj : 0 < jobs)
    (hgrid : ∀ x y d, S x y d → x < w ∧ y < h) (hst : sweep w h E (solveOrder w h jobs) S = S) :
    ArcConsistent w h E S := by
  refine arc_of_stable hgrid fun x y hx hy => ?_
  obtain ⟨pre, post, hpp⟩ := List.append_of_mem ((mem_solveOrder (p := (x, y)) hj).2 ⟨hx, hy⟩)
  rw [hpp, sweep_append] at hst
  have e : sweep w h E pre S = S := by
    refine (sweep_sub _).antisymm ?_
    conv_lhs => rw [← hst]
    exact sweep_sub _
  rw [e, sweep_cons] at hst
  refine (removeUnsupported_sub x y).antisymm ?_
  conv_lhs => rw [← hst]
  exact sweep_sub _

/-- The pixel is processed before the pixel `(X, Y)`. -/
def Before (X Y x y : Nat) : Prop := x < X ∨ (x = X ∧ y < Y)

/-- What `find_labeling` guarantees on success, for any arithmetic. -/
theorem findLabeling_mk (hc : c.Valid) (hp : c.Proper) {jobs : Nat} (hj : 0 < jobs)
    (hfit : c.h + jobs ≤ 18446744073709551616) :
    Ok (findLabeling (UInt64.ofNat jobs) c) fun r => c.Same r.1 ∧ r.1.Valid ∧ Sub r.1.Av c.Av ∧
      (r.2 = true → AllAlive c.w c.h r.1.Av ∧ ArcConsistent c.w c.h c.E r.1.Av ∧
        ∀ x y d d', r.1.Av x y d → r.1.Av x y d' → d = d') := by
  have hwp : 0 < c.w := hc.graph.width_pos
  have hhp : 0 < c.h := hc.graph.height_pos
  refine findLabeling_rule hc (fun X Y g => c.Same g ∧ g.Valid ∧ Sub g.Av c.Av ∧
    (∀ x y d d', x < c.w → y < c.h → Before X Y x y → g.Av x y d → g.Av x y d' → d = d') ∧
    ((∀ x y, x < c.w → y < c.h → Before X Y x y) →
      AllAlive c.w c.h g.Av ∧ ArcConsistent c.w c.h c.E g.Av)) _
    ⟨Same.refl c, hc, Sub.refl _, ?_, ?_⟩ ?_ ?_ ?_
  · rintro x y d d' - - (h | ⟨-, h⟩) <;> omega
  · intro h
    rcases h 0 0 hwp hhp with h | ⟨-, h⟩ <;> omega
  · rintro x y g hx hy ⟨h1, h2, h3, h4, -⟩
    refine (labelStep_mk h2 (h1.proper hp h3) hj (by rw [h1.h_eq]; exact hfit) (by rw [h1.w_eq]; exact hx)
      (by rw [h1.h_eq]; exact hy)).mono ?_
    rintro r ⟨k1, k2, k3, k4⟩
    rw [h1.w_eq, h1.h_eq, h1.E_eq] at k4
    rcases k4 with ⟨a1, a2, a3, a4⟩ | ⟨-, a4⟩
    · have huniq : ∀ x' y' d d', x' < c.w → y' < c.h → Before x (y + 1) x' y' →
          keepBest g x y x' y' d → keepBest g x y x' y' d' → d = d' := by
        intro x' y' d d' hx' hy' hbef hd hd'
        by_cases e : x' = x ∧ y' = y
        · exact (hd.2 e).unique (hd'.2 e)
        · refine h4 x' y' d d' hx' hy' ?_ hd.1 hd'.1
          rcases hbef with h | ⟨rfl, h⟩
          · exact .inl h
          · exact .inr ⟨rfl, by have : y' ≠ y := fun e' => e ⟨rfl, e'⟩; omega⟩
      refine .inl ⟨a4, h1.trans k1, k2, k3.trans h3, ?_, ?_⟩
      · intro x' y' d d' hx' hy' hbef hd hd'
        rw [a3] at hd hd'
        exact huniq x' y' d d' hx' hy' hbef (sweep_sub _ _ _ _ hd) (sweep_sub _ _ _ _ hd')
      · intro hall
        refine ⟨by rw [a3]; exact a1, ?_⟩
        have hgrid : ∀ x' y' d, keepBest g x y x' y' d → x' < c.w ∧ y' < c.h := by
          intro x' y' d h
          have := h3 _ _ _ h.1
          exact ⟨this.1, this.2.1⟩
        have hst : sweep c.w c.h c.E (solveOrder c.w c.h jobs) (keepBest g x y) = keepBest g x y := by
          refine (sweep_sub _).antisymm fun x' y' d hd => ?_
          obtain ⟨hx', hy'⟩ := hgrid _ _ _ hd
          obtain ⟨d', hd'⟩ := a1 x' y' hx' hy'
          rwa [huniq x' y' d d' hx' hy' (hall x' y' hx' hy') hd (sweep_sub _ _ _ _ hd')]
        rw [a3, hst]
        exact arc_of_sweep hj hgrid hst
    · refine .inr ⟨a4, h1.trans k1, k2, k3.trans h3, fun h => ?_⟩
      rw [a4] at h
      exact absurd h (by simp)
  · rintro x g hx ⟨h1, h2, h3, h4, h5⟩
    have hb : ∀ x' y', y' < c.h → (Before (x + 1) 0 x' y' ↔ Before x c.h x' y') := by
      intro x' y' hy'
      unfold Before
      constructor
      · rintro (h | ⟨-, h⟩)
        · rcases Nat.lt_or_eq_of_le (Nat.le_of_lt_succ h) with h | h
          · exact .inl h
          · exact .inr ⟨h, hy'⟩
        · omega
      · rintro (h | ⟨h, -⟩) <;> left <;> omega
    refine ⟨h1, h2, h3, fun x' y' d d' hx' hy' hbef => ?_, fun hall => ?_⟩
    · rw [hb x' y' hy'] at hbef
      exact h4 x' y' d d' hx' hy' hbef
    · refine h5 fun x' y' hx' hy' => ?_
      rw [← hb x' y' hy']
      exact hall x' y' hx' hy'
  · rintro g ⟨h1, h2, h3, h4, h5⟩
    refine ⟨h1, h2, h3, fun _ => ?_⟩
    obtain ⟨h6, h7⟩ := h5 fun x y hx hy => .inl hx
    refine ⟨h6, h7, fun x y d d' hd hd' => ?_⟩
    have hd0 := h3 _ _ _ hd
    exact h4 x y d d' hd0.1 hd0.2.1 (.inl hd0.1) hd hd'

end SP
