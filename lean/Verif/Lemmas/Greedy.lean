import Verif.Spec.Best
import Verif.Lemmas.ParPipe
/-!
# What is found by choosing nodes one by one

Nodes are chosen pixel by pixel, and after each choice some nodes are removed, but never those of a consistent labeling. If a labeling
is found then it is the best one, whatever else has been removed.
-/
set_option linter.unusedSectionVars false

namespace SP
open FloatOps ConstraintGraph
variable {F : Type} [FloatOps F] {c g : ConstraintGraph F} {S S' : NodeSet}

/-- Nodes that are never removed: an arc consistent set with a node in each pixel. -/
structure Keepable (c : ConstraintGraph F) (T : NodeSet) : Prop where
  sub : Sub T c.Av
  arc : ArcConsistent c.w c.h c.E T
  alive : AllAlive c.w c.h T

theorem Consistent.keepable {L : Nat → Nat → Nat} (hL : Consistent c.w c.h c.E c.Av L) : Keepable c (labelingNodes c.w c.h L) where
  sub := hL.sub
  arc := hL.arc fun _ _ _ hk => ⟨hk.nbx_lt, hk.nby_lt⟩
  alive _ _ hx hy := ⟨_, hx, hy, rfl⟩

/-- The node `d` of a pixel is not worse than `d'`. -/
def NotWorse (c : ConstraintGraph F) (x y d d' : Nat) : Prop :=
  le (c.disparityGraph.nodeQ x y d) (c.disparityGraph.nodeQ x y d') = true ∧
  (d' < d → lt (c.disparityGraph.nodeQ x y d) (c.disparityGraph.nodeQ x y d') = true)

/-- Nodes have been chosen in pixels before `(X, Y)`. -/
structure ChosenUpTo (c : ConstraintGraph F) (X Y : Nat) (S : NodeSet) : Prop where
  keeps : ∀ T, Keepable c T → (∀ x y d, Before X Y x y → T x y d → S x y d) → Sub T S
  best : ∀ x y, x < c.w → y < c.h → Before X Y x y → ∀ T, Keepable c T →
    (∀ x' y' d', Before x y x' y' → T x' y' d' → S x' y' d') → ∀ d d', S x y d → T x y d' → NotWorse c x y d d'
  first : Before X Y 0 0 → ∀ d d', S 0 0 d → c.Av 0 0 d' → NotWorse c 0 0 d d'
  whole : X = 0 → Y = 0 → Sub c.Av S

theorem ChosenUpTo.start : ChosenUpTo c 0 0 c.Av where
  keeps _ hT _ := hT.sub
  best x y _ _ hb := by rcases hb with h | ⟨-, h⟩ <;> omega
  first hb := by rcases hb with h | ⟨-, h⟩ <;> omega
  whole _ _ := Sub.refl _

theorem before_succ {x y x' y' : Nat} : Before x (y + 1) x' y' ↔ Before x y x' y' ∨ (x' = x ∧ y' = y) := by
  unfold Before
  omega

theorem before_row {h x x' y' : Nat} (hy' : y' < h) : Before (x + 1) 0 x' y' ↔ Before x h x' y' := by
  unfold Before
  omega

theorem Keepable.lt {T : NodeSet} (h : Keepable c T) {x y d : Nat} (hd : T x y d) : x < c.w ∧ y < c.h := by
  have := h.sub _ _ _ hd
  exact ⟨this.1, this.2.1⟩

theorem ChosenUpTo.row (hc : c.Valid) {x : Nat} (h : ChosenUpTo c x c.h S) : ChosenUpTo c (x + 1) 0 S where
  keeps T hT hall := h.keeps T hT fun x' y' d hb hd => hall x' y' d ((before_row (hT.lt hd).2).2 hb) hd
  best x' y' hx' hy' hb := h.best x' y' hx' hy' ((before_row hy').1 hb)
  first hb := h.first ((before_row hc.graph.height_pos).1 hb)
  whole hX := by omega

/-- The best of available nodes. -/
theorem notWorse_of_kept [LawfulFloat F] {x y d d' : Nat} (hsame : c.Same g) (hp : g.Proper)
    (hnn : ∀ d, le zero (c.disparityGraph.nodeQ x y d) = true) (hd : Kept g x y d) (hd' : g.Av x y d') : NotWorse c x y d d' := by
  rw [kept_iff_best hp (by rw [hsame.1]; exact fun d _ => hnn d), hsame.1] at hd
  exact ⟨hd.2.1 _ hd', fun hlt => hd.2.2 _ hlt hd'⟩

/-- One more node is chosen. -/
theorem ChosenUpTo.step [LawfulFloat F] {x y : Nat} (hsame : c.Same g) (hp : g.Proper)
    (hnn : ∀ d, le zero (c.disparityGraph.nodeQ x y d) = true)
    (h : ChosenUpTo c x y g.Av) (hsub : Sub S' (keepBest g x y))
    (hkeep : ∀ T, Keepable c T → Sub T (keepBest g x y) → Sub T S') : ChosenUpTo c x (y + 1) S' := by
  have hsubg : Sub S' g.Av := hsub.trans (keepBest_sub g x y)
  refine ⟨fun T hT hall => ?_, fun x' y' hx' hy' hb T hT hall d d' hd hd' => ?_, fun hb d d' hd hd' => ?_,
    fun _ hY => by omega⟩
  · have h1 := h.keeps T hT fun x' y' d hb hd => hsubg _ _ _ (hall x' y' d (before_succ.2 (.inl hb)) hd)
    refine hkeep T hT fun x' y' d hd => ⟨h1 _ _ _ hd, ?_⟩
    rintro ⟨rfl, rfl⟩
    exact (hsub _ _ _ (hall x' y' d (before_succ.2 (.inr ⟨rfl, rfl⟩)) hd)).2 ⟨rfl, rfl⟩
  · rcases before_succ.1 hb with hb | ⟨rfl, rfl⟩
    · exact h.best x' y' hx' hy' hb T hT (fun x2 y2 d2 hb2 hd2 => hsubg _ _ _ (hall x2 y2 d2 hb2 hd2)) d d' (hsubg _ _ _ hd) hd'
    · have h1 := h.keeps T hT fun x2 y2 d2 hb2 hd2 => hsubg _ _ _ (hall x2 y2 d2 hb2 hd2)
      exact notWorse_of_kept hsame hp hnn ((hsub _ _ _ hd).2 ⟨rfl, rfl⟩) (h1 _ _ _ hd')
  · rcases before_succ.1 hb with hb | ⟨rfl, rfl⟩
    · exact h.first hb d d' (hsubg _ _ _ hd) hd'
    · refine notWorse_of_kept hsame hp hnn ((hsub _ _ _ hd).2 ⟨rfl, rfl⟩) (h.whole rfl rfl _ _ _ hd')

/-- A labeling all nodes of which are still there is the best one. -/
theorem ChosenUpTo.lexBest (h : ChosenUpTo c c.w 0 S) {L : Nat → Nat → Nat} (hL : Consistent c.w c.h c.E c.Av L)
    (hS : ∀ x y, x < c.w → y < c.h → S x y (L x y)) :
    LexBest c.w c.h c.disparityGraph.nodeQ (Consistent c.w c.h c.E c.Av) L := by
  refine ⟨hL, fun L' hL' x y hx hy hall => ?_⟩
  refine h.best x y hx hy (.inl hx) _ hL'.keepable ?_ _ _ (hS x y hx hy) ⟨hx, hy, rfl⟩
  rintro x' y' d hb ⟨hx', hy', rfl⟩
  rw [hall x' y' hx' hy' hb]
  exact hS x' y' hx' hy'

/-! ## Removal of everything that can be removed -/

/-- `L` is what is found whenever enough nodes are removed. -/
structure Reachable (c : ConstraintGraph F) (L : Nat → Nat → Nat) : Prop where
  cons : Consistent c.w c.h c.E c.Av L
  best : ∀ x y, x < c.w → y < c.h → ∀ T, Keepable c T →
    (∀ x' y' d', Before x y x' y' → T x' y' d' → d' = L x' y') → ∀ d', T x y d' → NotWorse c x y (L x y) d'
  first : ∀ d', c.Av 0 0 d' → NotWorse c 0 0 (L 0 0) d'

theorem ChosenUpTo.reachable (hc : c.Valid) (h : ChosenUpTo c c.w 0 S) {L : Nat → Nat → Nat} (hL : Consistent c.w c.h c.E c.Av L)
    (hS : ∀ x y, x < c.w → y < c.h → S x y (L x y)) : Reachable c L where
  cons := hL
  best x y hx hy T hT hall d' hd' := h.best x y hx hy (.inl hx) T hT (fun x' y' d2 hb hd2 => by
    rw [hall x' y' d2 hb hd2]
    exact hS _ _ (hT.lt hd2).1 (hT.lt hd2).2) _ _ (hS x y hx hy) hd'
  first d' hd' := h.first (.inl hc.graph.width_pos) _ _ (hS 0 0 hc.graph.width_pos hc.graph.height_pos) hd'

/-- Nodes chosen before `(X, Y)` are those of `L`. -/
structure FollowsUpTo (c : ConstraintGraph F) (L : Nat → Nat → Nat) (X Y : Nat) (S : NodeSet) : Prop where
  sub : Sub S c.Av
  keeps : Sub (labelingNodes c.w c.h L) S
  only : ∀ x y d, Before X Y x y → S x y d → d = L x y
  arc : X = 0 ∧ Y = 0 ∨ ArcConsistent c.w c.h c.E S

theorem FollowsUpTo.start {L : Nat → Nat → Nat} (h : Reachable c L) : FollowsUpTo c L 0 0 c.Av where
  sub := Sub.refl _
  keeps := h.cons.sub
  only _ _ _ hb := by rcases hb with h | ⟨-, h⟩ <;> omega
  arc := .inl ⟨rfl, rfl⟩

theorem FollowsUpTo.row {L : Nat → Nat → Nat} (hc : c.Valid) {x : Nat} (h : FollowsUpTo c L x c.h S) : FollowsUpTo c L (x + 1) 0 S where
  sub := h.sub
  keeps := h.keeps
  only x' y' d hb hd := h.only x' y' d ((before_row (h.sub _ _ _ hd).2.1).1 hb) hd
  arc := h.arc.elim (fun h => absurd h.2 (Nat.ne_of_gt hc.graph.height_pos)) .inr

theorem NotWorse.antisymm [LawfulFloat F] {x y d d' : Nat} (h : NotWorse c x y d d') (h' : NotWorse c x y d' d) : d = d' := by
  rcases Nat.lt_trichotomy d d' with hlt | h0 | hlt
  · have := h'.2 hlt
    rw [LawfulFloat.lt_iff, h.1] at this
    cases this
  · exact h0
  · have := h.2 hlt
    rw [LawfulFloat.lt_iff, h'.1] at this
    cases this

theorem FollowsUpTo.step [LawfulFloat F] {L : Nat → Nat → Nat} {x y : Nat} (hx : x < c.w) (hy : y < c.h) (hL : Reachable c L)
    (hsame : c.Same g) (hp : g.Proper) (hnn : ∀ d, le zero (c.disparityGraph.nodeQ x y d) = true)
    (h : FollowsUpTo c L x y g.Av) (hsub : Sub S' (keepBest g x y))
    (hkeep : ∀ T, Keepable c T → Sub T (keepBest g x y) → Sub T S') (harc : ArcConsistent c.w c.h c.E S') :
    FollowsUpTo c L x (y + 1) S' := by
  have hLx : g.Av x y (L x y) := h.keeps _ _ _ ⟨hx, hy, rfl⟩
  have hbest : ∀ d', g.Av x y d' → NotWorse c x y (L x y) d' := by
    intro d' hd'
    rcases h.arc with ⟨rfl, rfl⟩ | harc
    · exact hL.first d' (h.sub _ _ _ hd')
    · refine hL.best x y hx hy g.Av ⟨h.sub, harc, fun x' y' hx' hy' => ⟨_, h.keeps _ _ _ ⟨hx', hy', rfl⟩⟩⟩ h.only d' hd'
  have honly : ∀ d, Kept g x y d → d = L x y := fun d hd =>
    (notWorse_of_kept hsame hp hnn hd hLx).antisymm (hbest d hd.1)
  refine ⟨(hsub.trans (keepBest_sub g x y)).trans h.sub, hkeep _ hL.cons.keepable ?_, fun x' y' d hb hd => ?_, .inr harc⟩
  · rintro x' y' d ⟨hx', hy', rfl⟩
    refine ⟨h.keeps _ _ _ ⟨hx', hy', rfl⟩, ?_⟩
    rintro ⟨rfl, rfl⟩
    rw [kept_iff_best hp (by rw [hsame.1]; exact fun d _ => hnn d), hsame.1]
    exact ⟨hLx, fun d' hd' => (hbest d' hd').1, fun d' hlt hd' => (hbest d' hd').2 hlt⟩
  · rcases before_succ.1 hb with hb | ⟨rfl, rfl⟩
    · exact h.only x' y' d hb (hsub _ _ _ hd).1
    · exact honly d ((hsub _ _ _ hd).2 ⟨rfl, rfl⟩)

/-- All nodes are those of `L`. -/
theorem FollowsUpTo.exact {L : Nat → Nat → Nat} (h : FollowsUpTo c L c.w 0 S) : S = labelingNodes c.w c.h L := by
  funext x y d
  refine propext ⟨fun hd => ?_, h.keeps x y d⟩
  have := h.sub _ _ _ hd
  exact ⟨this.1, this.2.1, h.only x y d (.inl this.1) hd⟩

/-- Executions of `find_labeling` by several threads. -/
theorem par_findLabeling_chosen [LawfulFloat F] {B : Nat} {jobs : UInt64} {solve : Solver F} (hs : solve.Possible B jobs) (hc : c.Valid)
    (hp : c.Proper) (hnn : ∀ x y d, le zero (c.disparityGraph.nodeQ x y d) = true) (hj : 0 < jobs.toNat)
    (hfit : c.h + jobs.toNat ≤ 18446744073709551616) (n : Nat) :
    Res (Hangs solve B jobs) (Par.findLabeling solve n c) fun r => r.2.1 = true → ChosenUpTo c c.w 0 r.1.Av := by
  refine par_findLabeling_rule hc (fun X Y g => c.Same g ∧ g.Valid ∧ Sub g.Av c.Av ∧ ChosenUpTo c X Y g.Av) _
    ⟨Same.refl c, hc, Sub.refl _, .start⟩ ?_ ?_ ?_ n
  · rintro x y g n hx hy ⟨h1, h2, h3, h4⟩
    unfold Par.labelStep
    have hpg := h1.proper hp h3
    refine Res.bind (chooseBestNode_mk h2 hpg (by rw [h1.w_eq]; exact hx) (by rw [h1.h_eq]; exact hy)).res ?_
    rintro ⟨g1, b1⟩ ⟨k1, k2, k3, -⟩
    simp only at k1 k2 k3
    have hav : g1.Av = keepBest g x y := by
      funext x' y' d
      exact propext (k3 x' y' d)
    have hsub1 : Sub g1.Av g.Av := by rw [hav]; exact keepBest_sub g x y
    cases b1
    · exact .inr ⟨rfl, fun h => Bool.noConfusion h⟩
    · simp only [Bool.not_true, Bool.false_eq_true, if_false]
      have hs1 := h1.trans k1
      have hfit1 : g1.h + jobs.toNat ≤ 18446744073709551616 := by rw [hs1.h_eq]; exact hfit
      have hp1 := hs1.proper hp (hsub1.trans h3)
      refine Res.bind (solver_res hs hj n k2 hp1 hfit1) ?_
      rintro ⟨g2, b2⟩ hto
      simp only at hto
      obtain ⟨m1, m2, m3⟩ := hto.basic k2 hj hfit1
      cases b2
      · exact .inr ⟨rfl, fun h => Bool.noConfusion h⟩
      · refine .inl ⟨rfl, hs1.trans m1, m2, m3.trans (hsub1.trans h3), ?_⟩
        refine h4.step h1 hpg (fun d => hnn x y d) (by rw [← hav]; exact m3) fun T hT hsub => ?_
        rw [← hav] at hsub
        refine (hto.keeps k2 hj hfit1 hp1 hsub ?_ ?_).2
        · rw [hs1.w_eq, hs1.h_eq, hs1.E_eq]
          exact hT.arc
        · rw [hs1.w_eq, hs1.h_eq]
          exact hT.alive
  · rintro x g hx ⟨h1, h2, h3, h4⟩
    exact ⟨h1, h2, h3, h4.row hc⟩
  · rintro g n ⟨-, -, -, h4⟩ -
    exact h4

end SP
