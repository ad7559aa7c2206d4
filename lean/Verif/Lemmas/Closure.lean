import Verif.Lemmas.Csp
import Mathlib.Data.Finset.Card
import Mathlib.Data.Finset.Prod
import Mathlib.Data.Finset.Range
import Mathlib.Order.Monotone.Basic
/-!
# The largest arc consistent subset and its computation by repeated removal
-/
namespace SP
variable {w h : Nat} {E E' : EdgeRel} {S T : NodeSet}

theorem arcClosure_sub : Sub (arcClosure w h E S) S := by
  rintro x y d ⟨T, hT, _, h⟩
  exact hT x y d h

theorem arcClosure_arc : ArcConsistent w h E (arcClosure w h E S) := by
  rintro x y d ⟨T, hT, ha, h⟩
  exact (ha x y d h).mono (fun _ _ _ _ _ h => h) fun x y d ht => ⟨T, hT, ha, ht⟩

theorem sub_arcClosure (hT : Sub T S) (ha : ArcConsistent w h E T) : Sub T (arcClosure w h E S) :=
  fun _ _ _ h => ⟨T, hT, ha, h⟩

theorem arcClosure_eq (hT : Sub T S) (ha : ArcConsistent w h E T) (hc : Sub (arcClosure w h E S) T) :
    T = arcClosure w h E S := (sub_arcClosure hT ha).antisymm hc

theorem arcClosure_sub_sweep (ps : List (Nat × Nat)) : Sub (arcClosure w h E S) (sweep w h E ps S) :=
  sub_sweep arcClosure_arc arcClosure_sub ps

/-- Nodes outside the grid do not matter for supports: a set inside the grid is arc consistent if removal changes nothing in
each pixel. -/
theorem arc_of_stable (hgrid : ∀ x y d, S x y d → x < w ∧ y < h)
    (hst : ∀ x y, x < w → y < h → removeUnsupported w h E S x y = S) : ArcConsistent w h E S := by
  intro x y d hs
  obtain ⟨hx, hy⟩ := hgrid x y d hs
  have : removeUnsupported w h E S x y x y d := by rw [hst x y hx hy]; exact hs
  exact this.2 ⟨rfl, rfl⟩

/-- A non-increasing sequence of natural numbers stabilises. -/
theorem antitone_stabilises (f : Nat → Nat) (hf : ∀ n, f (n + 1) ≤ f n) : ∃ N, ∀ m, N ≤ m → f m = f N := by
  have hanti : ∀ m n, m ≤ n → f n ≤ f m := by
    intro m n hmn
    induction hmn with
    | refl => exact Nat.le_refl _
    | step _ ih => exact Nat.le_trans (hf _) ih
  by_contra hcon
  have h1 : ∀ N, ∃ m, N ≤ m ∧ f m < f N := by
    intro N
    by_contra hN
    refine hcon ⟨N, fun m hm => ?_⟩
    have := hanti N m hm
    by_contra hne
    exact hN ⟨m, hm, by omega⟩
  have h2 : ∀ k, ∃ m, f m + k ≤ f 0 := by
    intro k
    induction k with
    | zero => exact ⟨0, by omega⟩
    | succ k ih =>
      obtain ⟨m, hm⟩ := ih
      obtain ⟨m', _, hm'⟩ := h1 m
      exact ⟨m', by omega⟩
  obtain ⟨m, hm⟩ := h2 (f 0 + 1)
  omega

open Classical in
/-- Number of nodes of a set inside a box. -/
noncomputable def boxCard (w h l : Nat) (S : NodeSet) : Nat :=
  ((Finset.range w ×ˢ Finset.range h ×ˢ Finset.range l).filter fun p => S p.1 p.2.1 p.2.2).card

theorem boxCard_mono {w h l : Nat} (hST : Sub S T) : boxCard w h l S ≤ boxCard w h l T := by
  classical
  unfold boxCard
  refine Finset.card_le_card fun p hp => ?_
  rw [Finset.mem_filter] at hp ⊢
  exact ⟨hp.1, hST _ _ _ hp.2⟩

theorem eq_of_boxCard {w h l : Nat} (hST : Sub S T) (hT : ∀ x y d, T x y d → x < w ∧ y < h ∧ d < l)
    (hc : boxCard w h l S = boxCard w h l T) : S = T := by
  classical
  refine hST.antisymm fun x y d ht => ?_
  unfold boxCard at hc
  have hsub : ((Finset.range w ×ˢ Finset.range h ×ˢ Finset.range l).filter fun p => S p.1 p.2.1 p.2.2) ⊆
      ((Finset.range w ×ˢ Finset.range h ×ˢ Finset.range l).filter fun p => T p.1 p.2.1 p.2.2) := by
    intro p hp
    rw [Finset.mem_filter] at hp ⊢
    exact ⟨hp.1, hST _ _ _ hp.2⟩
  have heq := Finset.eq_of_subset_of_card_le hsub (le_of_eq hc.symm)
  have hm : ((x, y, d) : Nat × Nat × Nat) ∈
      ((Finset.range w ×ˢ Finset.range h ×ˢ Finset.range l).filter fun p => T p.1 p.2.1 p.2.2) := by
    rw [Finset.mem_filter]
    obtain ⟨h1, h2, h3⟩ := hT x y d ht
    refine ⟨?_, ht⟩
    simp only [Finset.mem_product, Finset.mem_range]
    exact ⟨h1, h2, h3⟩
  rw [← heq, Finset.mem_filter] at hm
  exact hm.2

/-- The first `n` pixels of a sequence. -/
def firstPixels (p : Nat → Nat × Nat) (n : Nat) : List (Nat × Nat) := (List.range n).map p

theorem sweep_firstPixels_succ (p : Nat → Nat × Nat) (n : Nat) :
    sweep w h E (firstPixels p (n + 1)) S
      = removeUnsupported w h E (sweep w h E (firstPixels p n) S) (p n).1 (p n).2 := by
  unfold firstPixels
  rw [List.range_succ, List.map_append]
  exact sweep_snoc _ _

/-- Processing pixels in any order in which each pixel occurs again and again reaches the closure. -/
theorem sweep_reaches {l : Nat} (hgrid : ∀ x y d, S x y d → x < w ∧ y < h ∧ d < l) (p : Nat → Nat × Nat)
    (hfair : ∀ x y, x < w → y < h → ∀ n, ∃ m, n ≤ m ∧ p m = (x, y)) :
    ∃ N, ∀ m, N ≤ m → sweep w h E (firstPixels p m) S = arcClosure w h E S := by
  have hin : ∀ n x y d, sweep w h E (firstPixels p n) S x y d → x < w ∧ y < h ∧ d < l :=
    fun n x y d hs => hgrid x y d (sweep_sub _ _ _ _ hs)
  have hstep : ∀ n, Sub (sweep w h E (firstPixels p (n + 1)) S) (sweep w h E (firstPixels p n) S) := by
    intro n
    rw [sweep_firstPixels_succ]
    exact removeUnsupported_sub _ _
  obtain ⟨N, hN⟩ := antitone_stabilises (fun n => boxCard w h l (sweep w h E (firstPixels p n) S))
    (fun n => boxCard_mono (hstep n))
  have hsub : ∀ m, N ≤ m → Sub (sweep w h E (firstPixels p m) S) (sweep w h E (firstPixels p N) S) := by
    intro m hm
    induction hm with
    | refl => exact Sub.refl _
    | step _ ih => exact (hstep _).trans ih
  have hst : ∀ m, N ≤ m → sweep w h E (firstPixels p m) S = sweep w h E (firstPixels p N) S :=
    fun m hm => eq_of_boxCard (hsub m hm) (hin N) (hN m hm)
  have harc : ArcConsistent w h E (sweep w h E (firstPixels p N) S) := by
    refine arc_of_stable (fun x y d hs => ⟨(hin N x y d hs).1, (hin N x y d hs).2.1⟩) fun x y hx hy => ?_
    obtain ⟨m, hm, he⟩ := hfair x y hx hy N
    have := hst (m + 1) (by omega)
    rw [sweep_firstPixels_succ, he, hst m hm] at this
    exact this
  refine ⟨N, fun m hm => ?_⟩
  rw [hst m hm]
  exact arcClosure_eq (sweep_sub _) harc (arcClosure_sub_sweep _)

end SP
