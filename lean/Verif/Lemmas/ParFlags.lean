import Verif.Lemmas.ParLoop
/-!
# Rounds that report a change
-/
set_option linter.unusedSectionVars false

namespace SP
open FloatOps ConstraintGraph
variable {F : Type} [FloatOps F] {c c' : ConstraintGraph F} {B n : Nat} {jobs : UInt64} {fresh : Bool} {e : Env} {s : View}

/-- After `make_all_nodes_unavailable` the worker has stored each word. -/
theorem makeAllNodesUnavailable_marks (hc : c.Valid) (hSt : ∀ w t v, e.St w t v → 1 ≤ t)
    (hG : ∀ s i t v, i < c.nodesAvailability.size → s (i / B) ≤ t → e.R s (i / B) t v →
      e.G (i / B) (fun j => if j = i then false else v j)) :
    Wp e (Par.makeAllNodesUnavailable B c) s fun _ s' => ∀ i, i < c.nodesAvailability.size → 1 ≤ s' (i / B) := by
  have hn := nodesCount_toNat hc
  have hlt := toNat_lt' (nodesCount c.disparityGraph)
  unfold Par.makeAllNodesUnavailable
  refine pfor_ok 0 c.nodesAvailability.size (fun j _ s' => ∀ i, i < j → 1 ≤ s' (i / B)) rfl (by omega) (by omega)
    ?_ (by omega) ?_ ?_
  · intro k _ hk
    rw [cond_lt _ _ (by omega), hn]
  · intro j b s' _ hj hs' hdone
    refine Wp.seq (P := fun _ s2 => 1 ≤ s2 (j / B)) (wrFlag_wp hj (by omega) (fun t v => hG s' j t v hj) ?_) ?_
    · intro t t' v _ _ _ hst
      simp only [setAt_self]
      exact hSt _ _ _ hst
    · intro _ s2 hs2 hj2
      simp only [prog_pure_eq, wp_ret, Bool.false_eq_true, if_false]
      intro i hi
      rcases Nat.lt_succ_iff_lt_or_eq.1 hi with h | rfl
      · exact Nat.le_trans (hdone i h) (hs2 _)
      · exact hj2
  · intro _ s' _ h; exact h

/-- A worker that returns true has seen an available node and has stored each word. -/
theorem iteration_changed (hc : c.Valid) {jobs job : Nat} (hj : 0 < jobs) (hfit : c.h + jobs ≤ 18446744073709551616)
    (hjob : job < 18446744073709551616) (hSt : ∀ w t v, e.St w t v → 1 ≤ t)
    (hG : ∀ s i t v, i < c.nodesAvailability.size → s (i / B) ≤ t → e.R s (i / B) t v →
      e.G (i / B) (fun j => if j = i then false else v j)) :
    Wp e (Par.cspSolutionIteration B c (UInt64.ofNat jobs) (UInt64.ofNat job)) s fun b s' => b = true →
      (∃ i, i < c.nodesAvailability.size ∧ Rd e B s i true) ∧ ∀ i, i < c.nodesAvailability.size → 1 ≤ s' (i / B) := by
  refine cspSolutionIteration_wp hc hj hfit hjob (fun _ _ _ => True) (fun _ => True) trivial (fun _ _ _ => trivial)
    ?_ ?_ (fun _ _ _ h => Bool.noConfusion h)
  · intro k x s' _ hx hy _
    refine cspProcessPixel_wp hc hx hy (fun _ _ _ => True) trivial ?_ ?_
    · intro d ch s2 _ hn _
      refine (shouldRemoveNode_wp hc hn).mono ?_
      intro b s3 _ _
      cases b
      · simp
      · simp only [if_true]
        exact fun t v h1 hv => ⟨hG s3 _ t v (hc.nidx_lt' hn.1 hn.2.1 hn.2.2.1).1 h1 hv, fun _ _ _ => trivial⟩
    · intro ch s2 _ _
      refine (pixelAvailable_wp hc hx hy).mono ?_
      intro b s3 _ _
      cases b <;> simp
  · intro s' hs' _
    refine (checkNodesLeft_wp hc).mono ?_
    intro b s2 hs2 hb
    cases b
    · simp
    · simp only [if_true] at hb ⊢
      obtain ⟨i, hi, hrd⟩ := hb
      refine (makeAllNodesUnavailable_marks hc hSt hG).mono ?_
      exact fun _ s3 _ h _ => ⟨⟨i, hi, hrd.mono hs'⟩, h⟩

/-- A worker does what it has to if clearing of a flag is allowed. -/
theorem iteration_changed' (hc : c.Valid) {jobs job : Nat} (hj : 0 < jobs) (hfit : c.h + jobs ≤ 18446744073709551616)
    (hjob : job < 18446744073709551616)
    (hG : ∀ s i t v, i < c.nodesAvailability.size → s (i / B) ≤ t → e.R s (i / B) t v →
      e.G (i / B) (fun j => if j = i then false else v j)) :
    Wp e (Par.cspSolutionIteration B c (UInt64.ofNat jobs) (UInt64.ofNat job)) s fun _ _ => True := by
  refine cspSolutionIteration_wp hc hj hfit hjob (fun _ _ _ => True) (fun _ => True) trivial (fun _ _ _ => trivial)
    ?_ ?_ (fun _ _ _ => trivial)
  · intro k x s' _ hx hy _
    refine cspProcessPixel_wp hc hx hy (fun _ _ _ => True) trivial ?_ ?_
    · intro d ch s2 _ hn _
      refine (shouldRemoveNode_wp hc hn).mono ?_
      intro b s3 _ _
      cases b
      · simp
      · simp only [if_true]
        exact fun t v h1 hv => ⟨hG s3 _ t v (hc.nidx_lt' hn.1 hn.2.1 hn.2.2.1).1 h1 hv, fun _ _ _ => trivial⟩
    · intro ch s2 _ _
      refine (pixelAvailable_wp hc hx hy).mono ?_
      intro b s3 _ _
      cases b <;> simp
  · intro s' hs' _
    refine (checkNodesLeft_wp hc).mono ?_
    intro b s2 hs2 hb
    cases b
    · simp
    · simp only [if_true]
      exact makeAllNodesUnavailable_wp hc hG

section
variable (hc : c.Valid) (hj : 0 < jobs.toNat) (hfit : c.h + jobs.toNat ≤ 18446744073709551616)
  (hn : n ≤ 18446744073709551616)
include hc hj hfit hn

/-- If a round reports a change then there was an available node. -/
theorem RoundTo.nonempty (h : RoundTo B n jobs c c' true) : ∃ x y d, c.Av x y d := by
  obtain ⟨P, r, hs, hr, hch, rfl⟩ := h
  obtain ⟨i, hi, hri⟩ := hch.1 rfl
  obtain ⟨own, _, hloc⟩ := hs.local (Pool.start_ok _ _)
  have hbel := (round_below hc hj hfit hn hs).1
  let e : Env :=
    { R := fun _ w _ v => Below B (flagsOf c.nodesAvailability) w v
      St := fun _ t _ => 1 ≤ t
      G := fun _ _ => True
      E := fun _ => True }
  have hit := iteration_changed (e := e) (B := B) (s := (roundStart B jobs c).seen i) hc hj hfit
    (show i < 18446744073709551616 by omega) (fun _ _ _ h => h) (fun _ _ _ _ _ _ _ => trivial)
  rw [jobs_ofNat] at hit
  have hwp := hloc i hi e _ (fun s w t v hv _ => hbel w t v hv) (fun w t v _ h _ => h) hit
  rw [hr i hi] at hwp
  obtain ⟨⟨j, hj1, hrd⟩, -⟩ := hwp hri
  obtain ⟨s', t, v, _, _, hv, hb⟩ := hrd
  have hfl := hv j rfl hb
  have hz := hc.size
  obtain ⟨x, y, d, hx, hy, hd, he⟩ := nidx_surj (w := c.w) (h := c.h) (l := c.levels) (i := j) (by rw [hz] at hj1; exact hj1)
  exact ⟨x, y, d, hx, hy, hd, by rw [← he] at hfl; exact hfl⟩

/-- When each flag is a word of its own, a round that reports a change leaves no node. -/
theorem RoundTo.wipes (h : RoundTo 1 n jobs c c' true) : ∀ x y d, ¬ c'.Av x y d := by
  obtain ⟨P, r, hs, hr, hch, rfl⟩ := h
  obtain ⟨i, hi, hri⟩ := hch.1 rfl
  have hok := hs.ok (Pool.start_ok _ _)
  obtain ⟨own, _, hloc⟩ := hs.local (Pool.start_ok _ _)
  let e : Env :=
    { R := fun _ _ _ _ => True
      St := fun _ t _ => 1 ≤ t
      G := fun w v => v w = false
      E := fun _ => True }
  have hG : ∀ (s : View) (i t : Nat) (v : Flags), i < c.nodesAvailability.size → s (i / 1) ≤ t → e.R s (i / 1) t v →
      e.G (i / 1) (fun j => if j = i then false else v j) := by
    intro s i t v _ _ _
    show (if i / 1 = i then false else v (i / 1)) = false
    rw [Nat.div_one, if_pos rfl]
  have hit := iteration_changed (e := e) (B := 1) (s := (roundStart 1 jobs c).seen i) hc hj hfit
    (show i < 18446744073709551616 by omega) (fun _ _ _ h => h) hG
  rw [jobs_ofNat] at hit
  have hwp := hloc i hi e _ (fun _ _ _ _ _ _ => trivial) (fun w t v _ h _ => h) hit
  rw [hr i hi] at hwp
  obtain ⟨-, hseen⟩ := hwp hri
  -- all the values stored
  have hst := (hs.sound (e := { e with St := fun _ _ _ => True }) (Q := fun _ _ _ => True) (Pool.start_ok _ _)
    (fun _ _ _ _ _ => trivial) (fun _ _ _ _ _ => trivial) (fun _ _ _ => trivial) (by
      intro i hi
      have h2 := iteration_changed' (e := { e with St := fun _ _ _ => True }) (B := 1)
        (s := (roundStart 1 jobs c).seen i) hc hj hfit (show i < 18446744073709551616 by omega) hG
      rw [jobs_ofNat] at h2
      exact h2)).1
  intro x y d hav
  rw [withFlags_av hc] at hav
  obtain ⟨hx, hy, hd, hav⟩ := hav
  have hlt := (hc.nidx_lt' hx hy hd).1
  have h1 : 1 ≤ P.seen i (c.ix x y d / 1) := hseen _ hlt
  have h2 := hok i (c.ix x y d / 1) hi
  obtain ⟨t, v, hv, hlen, hcur⟩ := current_get (B := 1) hs (c.ix x y d / 1)
  obtain ⟨l, hl, hlG⟩ := hst (c.ix x y d / 1)
  have hm : (roundStart 1 jobs c).mem (c.ix x y d / 1) = [flagsOf c.nodesAvailability] := rfl
  rw [hm] at hl
  rw [hl, List.getElem?_append_right (by simp; omega)] at hv
  have := hlG v (List.mem_of_getElem? hv)
  rw [hcur _ rfl] at hav
  change v (c.ix x y d / 1) = false at this
  rw [Nat.div_one] at this
  rw [this] at hav
  exact absurd hav (by simp)

end
end SP
