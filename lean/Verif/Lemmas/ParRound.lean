import Verif.Lemmas.ParSolve
/-!
# Rounds that report no change
-/
set_option linter.unusedSectionVars false

namespace SP
open FloatOps ConstraintGraph
variable {F : Type} [FloatOps F] {c c' : ConstraintGraph F} {B n : Nat} {jobs : UInt64} {fresh : Bool}

/-- Each pixel has at most one available node. -/
def ConstraintGraph.Single (c : ConstraintGraph F) : Prop :=
  ∀ x y d d', c.Av x y d → c.Av x y d' → d = d'

theorem roundStart_mem (B : Nat) (jobs : UInt64) (c : ConstraintGraph F) (w : Nat) :
    (roundStart B jobs c).mem w = [flagsOf c.nodesAvailability] := rfl

section
variable (hc : c.Valid) (hj : 0 < jobs.toNat) (hfit : c.h + jobs.toNat ≤ 18446744073709551616)
  (hn : n ≤ 18446744073709551616)
include hc hj hfit hn

/-- If nothing is stored and all workers return false then either each pixel has a node and each node is supported, or there are no
nodes. -/
theorem round_noStores (hp : c.Proper) {P : Pool Bool}
    (hs : Steps fresh (fun _ => 0) n (roundStart B jobs c) P) (hcov : jobs.toNat ≤ n)
    (hr : ∀ i, i < n → P.prog i = .ret false)
    (hlen : ∀ i, i < c.nodesAvailability.size → (P.mem (i / B)).length = 1) :
    (AllAlive c.w c.h c.Av ∧ ArcConsistent c.w c.h c.E c.Av) ∨ ∀ x y d, ¬ c.Av x y d := by
  obtain ⟨own, _, hloc⟩ := hs.local (Pool.start_ok _ _)
  have hmem : ∀ i, i < c.nodesAvailability.size → P.mem (i / B) = [flagsOf c.nodesAvailability] := by
    intro i hi
    obtain ⟨l, hl⟩ := hs.mem_grows (i / B)
    rw [roundStart_mem] at hl
    have h1 := hlen i hi
    rw [hl] at h1
    simp at h1
    rw [hl, h1]; rfl
  let e : Env :=
    { R := fun _ w t v => (P.mem w)[t]? = some v
      St := fun w t v => (P.mem w)[t]? = some v ∧ 1 ≤ t
      G := fun _ _ => True
      E := fun _ => True }
  have hrd : ∀ {s : View} {i : Nat} {b : Bool}, i < c.nodesAvailability.size → Rd e B s i b →
      flagsOf c.nodesAvailability i = b := by
    rintro s i b hi ⟨s', t, v, _, _, hv, hb⟩
    change (P.mem (i / B))[t]? = some v at hv
    rw [hmem i hi, List.getElem?_singleton] at hv
    split at hv
    · simp at hv; rw [hv]; exact hb
    · simp at hv
  have hix : ∀ {x y d}, c.disparityGraph.IsNode x y d → c.ix x y d < c.nodesAvailability.size :=
    fun h => (hc.nidx_lt' h.1 h.2.1 h.2.2.1).1
  have hworker : ∀ i, i < n → (∀ k x, x < c.w → i + k * jobs.toNat < c.h →
        (∃ d, c.Av x (i + k * jobs.toNat) d) ∧
        ∀ d, c.Av x (i + k * jobs.toNat) d → Supported c.w c.h c.E c.Av x (i + k * jobs.toNat) d) ∨
      (∀ j, j < c.nodesAvailability.size → flagsOf c.nodesAvailability j = false) := by
    intro i hi
    let good : Nat → Nat → Prop := fun k x => (∃ d, c.Av x (i + k * jobs.toNat) d) ∧
        ∀ d, c.Av x (i + k * jobs.toNat) d → Supported c.w c.h c.E c.Av x (i + k * jobs.toNat) d
    have := hloc i hi e (fun b _ => b = false →
      (∀ k x, x < c.w → i + k * jobs.toNat < c.h → good k x) ∨
      (∀ j, j < c.nodesAvailability.size → flagsOf c.nodesAvailability j = false))
      (fun s w t v hv _ => hv) (fun w t v hv h1 _ => ⟨hv, by rw [roundStart_mem] at h1; simpa using h1⟩) ?_
    · rw [hr i hi] at this
      exact this rfl
    · have key := cspSolutionIteration_wp (e := e) (B := B) (s := fun _ => 0) hc hj hfit (job := i) (by omega)
        (J := fun k x _ => ∀ k' x', (k' < k ∨ (k' = k ∧ x' < x)) → x' < c.w → i + k' * jobs.toNat < c.h → good k' x')
        (D := fun _ => True)
        (Q := fun b _ => b = false →
          (∀ k x, x < c.w → i + k * jobs.toNat < c.h → good k x) ∨
          (∀ j, j < c.nodesAvailability.size → flagsOf c.nodesAvailability j = false))
        (by intro k' x' h; omega)
        (by
          intro k s' h k' x' h' hx' hy'
          exact h k' x' (by omega) hx' hy')
        (by
          intro k x s' _ hx hy hJ
          refine cspProcessPixel_wp hc hx hy
            (fun d _ _ => ∀ d', d' < d → c.disparityGraph.IsNode x (i + k * jobs.toNat) d' →
              c.Av x (i + k * jobs.toNat) d' → Supported c.w c.h c.E c.Av x (i + k * jobs.toNat) d')
            (by omega) ?_ ?_
          · intro d ch s2 _ hnode hP
            refine (shouldRemoveNode_wp hc hnode).mono ?_
            intro b s3 _ hb
            cases b
            · simp only [Bool.false_eq_true, if_false] at hb ⊢
              intro d' hd' hn' hav
              by_cases hdd : d' = d
              · subst hdd
                rcases hb with h | h
                · have := hrd (hix hn') h
                  have h2 : flagsOf c.nodesAvailability (c.ix x (i + k * jobs.toNat) d') = true := hav.2.2.2
                  rw [this] at h2
                  exact absurd h2 (by simp)
                · intro k' hk'
                  obtain ⟨d2, he, h2⟩ := h k' hk'
                  have hn2 : c.disparityGraph.IsNode (nbx x k') (nby (i + k * jobs.toNat) k') d2 := he.1.2.2.1
                  exact ⟨d2, ⟨hn2.1, hn2.2.1, hn2.2.2.1, hrd (hix hn2) h2⟩, he⟩
              · exact hP d' (by omega) hn' hav
            · simp only [if_true]
              intro t v _ _
              refine ⟨trivial, fun t' _ hst => ?_⟩
              have := (List.getElem?_eq_some_iff.1 hst.1).1
              rw [hlen _ (hix hnode)] at this
              have := hst.2
              omega
          · intro ch s2 _ hP
            refine (pixelAvailable_wp hc hx hy).mono ?_
            intro b s3 _ hb
            cases b
            · simp
            · simp only [if_true] at hb ⊢
              intro k' x' hlt hx' hy'
              by_cases hkk : k' = k ∧ x' = x
              · obtain ⟨rfl, rfl⟩ := hkk
                obtain ⟨d, hn1, h1⟩ := hb
                refine ⟨⟨d, hn1.1, hn1.2.1, hn1.2.2.1, hrd (hix hn1) h1⟩, ?_⟩
                intro d' hav
                have hn' := hp _ _ _ hav
                have l1 : d' < c.levels := hn'.2.2.1
                have l2 : x' + d' < c.w := hn'.2.2.2
                exact hP d' (by omega) hn' hav
              · exact hJ k' x' (by omega) hx' hy')
        (by
          intro s' _ _
          refine (checkNodesLeft_wp hc).mono ?_
          intro b s2 _ hb
          cases b
          · simp only [Bool.false_eq_true, if_false] at hb ⊢
            exact fun _ => .inr fun j hj => hrd hj (hb j hj)
          · simp only [if_true]
            refine (makeAllNodesUnavailable_wp hc fun _ _ _ _ _ _ _ => trivial).mono ?_
            intro _ _ _ _ h
            exact absurd h (by simp))
        (by
          intro s' _ hJ _
          refine .inl fun k x hx hy => hJ k x ?_ hx hy
          have := (jobRows_lt (h := c.h) (job := i) (i := k) hj).2 hy
          omega)
      rw [jobs_ofNat] at key
      exact key
  by_cases hex : ∃ i, i < n ∧ ∀ j, j < c.nodesAvailability.size → flagsOf c.nodesAvailability j = false
  · obtain ⟨i, _, h⟩ := hex
    refine .inr ?_
    rintro x y d ⟨hx, hy, hd, hav⟩
    have := h _ (hc.nidx_lt' hx hy hd).1
    unfold flagsOf at this
    rw [this] at hav
    exact absurd hav (by simp)
  · have hrow : ∀ x y, x < c.w → y < c.h →
        (∃ d, c.Av x y d) ∧ ∀ d, c.Av x y d → Supported c.w c.h c.E c.Av x y d := by
      intro x y hx hy
      have hm : y % jobs.toNat < n := Nat.lt_of_lt_of_le (Nat.mod_lt _ hj) hcov
      have he : y % jobs.toNat + y / jobs.toNat * jobs.toNat = y := by
        rw [Nat.mul_comm]; exact Nat.mod_add_div _ _
      rcases hworker _ hm with h | h
      · have := h (y / jobs.toNat) x hx (by rw [he]; exact hy)
        rw [he] at this
        exact this
      · exact absurd ⟨_, hm, h⟩ hex
    refine .inl ⟨fun x y hx hy => (hrow x y hx hy).1, fun x y d hav => ?_⟩
    exact (hrow x y hav.1 hav.2.1).2 d hav

/-- If all workers return false then the last value stored in a word misses a flag that was set in the beginning. -/
theorem round_stored {P : Pool Bool}
    (hs : Steps fresh (fun _ => 0) n (roundStart B jobs c) P)
    (hr : ∀ i, i < n → P.prog i = .ret false) {w0 t0 : Nat} {v0 : Flags}
    (hlen : t0 + 1 = (P.mem w0).length) (ht0 : 1 ≤ t0) (hv0 : (P.mem w0)[t0]? = some v0) :
    ∃ x y d, c.Av x y d ∧ c.ix x y d / B = w0 ∧ v0 (c.ix x y d) = false := by
  have hbel := (round_below hc hj hfit hn hs).1
  obtain ⟨own, hown, hloc⟩ := hs.local (Pool.start_ok _ _)
  simp only [roundStart_mem, List.length_singleton] at hown hloc
  obtain ⟨hi, hseen⟩ := hown w0 t0 ht0 (by omega)
  generalize hi0 : own w0 t0 = i at hi hseen
  let concl : Prop := ∃ x y d, c.Av x y d ∧ c.ix x y d / B = w0 ∧ v0 (c.ix x y d) = false
  let e : Env :=
    { R := fun s w t v => (P.mem w)[t]? = some v ∧ (1 ≤ t → own w t = i → t ≤ s w)
      St := fun w t v => (P.mem w)[t]? = some v
      G := fun _ _ => True
      E := fun _ => True }
  let J : View → Prop := fun s => t0 ≤ s w0 → concl
  have hJ : ∀ s w t v, J s → s w ≤ t → e.R s w t v → J (setAt s w t) := by
    intro s w t v hJs hst ⟨hv, ho⟩ hle
    by_cases hw : w0 = w
    · subst hw
      simp only [setAt_self] at hle
      have := (List.getElem?_eq_some_iff.1 hv).1
      have : t = t0 := by omega
      subst this
      exact hJs (ho ht0 hi0)
    · rw [setAt_ne _ _ hw] at hle
      exact hJs hle
  have := hloc i hi e (fun b s => b = false → J s) (fun s w t v hv ho => ⟨hv, ho⟩) (fun w t v hv _ _ => hv) ?_
  · rw [hr i hi] at this
    exact this rfl hseen
  · have key := cspSolutionIteration_wp (e := e) (B := B) (s := fun _ => 0) hc hj hfit (job := i) (by omega)
      (J := fun _ _ s => J s) (D := J) (Q := fun b s => b = false → J s)
      (by intro h; simp at h; omega) (fun _ _ h => h)
      (by
        intro k x s' _ hx hy hJs
        refine cspProcessPixel_wp hc hx hy (fun _ _ s => J s) hJs ?_ ?_
        · intro d ch s2 _ hnode hP
          refine (Wp.keep hJ (shouldRemoveNode_noBar _) (shouldRemoveNode_wp hc hnode) hP).mono ?_
          rintro b s3 _ ⟨hb, hJ3⟩
          cases b
          · simpa using hJ3
          · simp only [if_true] at hb ⊢
            intro t v _ _
            refine ⟨trivial, fun t' _ hst hle => ?_⟩
            by_cases hw : w0 = c.ix x (i + k * jobs.toNat) d / B
            · subst hw
              simp only [setAt_self] at hle
              change (P.mem _)[t']? = _ at hst
              have := (List.getElem?_eq_some_iff.1 hst).1
              have : t' = t0 := by omega
              subst this
              rw [hv0] at hst
              simp only [Option.some.injEq] at hst
              obtain ⟨⟨s4, t4, v4, _, _, hv4, htrue⟩, _⟩ := hb
              refine ⟨x, _, d, ⟨hnode.1, hnode.2.1, hnode.2.2.1, ?_⟩, rfl, by rw [hst]; simp⟩
              exact hbel _ _ _ hv4.1 _ rfl htrue
            · rw [setAt_ne _ _ hw] at hle
              exact hJ3 hle
        · intro ch s2 _ hP
          refine (Wp.keep hJ (pixelAvailable_noBar _) (pixelAvailable_wp hc hx hy) hP).mono ?_
          rintro b s3 _ ⟨-, hJ3⟩
          cases b <;> simpa using hJ3)
      (by
        intro s' _ hD
        refine (Wp.keep hJ (checkNodesLeft_noBar) (checkNodesLeft_wp hc) hD).mono ?_
        rintro b s2 _ ⟨-, hJ2⟩
        cases b
        · simpa using hJ2
        · simp only [if_true]
          refine (makeAllNodesUnavailable_wp hc fun _ _ _ _ _ _ _ => trivial).mono ?_
          intro _ _ _ _ h
          exact absurd h (by simp))
      (fun s' _ h _ => h)
    rw [jobs_ofNat] at key
    exact key

/-- If all workers return false, there was at most one node in each pixel and something was stored in a word, then no flags of this
word are set in the end, nor were flags set in words in which nothing was stored. -/
theorem round_single (hsg : c.Single) {P : Pool Bool}
    (hs : Steps fresh (fun _ => 0) n (roundStart B jobs c) P)
    (hr : ∀ i, i < n → P.prog i = .ret false) {w0 t0 : Nat} {v0 : Flags}
    (hlen : t0 + 1 = (P.mem w0).length) (ht0 : 1 ≤ t0) (hv0 : (P.mem w0)[t0]? = some v0) :
    ∀ j, j < c.nodesAvailability.size →
      (j / B = w0 → v0 j = false) ∧ ((P.mem (j / B)).length = 1 → flagsOf c.nodesAvailability j = false) := by
  have hbel := (round_below hc hj hfit hn hs).1
  have hgr := fun w => hs.mem_grows w
  simp only [roundStart_mem] at hgr
  obtain ⟨own, hown, hloc⟩ := hs.local (Pool.start_ok _ _)
  simp only [roundStart_mem, List.length_singleton] at hown hloc
  obtain ⟨hi, hseen⟩ := hown w0 t0 ht0 (by omega)
  generalize hi0 : own w0 t0 = i at hi hseen
  let e : Env :=
    { R := fun s w t v => (P.mem w)[t]? = some v ∧ (1 ≤ t → own w t = i → t ≤ s w)
      St := fun w t v => (P.mem w)[t]? = some v
      G := fun _ _ => True
      E := fun _ => True }
  let concl : Prop := ∀ j, j < c.nodesAvailability.size →
      (j / B = w0 → v0 j = false) ∧ ((P.mem (j / B)).length = 1 → flagsOf c.nodesAvailability j = false)
  -- before the store
  let J : View → Prop := fun s => s w0 < t0
  -- after the store
  let K : View → Prop := fun s => s w0 = t0
  have hJ : ∀ s w t v, J s → s w ≤ t → e.R s w t v → J (setAt s w t) := by
    intro s w t v hJs hst ⟨hv, ho⟩
    by_cases hw : w0 = w
    · subst hw
      show setAt s w0 t w0 < t0
      simp only [setAt_self]
      have := (List.getElem?_eq_some_iff.1 hv).1
      by_cases ht : t = t0
      · subst ht
        have := ho ht0 hi0
        have : s w0 < t := hJs
        omega
      · omega
    · show setAt s w t w0 < t0
      rw [setAt_ne _ _ hw]
      exact hJs
  have hK : ∀ s w t v, K s → s w ≤ t → e.R s w t v → K (setAt s w t) := by
    intro s w t v hKs hst ⟨hv, ho⟩
    by_cases hw : w0 = w
    · subst hw
      show setAt s w0 t w0 = t0
      simp only [setAt_self]
      have := (List.getElem?_eq_some_iff.1 hv).1
      have : s w0 = t0 := hKs
      omega
    · show setAt s w t w0 = t0
      rw [setAt_ne _ _ hw]
      exact hKs
  -- what can be read after the store
  have hrdK : ∀ {s : View} {j : Nat} {b : Bool}, K s → j / B = w0 → Rd e B s j b → v0 j = b := by
    rintro s j b hKs hjw ⟨s', t, v, hle, hst, hv, hb⟩
    have h1 : s w0 = t0 := hKs
    have h2 := hle w0
    have h3 := hv.1
    rw [hjw] at h3 hst
    have := (List.getElem?_eq_some_iff.1 h3).1
    have : t = t0 := by omega
    subst this
    rw [hv0] at h3
    simp only [Option.some.injEq] at h3
    rw [h3]; exact hb
  have hrdA : ∀ {s : View} {j : Nat}, Rd e B s j true → flagsOf c.nodesAvailability j = true := by
    rintro s j ⟨s', t, v, _, _, hv, hb⟩
    exact hbel _ _ _ hv.1 _ rfl hb
  have := hloc i hi e (fun b s => b = false → J s ∨ concl) (fun s w t v hv ho => ⟨hv, ho⟩)
    (fun w t v hv _ _ => hv) ?_
  · rw [hr i hi] at this
    rcases this rfl with h | h
    · have : P.seen i w0 < t0 := h
      omega
    · exact h
  · have key := cspSolutionIteration_wp (e := e) (B := B) (s := fun _ => 0) hc hj hfit (job := i) (by omega)
      (J := fun _ _ s => J s) (D := fun s => J s ∨ K s) (Q := fun b s => b = false → J s ∨ concl)
      (by show 0 < t0; omega) (fun _ _ h => h)
      (by
        intro k x s' _ hx hy hJs
        refine cspProcessPixel_wp hc hx hy
          (fun d _ s => J s ∨ (K s ∧ ∃ d0, d0 < d ∧ c.Av x (i + k * jobs.toNat) d0 ∧
            c.ix x (i + k * jobs.toNat) d0 / B = w0 ∧ v0 (c.ix x (i + k * jobs.toNat) d0) = false)) (.inl hJs) ?_ ?_
        · intro d ch s2 _ hnode hP
          rcases hP with hJ2 | ⟨hK2, d0, hd0, hav0, hw0, hf0⟩
          · refine (Wp.keep hJ (shouldRemoveNode_noBar _) (shouldRemoveNode_wp hc hnode) hJ2).mono ?_
            rintro b s3 _ ⟨hb, hJ3⟩
            cases b
            · simpa using .inl hJ3
            · simp only [if_true] at hb ⊢
              intro t v _ _
              refine ⟨trivial, fun t' _ hst => ?_⟩
              by_cases hw : w0 = c.ix x (i + k * jobs.toNat) d / B
              · change (P.mem _)[t']? = _ at hst
                rw [← hw] at hst ⊢
                have := (List.getElem?_eq_some_iff.1 hst).1
                by_cases ht : t' = t0
                · subst ht
                  rw [hv0] at hst
                  simp only [Option.some.injEq] at hst
                  refine .inr ⟨setAt_self _ _ _, d, by omega,
                    ⟨hnode.1, hnode.2.1, hnode.2.2.1, hrdA hb.1⟩, hw.symm, by rw [hst]; simp⟩
                · refine .inl ?_
                  show setAt s3 w0 t' w0 < t0
                  simp only [setAt_self]
                  omega
              · refine .inl ?_
                show setAt s3 _ t' w0 < t0
                rw [setAt_ne _ _ hw]
                exact hJ3
          · refine (Wp.keep hK (shouldRemoveNode_noBar _) (shouldRemoveNode_wp hc hnode) hK2).mono ?_
            rintro b s3 _ ⟨hb, hK3⟩
            cases b
            · simp only [Bool.false_eq_true, if_false]
              exact .inr ⟨hK3, d0, by omega, hav0, hw0, hf0⟩
            · simp only [if_true] at hb ⊢
              exfalso
              have : c.Av x (i + k * jobs.toNat) d := ⟨hnode.1, hnode.2.1, hnode.2.2.1, hrdA hb.1⟩
              have := hsg _ _ _ _ this hav0
              omega
        · intro ch s2 _ hP
          rcases hP with hJ2 | ⟨hK2, d0, hd0, hav0, hw0, hf0⟩
          · refine (Wp.keep hJ (pixelAvailable_noBar _) (pixelAvailable_wp hc hx hy) hJ2).mono ?_
            rintro b s3 _ ⟨-, hJ3⟩
            cases b
            · simpa using .inl hJ3
            · simpa using hJ3
          · refine (Wp.keep hK (pixelAvailable_noBar _) (pixelAvailable_wp hc hx hy) hK2).mono ?_
            rintro b s3 _ ⟨hb, hK3⟩
            cases b
            · simpa using .inr hK3
            · simp only [if_true] at hb ⊢
              exfalso
              obtain ⟨d, hnode, hrd⟩ := hb
              have : c.Av x (i + k * jobs.toNat) d := ⟨hnode.1, hnode.2.1, hnode.2.2.1, hrdA hrd⟩
              have := hsg _ _ _ _ this hav0
              subst this
              have := hrdK hK2 hw0 hrd
              rw [hf0] at this
              exact absurd this (by simp))
      (by
        intro s' _ hD
        rcases hD with hD | hD
        · refine (Wp.keep hJ (checkNodesLeft_noBar) (checkNodesLeft_wp hc) hD).mono ?_
          rintro b s2 _ ⟨-, hJ2⟩
          cases b
          · simp only [Bool.false_eq_true, if_false]
            exact fun _ => .inl hJ2
          · simp only [if_true]
            refine (makeAllNodesUnavailable_wp hc fun _ _ _ _ _ _ _ => trivial).mono ?_
            intro _ _ _ _ h
            exact absurd h (by simp)
        · refine (checkNodesLeft_wp hc).mono ?_
          intro b s2 _ hb
          cases b
          · simp only [Bool.false_eq_true, if_false] at hb ⊢
            refine fun _ => .inr fun j hj => ⟨fun hw => hrdK hD hw (hb j hj), fun hl => ?_⟩
            obtain ⟨s3, t, v, _, _, hv, hf⟩ := hb j hj
            have hm : P.mem (j / B) = [flagsOf c.nodesAvailability] := by
              obtain ⟨l, hl'⟩ := hgr (j / B)
              rw [hl'] at hl
              simp at hl
              rw [hl', hl]; rfl
            have hv' := hv.1
            rw [hm, List.getElem?_singleton] at hv'
            split at hv'
            · simp at hv'; rw [hv']; exact hf
            · simp at hv'
          · simp only [if_true]
            refine (makeAllNodesUnavailable_wp hc fun _ _ _ _ _ _ _ => trivial).mono ?_
            intro _ _ _ _ h
            exact absurd h (by simp))
      (fun s' _ h _ => .inl h)
    rw [jobs_ofNat] at key
    exact key

end

/-- A round that reports no change and leaves a graph with a node in each pixel as it was: the graph is arc consistent. -/
theorem RoundTo.stable (h : RoundTo B n jobs c c' false) (hc : c.Valid) (hp : c.Proper) (hj : 0 < jobs.toNat)
    (hfit : c.h + jobs.toNat ≤ 18446744073709551616) (hn : n ≤ 18446744073709551616) (hcov : jobs.toNat ≤ n)
    (hsame : Sub c.Av c'.Av) :
    (AllAlive c.w c.h c.Av ∧ ArcConsistent c.w c.h c.E c.Av) ∨ ∀ x y d, ¬ c.Av x y d := by
  obtain ⟨P, r, hs, hr, hch, rfl⟩ := h
  have hr' : ∀ i, i < n → P.prog i = .ret false := by
    intro i hi
    cases hri : r i with
    | false => rw [hr i hi, hri]
    | true => exact absurd (hch.2 ⟨i, hi, hri⟩) (by simp)
  refine round_noStores hc hj hfit hn hp hs hcov hr' ?_
  intro i hi
  obtain ⟨t, v, hv, hlen, hcur⟩ := current_get (B := B) hs (i / B)
  by_cases ht : 1 ≤ t
  · exfalso
    obtain ⟨x, y, d, hav, hw, hf⟩ := round_stored hc hj hfit hn hs hr' hlen ht hv
    have := hsame x y d hav
    rw [withFlags_av hc, hcur _ hw, hf] at this
    exact absurd this.2.2.2 (by simp)
  · omega

/-- A round that reports no change on a graph with at most one node in each pixel: either nothing is left, or nothing was removed,
each pixel has its node and these are a consistent labeling. -/
theorem RoundTo.single (h : RoundTo B n jobs c c' false) (hc : c.Valid) (hp : c.Proper) (hsg : c.Single)
    (hj : 0 < jobs.toNat)
    (hfit : c.h + jobs.toNat ≤ 18446744073709551616) (hn : n ≤ 18446744073709551616) (hcov : jobs.toNat ≤ n) :
    (∀ x y d, ¬ c'.Av x y d) ∨
    (c'.Av = c.Av ∧ AllAlive c.w c.h c.Av ∧ ArcConsistent c.w c.h c.E c.Av) := by
  have hsub := (h.basic hc hj hfit hn).2.2
  have hst := fun hh => h.stable hc hp hj hfit hn hcov hh
  obtain ⟨P, r, hs, hr, hch, rfl⟩ := h
  have hr' : ∀ i, i < n → P.prog i = .ret false := by
    intro i hi
    cases hri : r i with
    | false => rw [hr i hi, hri]
    | true => exact absurd (hch.2 ⟨i, hi, hri⟩) (by simp)
  by_cases hex : ∃ i, i < c.nodesAvailability.size ∧ (P.mem (i / B)).length ≠ 1
  · obtain ⟨i, hi, hne⟩ := hex
    refine .inl ?_
    obtain ⟨t, v, hv, hlen, hcur⟩ := current_get (B := B) hs (i / B)
    have hall := round_single hc hj hfit hn hsg hs hr' hlen (by omega) hv
    intro x y d hav
    have hsz := (hc.nidx_lt' hav.1 hav.2.1 hav.2.2.1).1
    rw [withFlags_av hc] at hav
    by_cases h1 : (P.mem (c.ix x y d / B)).length = 1
    · have := (hall _ hsz).2 h1
      obtain ⟨t', v', hv', hlen', hcur'⟩ := current_get (B := B) hs (c.ix x y d / B)
      have hbel := (round_below hc hj hfit hn hs).1 _ _ _ hv' _ rfl
      rw [hcur' _ rfl] at hav
      have h2 := hbel hav.2.2.2
      change flagsOf _ (c.ix x y d) = false at this
      rw [this] at h2
      exact absurd h2 (by simp)
    · obtain ⟨t', v', hv', hlen', hcur'⟩ := current_get (B := B) hs (c.ix x y d / B)
      have := (round_single hc hj hfit hn hsg hs hr' hlen' (by omega) hv' _ hsz).1 rfl
      rw [hcur' _ rfl] at hav
      change v' (c.ix x y d) = false at this
      rw [this] at hav
      exact absurd hav.2.2.2 (by simp)
  · have hsup : Sub c.Av (c.withFlags (current B P.mem)).Av := by
      intro x y d hav
      have hsz := (hc.nidx_lt' hav.1 hav.2.1 hav.2.2.1).1
      rw [withFlags_av hc]
      refine ⟨hav.1, hav.2.1, hav.2.2.1, ?_⟩
      have hl : (P.mem (c.ix x y d / B)).length = 1 :=
        Classical.byContradiction fun h => hex ⟨_, hsz, h⟩
      obtain ⟨l, hl'⟩ := hs.mem_grows (c.ix x y d / B)
      rw [roundStart_mem] at hl'
      rw [hl'] at hl
      simp at hl
      subst hl
      unfold current
      rw [hl']
      exact hav.2.2.2
    have heq : (c.withFlags (current B P.mem)).Av = c.Av := Sub.antisymm hsub hsup
    rcases hst hsup with h | h
    · exact .inr ⟨heq, h⟩
    · refine .inl ?_
      rw [heq]
      exact h

end SP
