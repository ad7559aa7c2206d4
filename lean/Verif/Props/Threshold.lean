import Verif.Model.Pipeline
import Verif.Lemmas.Pipeline
import Verif.Props.Closure
/-!
# Properties C34–C39: thresholds
-/
namespace SP
open FloatOps ConstraintGraph

section Fetch
variable {F : Type} [FloatOps F] [LawfulFloat F] {g : DisparityGraph F} {p : LowestPenalties F}

/-- **C34**. `fetch_pixel_available_penalties` returns, in strictly ascending order, exactly the differences between penalties of
existing nodes of the pixel and the given value. -/
theorem C34_fetch_pixel (hg : g.Valid) {x y : Nat} (hx : x < g.w) (hy : y < g.h) (m : F) :
    Ok (fetchPixelAvailablePenalties g (mkPixel x y) m) fun l =>
      Ascending l ∧ ∀ a, a ∈ l ↔ ∃ d, g.IsNode x y d ∧ a = sub (g.nodeQ x y d) m := by
  refine ⟨_, fetchPixelAvailablePenalties_mk hg hx hy m, uniqueF_ascending (sortF_sorted _), fun a => ?_⟩
  rw [mem_uniqueF, mem_sortF, mem_pixelDiffs hx hy]

/-- **C35**, what holds. Full statement: `fetch_edge_available_penalties` returns, in strictly ascending order, exactly the
differences between penalties of existing edges of the neighborhood and the given value. It is false for the left neighbor
(`C35_left_neighborhood_refuted`); this is the statement for the other three. -/
theorem C35_fetch_edge_partial (hg : g.Valid) {x y k : Nat} (hk : HasNb g.w g.h x y k) (hk1 : k ≠ 1) (m : F)
    (a b : UInt64) :
    Ok (fetchEdgeAvailablePenalties g ⟨⟨mkPixel x y, a⟩, ⟨mkPixel (nbx x k) (nby y k), b⟩⟩ m) fun l =>
      Ascending l ∧ ∀ a, a ∈ l ↔ ∃ d d', g.IsEdge x y k d d' ∧ a = sub (g.edgeQ x y k d d') m := by
  refine ⟨_, fetchEdgeAvailablePenalties_mk hg hk a b m, uniqueF_ascending (sortF_sorted _), fun a => ?_⟩
  rw [mem_uniqueF, mem_sortF, mem_edgeDiffs hk]
  have key : ∀ d d', (g.IsNode x y d ∧ g.IsNode (nbx x k) (nby y k) d' ∧ scanLo x (nbx x k) d ≤ d') ↔
      g.IsEdge x y k d d' := by
    intro d d'
    unfold DisparityGraph.IsEdge
    have : scanLo x (nbx x k) d ≤ d' ↔ OrderOK k d d' := by
      unfold OrderOK
      rcases hk.2.2 with ⟨rfl, h⟩ | ⟨rfl, h⟩ | ⟨rfl, h⟩ | ⟨rfl, h⟩
      · rw [show nbx x 0 = x + 1 from rfl, scanLo_of_ne (by omega)]
        omega
      · exact absurd rfl hk1
      · rw [show nbx x 2 = x from rfl, scanLo_self]; omega
      · rw [show nbx x 3 = x from rfl, scanLo_self]; omega
    rw [this]
    exact ⟨fun h => ⟨hk, h⟩, fun h => h.2⟩
  constructor
  · rintro ⟨d, d', h1, h2, h3, rfl⟩
    exact ⟨d, d', (key d d').1 ⟨h1, h2, h3⟩, rfl⟩
  · rintro ⟨d, d', h, rfl⟩
    obtain ⟨h1, h2, h3⟩ := (key d d').2 h
    exact ⟨d, d', h1, h2, h3, rfl⟩

/-- **C36**. `fetch_available_penalties` returns, in strictly ascending order, exactly the union of what
`fetch_pixel_available_penalties` returns for the pixels and `fetch_edge_available_penalties` returns for the existing
neighborhoods, with the stored lowest penalties; the list is not empty. -/
theorem C36_fetch_all (hp : p.Valid) :
    Ok (fetchAvailablePenalties p) fun l => Ascending l ∧ l ≠ [] ∧
      ∀ a, a ∈ l ↔ ∃ x y, x < p.graph.w ∧ y < p.graph.h ∧
        ((Ok (lowestPixelPenalty p (mkPixel x y)) fun m =>
            Ok (fetchPixelAvailablePenalties p.graph (mkPixel x y) m) fun l => a ∈ l) ∨
        ∃ k, HasNb p.graph.w p.graph.h x y k ∧
          let e : Edge := ⟨mkNode x y 0, mkNode (nbx x k) (nby y k) 0⟩
          Ok (lowestNeighborhoodPenalty p e) fun m =>
            Ok (fetchEdgeAvailablePenalties p.graph e m) fun l => a ∈ l) := by
  refine ⟨_, fetchAvailablePenalties_mk hp, fetch_ascending, fetch_ne_nil hp, fun a => ?_⟩
  rw [mem_fetch]
  refine exists_congr fun x => exists_congr fun y => and_congr_right fun hx => and_congr_right fun hy => ?_
  refine or_congr ?_ (exists_congr fun k => and_congr_right fun hk => ?_)
  · rw [lowestPixelPenalty_mk hp hx hy, Ok_ok, fetchPixelAvailablePenalties_mk hp.graph hx hy, Ok_ok, mem_uniqueF,
      mem_sortF]
  · have e := fetchEdgeAvailablePenalties_mk hp.graph hk 0 0 (p.edgeMin x y k)
    have e' : (⟨mkNode x y 0, mkNode (nbx x k) (nby y k) 0⟩ : Edge)
      = ⟨⟨mkPixel x y, 0⟩, ⟨mkPixel (nbx x k) (nby y k), 0⟩⟩ := rfl
    dsimp only
    rw [lowestNeighborhoodPenalty_mk hp hk, Ok_ok, e', e, Ok_ok, mem_uniqueF, mem_sortF]

/-- **C36** on a graph as constructed: the list contains the difference for each existing node and each existing edge
(the left neighborhoods included). -/
theorem C36_fetch_all_fresh (hg : g.Fresh) :
    Ok (do let p ← mkLowestPenalties g; fetchAvailablePenalties p) fun l =>
      (∀ x y d, g.IsNode x y d → ∃ d₀, g.IsNode x y d₀ ∧ (∀ d', g.IsNode x y d' → le (g.nodeQ x y d₀) (g.nodeQ x y d') = true) ∧
        sub (g.nodeQ x y d) (g.nodeQ x y d₀) ∈ l) ∧
      ∀ x y k d d', g.IsEdge x y k d d' → g.edgeQ x y k d d' ∈ l := by
  refine Ok.bind (tables_mk hg) fun p hp => ?_
  refine ⟨_, fetchAvailablePenalties_mk hp.valid, fun x y d hn => ?_, fun x y k d d' he => edge_candidate hg hp he⟩
  obtain ⟨d₀, h0, he⟩ := lowPixel_attained hg.toValid hn.1 hn.2.1
  refine ⟨d₀, h0, fun d' hd' => ?_, ?_⟩
  · rw [← he]; exact lowPixel_le hd'
  · rw [← he]; exact pixel_candidate hp hn

end Fetch

example : (do let p ← mkLowestPenalties smallGraph; fetchAvailablePenalties p) = .ok [0, 1, 2] := by decide +kernel

/-- **C35** is false for the left neighbor: images 4 × 1 with four levels; between the pixel `2` and its left neighbor the
differences of existing edges are `0` and `1`, and `4` is also returned. -/
theorem C35_left_neighborhood_refuted :
    let g : DisparityGraph Int := freshGraph (img 4 1 1 [0, 0, 0, 0]) (img 4 1 1 [0, 0, 0, 0]) 4 1 1
    g.Valid ∧ HasNb g.w g.h 2 0 1 ∧
    (Ok (fetchEdgeAvailablePenalties g ⟨mkNode 2 0 0, mkNode 1 0 0⟩ (0 : Int)) fun l => (4 : Int) ∈ l) ∧
    ¬ ∃ d d', g.IsEdge 2 0 1 d d' ∧ (4 : Int) = sub (g.edgeQ 2 0 1 d d') 0 := by
  intro g
  have hg : g.Fresh := by
    refine freshGraph_fresh ⟨rfl, by decide⟩ ⟨rfl, by decide⟩ (accepted_of ?_ ?_ ?_ ?_ ?_ ?_ ?_ rfl rfl rfl ?_ ?_ ?_)
      ?_ <;> decide
  refine ⟨hg.toValid, by decide, ?_, ?_⟩
  · refine ⟨[0, 1, 4], by decide +kernel, by decide⟩
  · rintro ⟨d, d', he, h⟩
    rw [edgeQ_fresh hg.phi_zero] at h
    have h1 : d < 2 := by have h0 : 2 + d < 4 := he.2.1.2.2.2; omega
    have h2 : d' < 3 := by have h0 : 1 + d' < 4 := he.2.2.1.2.2.2; omega
    have h3 : d' ≤ d + 1 := he.2.2.2.2 rfl
    have : ∀ (d : Fin 2) (d' : Fin 3), d'.1 ≤ d.1 + 1 →
        (4 : Int) ≠ sub (mul g.smoothness (sqr (sub (ofNat d.1) (ofNat d'.1)))) 0 := by decide +kernel
    exact this ⟨d, h1⟩ ⟨d', h2⟩ h3 h

/-! ## C37: the bisection -/
section Search
variable {F : Type} [FloatOps F] {g : DisparityGraph F} {p : LowestPenalties F}

/-- What `solve_csp` says about the graph built for a threshold. -/
def SolvedAt (jobs : UInt64) (g : DisparityGraph F) (p : LowestPenalties F) (t : F) (b : Bool) : Prop :=
  Ok (do let c ← mkConstraintGraph g p t; solveCsp jobs c) fun r => r.2 = b

theorem solvedAt_total (hp : p.Valid) (hpg : p.graph = g) {jobs : Nat} (hj : 0 < jobs)
    (hfit : g.h + jobs ≤ 18446744073709551616) (t : F) :
    Ok (do let c ← mkConstraintGraph g p t; solveCsp (UInt64.ofNat jobs) c) fun _ => True := by
  refine Ok.bind (mkConstraintGraph_mk hp hpg t) ?_
  rintro c ⟨h1, h2, h3, h4, h5⟩
  subst h1
  exact (solveCsp_mk h4 (mkConstraintGraph_proper rfl h5) hj hfit).mono fun _ _ => trivial

theorem solvedAt_unique {jobs : UInt64} {t : F} {b b' : Bool} (h : SolvedAt jobs g p t b) (h' : SolvedAt jobs g p t b') :
    b = b' := by
  obtain ⟨r, hr, rfl⟩ := h
  obtain ⟨r', hr', rfl⟩ := h'
  rw [hr] at hr'
  cases hr'
  rfl

theorem solvedAt_solvable (hp : p.Valid) (hpg : p.graph = g) {jobs : Nat} (hj : 0 < jobs)
    (hfit : g.h + jobs ≤ 18446744073709551616) (t : F) :
    SolvedAt (UInt64.ofNat jobs) g p t (solvable (UInt64.ofNat jobs) p g t) := by
  obtain ⟨r, hr, -⟩ := solvedAt_total hp hpg hj hfit t
  refine ⟨r, hr, ?_⟩
  unfold solvable
  rw [hr]

theorem solvedAt_mono [LawfulFloat F] (hp : p.Valid) (hpg : p.graph = g) {jobs : Nat} (hj : 0 < jobs)
    (hfit : g.h + jobs ≤ 18446744073709551616) {t₁ t₂ : F} (ht : le t₁ t₂ = true)
    (h : SolvedAt (UInt64.ofNat jobs) g p t₁ true) : SolvedAt (UInt64.ofNat jobs) g p t₂ true := by
  obtain ⟨r₁, hr₁, r₂, hr₂, -, h2⟩ := C19_solution_monotone hp hpg ht hj hfit
  obtain ⟨r, hr, hb⟩ := h
  rw [hr₁] at hr
  cases hr
  exact ⟨r₂, hr₂, h2 hb⟩

/-- **C37**. For a strictly ascending non-empty list of candidates of which the last is reported solvable,
`calculate_minimal_consistent_threshold` returns a candidate reported solvable such that all smaller candidates are reported
unsolvable. It calls `solve_csp` at most `c` times whenever there are at most `2 ^ c` candidates. -/
theorem C37_bisection [LawfulFloat F] (hp : p.Valid) (hpg : p.graph = g) {jobs : Nat} (hj : 0 < jobs)
    (hfit : g.h + jobs ≤ 18446744073709551616) {l : List F} (hl : l ≠ []) (hasc : Ascending l)
    (hsize : l.length ≤ 9223372036854775808)
    (hlast : SolvedAt (UInt64.ofNat jobs) g p (l.getLast hl) true) :
    Ok (calculateMinimalConsistentThreshold (UInt64.ofNat jobs) p g l.toArray) fun r =>
      r.1 ∈ l ∧ SolvedAt (UInt64.ofNat jobs) g p r.1 true ∧
      (∀ t ∈ l, lt t r.1 = true → SolvedAt (UInt64.ofNat jobs) g p t false) ∧
      ∀ c, l.length ≤ 2 ^ c → r.2 ≤ c := by
  have hpos : 0 < l.length := List.length_pos_of_ne_nil hl
  have hs := fun t => solvedAt_solvable hp hpg hj hfit t
  refine (calculateMinimalConsistentThreshold_mk (jobs := UInt64.ofNat jobs) (p := p) (g := g) (arr := l.toArray)
    (sol := fun i => solvable (UInt64.ofNat jobs) p g (l.getD i zero)) ?_ (by simpa using hpos)
    (by simpa using hsize)).mono ?_
  · intro i hi
    have hi' : i < l.length := by simpa using hi
    have : l.toArray[i] = l.getD i zero := by simp [List.getD, hi']
    rw [this]
    exact hs _
  · rintro ⟨t, calls⟩ ⟨k, hk, h1, h2, h3, h4⟩
    have hk' : k < l.length := by simpa using hk
    simp only at h1 h4
    have e1 : l.toArray[k] = l[k] := by simp
    rw [e1] at h1
    subst h1
    have hsolk : SolvedAt (UInt64.ofNat jobs) g p l[k] true := by
      rcases h2 with h2 | h2
      · have : l.getLast hl = l[k] := by
          rw [List.getLast_eq_getElem]
          congr 1
          have : l.toArray.size = l.length := by simp
          omega
        rw [← this]
        exact hlast
      · have e : l.getD k zero = l[k] := by simp [List.getD, hk']
        rw [e] at h2
        have := hs l[k]
        rwa [h2] at this
    refine ⟨List.getElem_mem _, hsolk, ?_, fun c hc => h4 c (by simpa using hc)⟩
    intro t ht hlt
    obtain ⟨j, hj', rfl⟩ := List.getElem_of_mem ht
    have hjk : j < k := by
      by_contra hge
      have hle : le l[k] l[j] = true := by
        rcases Nat.lt_or_eq_of_le (Nat.le_of_not_lt hge) with h | h
        · exact LawfulFloat.lt_le (List.pairwise_iff_getElem.1 hasc k j hk' hj' h)
        · subst h; exact LawfulFloat.le_refl _
      rw [LawfulFloat.lt_iff, hle] at hlt
      exact Bool.noConfusion hlt
    have hprev : SolvedAt (UInt64.ofNat jobs) g p l[k - 1] false := by
      rcases h3 with h3 | h3
      · omega
      · have e : l.getD (k - 1) zero = l[k - 1] := by simp [List.getD, show k - 1 < l.length by omega]
        rw [e] at h3
        have := hs l[k - 1]
        rwa [h3] at this
    have hle : le l[j] l[k - 1] = true := by
      rcases Nat.lt_or_eq_of_le (show j ≤ k - 1 by omega) with h | h
      · exact LawfulFloat.lt_le (List.pairwise_iff_getElem.1 hasc j (k - 1) hj' (by omega) h)
      · subst h; exact LawfulFloat.le_refl _
    have := hs l[j]
    cases hb : solvable (UInt64.ofNat jobs) p g l[j]
    · rwa [hb] at this
    · rw [hb] at this
      have := solvedAt_mono hp hpg hj hfit hle this
      exact absurd (solvedAt_unique this hprev) (by simp)

end Search

/-- Non-vacuity: three candidates, the last one is solvable, the middle one is found by two calls. -/
example : (do
    let p ← mkLowestPenalties smallGraph
    calculateMinimalConsistentThreshold 1 p smallGraph #[0, 1, 2]) = .ok (1, 2) := by decide +kernel

/-- An empty list of candidates is undefined behaviour of the code: it reads far outside of the array. -/
example : (do
    let p ← mkLowestPenalties smallGraph
    calculateMinimalConsistentThreshold 1 p smallGraph #[]) = .error .ub := by decide +kernel

/-! ## C38, C39: the found threshold -/
section Found
variable {F : Type} [FloatOps F] [LawfulFloat F] {g : DisparityGraph F} {p : LowestPenalties F}

/-- If there is a feasible labeling then `solve_csp` says "solvable". -/
theorem solvedAt_of_feasible (hg : g.Fresh) (hp : Tables g p) {jobs : Nat} (hj : 0 < jobs)
    (hfit : g.h + jobs ≤ 18446744073709551616) {t : F} {L : Nat → Nat → Nat} (hL : g.FeasibleAt t L) :
    SolvedAt (UInt64.ofNat jobs) g p t true := by
  refine Ok.bind (start_mk hg hp t) ?_
  rintro c ⟨h1, h2, h3, h4, h5, -, h6⟩
  have hL' := (feasible_iff_consistent hg h3 h4 h5 h6).2 hL
  refine (C28_unsolvable_correct h1 h2 hj (by unfold ConstraintGraph.h; rw [h4]; exact hfit)).mono ?_
  intro r hr
  cases hb : r.2
  · exact absurd ⟨L, hL'⟩ (hr hb).1
  · rfl

omit [LawfulFloat F] in
theorem ascending_last [LawfulFloat F] {l : List F} (h : Ascending l) (hl : l ≠ []) {a : F} (ha : a ∈ l) :
    le a (l.getLast hl) = true := by
  obtain ⟨i, hi, rfl⟩ := List.getElem_of_mem ha
  rw [List.getLast_eq_getElem]
  rcases Nat.lt_or_eq_of_le (show i ≤ l.length - 1 by omega) with h' | h'
  · exact LawfulFloat.lt_le (List.pairwise_iff_getElem.1 h i (l.length - 1) hi (by omega) h')
  · simp only [← h']; exact LawfulFloat.le_refl _

theorem last_solvable (hg : g.Fresh) (hp : Tables g p) {jobs : Nat} (hj : 0 < jobs)
    (hfit : g.h + jobs ≤ 18446744073709551616) :
    SolvedAt (UInt64.ofNat jobs) g p (p.fetch.getLast (fetch_ne_nil hp.valid)) true := by
  refine solvedAt_of_feasible hg hp hj hfit (feasible_zero hg (fun x y hx hy => ?_) ?_)
  · exact ascending_last fetch_ascending _ (pixel_candidate hp ⟨hx, hy, hg.levels_pos, hx⟩)
  · exact ascending_last fetch_ascending _ (zero_candidate hg hp)

/-- The found threshold: reported solvable, and smaller candidates are not. -/
theorem minimalThreshold_mk (hg : g.Fresh) {jobs : Nat} (hj : 0 < jobs) (hfit : g.h + jobs ≤ 18446744073709551616) :
    Ok (minimalThreshold (UInt64.ofNat jobs) g) fun r => Tables g r.1 ∧ r.2 ∈ r.1.fetch ∧
      SolvedAt (UInt64.ofNat jobs) g r.1 r.2 true ∧
      ∀ t ∈ r.1.fetch, lt t r.2 = true → SolvedAt (UInt64.ofNat jobs) g r.1 t false := by
  unfold minimalThreshold
  refine Ok.bind (tables_mk hg) fun p hp => ?_
  rw [fetchAvailablePenalties_mk hp.valid, bind_ok]
  refine Ok.bind (C37_bisection hp.valid hp.graph hj hfit (fetch_ne_nil hp.valid) fetch_ascending (fetch_length hg hp)
    (last_solvable hg hp hj hfit)) ?_
  rintro ⟨t, calls⟩ ⟨h1, h2, h3, -⟩
  exact Ok.pure ⟨hp, h1, h2, h3⟩

/-- **C38**. For each graph as constructed from accepted images the constraint graph built for the found threshold is reported
solvable: the error "Cannot solve CSP problem" never happens. -/
theorem C38_found_threshold_solvable (hg : g.Fresh) {jobs : Nat} (hj : 0 < jobs)
    (hfit : g.h + jobs ≤ 18446744073709551616) :
    (Ok (minimalThreshold (UInt64.ofNat jobs) g) fun r => SolvedAt (UInt64.ofNat jobs) g r.1 r.2 true) ∧
    Ok (solvedGraph (UInt64.ofNat jobs) g) fun _ => True := by
  have h := minimalThreshold_mk hg hj hfit
  refine ⟨h.mono fun r hr => hr.2.2.1, ?_⟩
  unfold solvedGraph
  refine Ok.bind h ?_
  rintro ⟨p, t⟩ ⟨-, -, ⟨r, hr, hb⟩, -⟩
  dsimp only at hr ⊢
  cases hc : mkConstraintGraph g p t with
  | error e => rw [hc] at hr; simp at hr
  | ok c =>
    rw [hc, bind_ok] at hr
    rw [bind_ok, hr, bind_ok]
    simp only [hb]
    exact Ok.pure trivial

/-- A threshold may be replaced by the largest candidate not above it. -/
theorem feasible_candidate (hg : g.Fresh) (hp : Tables g p) {t : F} {L : Nat → Nat → Nat} (hL : g.FeasibleAt t L) :
    ∃ a ∈ p.fetch, le a t = true ∧ g.FeasibleAt a L := by
  -- the largest of the differences of chosen nodes and edges
  have hmax : ∀ l : List F, l ≠ [] → ∃ m ∈ l, ∀ a ∈ l, le a m = true := by
    intro l hl
    induction l with
    | nil => exact absurd rfl hl
    | cons a l ih =>
      by_cases hn : l = []
      · subst hn
        exact ⟨a, by simp, fun b hb => by simp at hb; subst hb; exact LawfulFloat.le_refl _⟩
      · obtain ⟨m, hm, hma⟩ := ih hn
        rcases LawfulFloat.le_total a m with h | h
        · refine ⟨m, by simp [hm], fun b hb => ?_⟩
          rcases List.mem_cons.1 hb with rfl | hb
          · exact h
          · exact hma b hb
        · refine ⟨a, by simp, fun b hb => ?_⟩
          rcases List.mem_cons.1 hb with rfl | hb
          · exact LawfulFloat.le_refl _
          · exact LawfulFloat.le_trans _ _ _ (hma b hb) h
  classical
  let l := p.fetch.filter fun a => le a t
  have hmem : ∀ a, a ∈ l ↔ a ∈ p.fetch ∧ le a t = true := fun a => List.mem_filter
  have hnode : ∀ x y, x < g.w → y < g.h → sub (g.nodeQ x y (L x y)) (g.lowPixel x y) ∈ l := by
    intro x y hx hy
    obtain ⟨h1, h2, -⟩ := hL x y hx hy
    refine (hmem _).2 ⟨pixel_candidate hp h1, ?_⟩
    obtain ⟨d, hd, he⟩ := lowPixel_attained hg.toValid hx hy
    rw [he]
    exact h2 d hd
  obtain ⟨m, hm, hmax⟩ := hmax l (List.ne_nil_of_mem (hnode 0 0 hg.width_pos hg.height_pos))
  rw [hmem] at hm
  refine ⟨m, hm.1, hm.2, fun x y hx hy => ?_⟩
  obtain ⟨h1, h2, h3⟩ := hL x y hx hy
  refine ⟨h1, fun d hd => ?_, fun k hk => ⟨(h3 k hk).1, fun d d' hd => ?_⟩⟩
  · exact LawfulFloat.le_trans _ _ _ (LawfulFloat.sub_anti _ _ _ (lowPixel_le hd)) (hmax _ (hnode x y hx hy))
  · obtain ⟨h4, h5⟩ := h3 k hk
    have h6 := h5 0 0 (isEdge_zero hg.toValid hk)
    rw [edgeQ_eq hg x y k 0, LawfulFloat.sub_zero] at h6
    have h7 := hmax _ ((hmem _).2 ⟨edge_candidate hg hp h4, h6⟩)
    have h8 := LawfulFloat.sub_anti _ _ (g.edgeQ x y k (L x y) (L (nbx x k) (nby y k))) (edgeQ_nonneg hg x y k d d')
    rw [LawfulFloat.sub_zero] at h8
    exact LawfulFloat.le_trans _ _ _ h8 h7

/-- **C39**, what holds. Full statement: the found threshold is the least one at which a consistent labeling exists. It is false
(`C39_minimal_threshold_refuted`): there may be no labeling at the found threshold. What holds: at no smaller threshold, candidate
or not, there is a labeling. -/
theorem C39_minimal_threshold_partial (hg : g.Fresh) {jobs : Nat} (hj : 0 < jobs)
    (hfit : g.h + jobs ≤ 18446744073709551616) :
    Ok (minimalThreshold (UInt64.ofNat jobs) g) fun r =>
      ∀ t, lt t r.2 = true → ¬ ∃ L, g.FeasibleAt t L := by
  refine (minimalThreshold_mk hg hj hfit).mono ?_
  rintro ⟨p, m⟩ ⟨hp, h1, h2, h3⟩ t ht ⟨L, hL⟩
  obtain ⟨a, ha, hat, hLa⟩ := feasible_candidate hg hp hL
  have h4 := solvedAt_of_feasible hg hp hj hfit hLa
  have h5 := h3 a ha (LawfulFloat.lt_of_le_of_lt hat ht)
  exact absurd (solvedAt_unique h4 h5) (by simp)

end Found

/-- **C39** is false: for accepted images the threshold `2` is found although no labeling is feasible at it. -/
theorem C39_minimal_threshold_refuted :
    hardGraph.Fresh ∧ (Ok (minimalThreshold 1 hardGraph) fun r => r.2 = 2) ∧ ¬ ∃ L, hardGraph.FeasibleAt (2 : Int) L := by
  refine ⟨hardGraph_fresh, ?_, ?_⟩
  · have h : (minimalThreshold 1 hardGraph).toOption.map (·.2) = some 2 := by decide +kernel
    cases hr : minimalThreshold 1 hardGraph with
    | error e => rw [hr] at h; simp [Except.toOption] at h
    | ok r => rw [hr] at h; exact Ok.pure (by simpa [Except.toOption] using h)
  · rintro ⟨L, hL⟩
    obtain ⟨-, -, h3, h4, h5, h6⟩ := (pipeline_start hardGraph_fresh 2).okD (noGraph hardGraph)
    exact hardStart_no_labeling ⟨L, (feasible_iff_consistent hardGraph_fresh h3 h4 h5 h6).2 hL⟩

/-- Non-vacuity: the found threshold for `smallGraph`. -/
example : (minimalThreshold 1 smallGraph).toOption.map (·.2) = some 1 := by decide +kernel

end SP
