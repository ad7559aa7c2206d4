import Verif.Spec.Labeling
import Verif.Lemmas.MinClosed
import Verif.Lemmas.Search
import Mathlib.Data.List.Nodup
import Mathlib.Data.List.Perm.Subperm
/-!
# The pipeline on fresh graphs
-/
set_option linter.unusedSectionVars false

namespace SP
open FloatOps
variable {F : Type} [FloatOps F] [LawfulFloat F] {g : DisparityGraph F} {p : LowestPenalties F} {c : ConstraintGraph F}

/-- The constraints of a graph say the same as the definition of feasibility: nodes. -/
theorem node_iff (hg : g.Fresh) {t : F} {x y d : Nat} (hn : g.IsNode x y d) :
    (le (sub (g.nodeQ x y d) (g.lowPixel x y)) t = true) ↔
      ∀ d', g.IsNode x y d' → le (sub (g.nodeQ x y d) (g.nodeQ x y d')) t = true := by
  constructor
  · intro h d hd
    exact LawfulFloat.le_trans _ _ _ (LawfulFloat.sub_anti _ _ _ (lowPixel_le hd)) h
  · intro h
    obtain ⟨d, hd, he⟩ := lowPixel_attained hg.toValid hn.1 hn.2.1
    rw [he]
    exact h d hd

/-- The constraints of a graph say the same as the definition of feasibility: edges. -/
theorem edge_iff (hg : g.Fresh) {t : F} (hc : c.Plain) (hcg : c.disparityGraph = g) (ht : c.threshold = t) {x y k d d' : Nat}
    (hk : HasNb g.w g.h x y k) :
    c.E x y k d d' ↔ g.IsEdge x y k d d' ∧
      ∀ e e', g.IsEdge x y k e e' → le (sub (g.edgeQ x y k d d') (g.edgeQ x y k e e')) t = true := by
  have ew : c.w = g.w := by unfold ConstraintGraph.w; rw [hcg]
  have eh : c.h = g.h := by unfold ConstraintGraph.h; rw [hcg]
  have hk' : HasNb c.w c.h x y k := by rw [ew, eh]; exact hk
  unfold ConstraintGraph.E
  rw [hc.edgeMin x y k hk', hcg, ht]
  refine and_congr_right fun he => ?_
  constructor
  · intro h d d' hd
    exact LawfulFloat.le_trans _ _ _ (LawfulFloat.sub_anti _ _ _ (edgeQ_nonneg hg _ _ _ _ _)) h
  · intro h
    have h0 : g.IsEdge x y k 0 0 :=
      ⟨hk, ⟨hk.1, hk.2.1, hg.levels_pos, hk.1⟩, ⟨hk.nbx_lt, hk.nby_lt, hg.levels_pos, hk.nbx_lt⟩,
        by unfold OrderOK; omega⟩
    have := h 0 0 h0
    rwa [edgeQ_eq hg x y k 0] at this

theorem feasible_iff_consistent (hg : g.Fresh) {t : F} (hc : c.Plain) (hcg : c.disparityGraph = g)
    (ht : c.threshold = t)
    (hav : ∀ x y d, c.Av x y d ↔ g.IsNode x y d ∧ le (sub (g.nodeQ x y d) (g.lowPixel x y)) t = true)
    {L : Nat → Nat → Nat} : Consistent c.w c.h c.E c.Av L ↔ g.FeasibleAt t L := by
  have ew : c.w = g.w := by unfold ConstraintGraph.w; rw [hcg]
  have eh : c.h = g.h := by unfold ConstraintGraph.h; rw [hcg]
  unfold Consistent DisparityGraph.FeasibleAt
  rw [ew, eh]
  refine forall_congr' fun x => forall_congr' fun y => forall_congr' fun hx => forall_congr' fun hy => ?_
  rw [hav, and_assoc]
  refine and_congr_right fun hn => ?_
  rw [node_iff hg hn]
  exact and_congr_right fun _ => forall_congr' fun k => forall_congr' fun hk => edge_iff hg hc hcg ht hk

theorem isEdge_zero (hg : g.Valid) {x y k : Nat} (hk : HasNb g.w g.h x y k) : g.IsEdge x y k 0 0 :=
  ⟨hk, ⟨hk.1, hk.2.1, hg.levels_pos, hk.1⟩, ⟨hk.nbx_lt, hk.nby_lt, hg.levels_pos, hk.nbx_lt⟩,
    by unfold OrderOK; omega⟩

/-- For a threshold not less than each candidate the labeling with zero disparities is feasible. -/
theorem feasible_zero (hg : g.Fresh) {t : F}
    (ht : ∀ x y, x < g.w → y < g.h → le (sub (g.nodeQ x y 0) (g.lowPixel x y)) t = true) (h0 : le zero t = true) :
    g.FeasibleAt t fun _ _ => 0 := by
  intro x y hx hy
  refine ⟨⟨hx, hy, hg.levels_pos, hx⟩, fun d hd => ?_, fun k hk => ⟨isEdge_zero hg.toValid hk, fun d d' hd => ?_⟩⟩
  · exact LawfulFloat.le_trans _ _ _ (LawfulFloat.sub_anti _ _ _ (lowPixel_le hd)) (ht x y hx hy)
  · rw [edgeQ_eq hg]
    refine LawfulFloat.le_trans _ _ _ ?_ h0
    have := LawfulFloat.sub_anti _ _ (zero : F) (edgeQ_nonneg hg x y k d d')
    rwa [LawfulFloat.sub_zero] at this

/-- What is known of the tables of a fresh graph. -/
structure Tables (g : DisparityGraph F) (p : LowestPenalties F) : Prop where
  valid : p.Valid
  graph : p.graph = g
  pixel : ∀ x y, x < g.w → y < g.h → p.pixelMin x y = g.lowPixel x y
  edge : ∀ x y k, HasNb g.w g.h x y k → p.edgeMin x y k = zero

omit [LawfulFloat F] in
theorem tables_mk [LawfulFloat F] (hg : g.Fresh) : Ok (mkLowestPenalties g) fun p => Tables g p := by
  refine (mkLowestPenalties_mk hg.toValid).mono ?_
  rintro p ⟨h1, h2, h3, h4⟩
  exact ⟨h2, h1, h3, fun x y k hk => by rw [h4 x y k hk, lowEdge_fresh hg]⟩

theorem start_mk (hg : g.Fresh) (hp : Tables g p) (t : F) :
    Ok (mkConstraintGraph g p t) fun c => c.Valid ∧ c.Proper ∧ c.Plain ∧ c.disparityGraph = g ∧
      c.threshold = t ∧ c.lowestPenalties = p ∧
      ∀ x y d, c.Av x y d ↔ g.IsNode x y d ∧ le (sub (g.nodeQ x y d) (g.lowPixel x y)) t = true := by
  refine (mkConstraintGraph_mk hp.valid hp.graph t).mono ?_
  rintro c ⟨g1, g2, g3, g4, g5⟩
  refine ⟨g4, mkConstraintGraph_proper g1 g5, ⟨by rw [g1]; exact hg, ?_⟩, g1, g3, g2, ?_⟩
  · intro x y k hk
    have hk' : HasNb g.w g.h x y k := by rw [← g1]; exact hk
    rw [g2, hp.edge x y k hk']
  · intro x y d
    rw [g5]
    unfold startNodes
    constructor
    · rintro ⟨a, b⟩
      rw [hp.pixel x y a.1 a.2.1] at b
      exact ⟨a, b⟩
    · rintro ⟨a, b⟩
      rw [← hp.pixel x y a.1 a.2.1] at b
      exact ⟨a, b⟩

/-! ## The list of candidates -/

theorem pixel_candidate (hp : Tables g p) {x y d : Nat} (hn : g.IsNode x y d) :
    sub (g.nodeQ x y d) (g.lowPixel x y) ∈ p.fetch := by
  rw [mem_fetch, hp.graph]
  refine ⟨x, y, hn.1, hn.2.1, .inl ?_⟩
  rw [mem_pixelDiffs hn.1 hn.2.1, hp.pixel x y hn.1 hn.2.1]
  exact ⟨d, hn, rfl⟩

theorem edge_candidate (hg : g.Fresh) (hp : Tables g p) {x y k d d' : Nat} (he : g.IsEdge x y k d d') :
    g.edgeQ x y k d d' ∈ p.fetch := by
  have key : ∀ {x y k d d' : Nat}, g.IsEdge x y k d d' → k ≠ 1 → g.edgeQ x y k d d' ∈ p.fetch := by
    intro x y k d d' he hk1
    rw [mem_fetch, hp.graph]
    refine ⟨x, y, he.1.1, he.1.2.1, .inr ⟨k, he.1, ?_⟩⟩
    rw [mem_edgeDiffs he.1, hp.edge x y k he.1]
    refine ⟨d, d', he.2.1, he.2.2.1, ?_, (LawfulFloat.sub_zero _).symm⟩
    have ho := he.2.2.2
    obtain ⟨⟨_, _, hk⟩, -⟩ := he
    unfold OrderOK at ho
    rcases hk with ⟨rfl, hk⟩ | ⟨rfl, hk⟩ | ⟨rfl, hk⟩ | ⟨rfl, hk⟩
    · have := ho.1 rfl
      rw [show nbx x 0 = x + 1 from rfl, scanLo_of_ne (by omega)]
      omega
    · exact absurd rfl hk1
    · rw [show nbx x 2 = x from rfl, scanLo_self]; omega
    · rw [show nbx x 3 = x from rfl, scanLo_self]; omega
  by_cases hk1 : k = 1
  · have h1 := isEdge_symm he
    subst hk1
    have h2 := key h1 (by decide)
    rw [edgeQ_fresh hg.phi_zero] at h2 ⊢
    rwa [LawfulFloat.sqr_sub_comm] at h2
  · exact key he hk1

theorem zero_candidate (hg : g.Fresh) (hp : Tables g p) : (zero : F) ∈ p.fetch := by
  obtain ⟨d, hd, he⟩ := lowPixel_attained hg.toValid hg.width_pos hg.height_pos
  have := pixel_candidate hp hd
  rwa [he, LawfulFloat.sub_self] at this

theorem candidate_cases (hg : g.Fresh) (hp : Tables g p) {a : F} (ha : a ∈ p.fetch) :
    (∃ x y d, g.IsNode x y d ∧ a = sub (g.nodeQ x y d) (g.lowPixel x y)) ∨
    ∃ d d', d < g.levels ∧ d' < g.levels ∧ a = mul g.smoothness (sqr (sub (ofNat d) (ofNat d'))) := by
  rw [mem_fetch, hp.graph] at ha
  obtain ⟨x, y, hx, hy, h | ⟨k, hk, h⟩⟩ := ha
  · rw [mem_pixelDiffs hx hy, hp.pixel x y hx hy] at h
    obtain ⟨d, hd, rfl⟩ := h
    exact .inl ⟨x, y, d, hd, rfl⟩
  · rw [mem_edgeDiffs hk, hp.edge x y k hk] at h
    obtain ⟨d, d', h1, h2, -, rfl⟩ := h
    refine .inr ⟨d, d', h1.2.2.1, h2.2.2.1, ?_⟩
    rw [LawfulFloat.sub_zero, edgeQ_fresh hg.phi_zero]

theorem candidate_nonneg (hg : g.Fresh) (hp : Tables g p) {a : F} (ha : a ∈ p.fetch) : le zero a = true := by
  rcases candidate_cases hg hp ha with ⟨x, y, d, hd, rfl⟩ | ⟨d, d', h1, h2, rfl⟩
  · exact LawfulFloat.sub_nonneg (lowPixel_le hd)
  · exact LawfulFloat.mul_nonneg hg.smoothness_nonneg (LawfulFloat.sqr_nonneg _)

/-- The list of candidates of a fresh graph fits the address space. -/
theorem fetch_length (hg : g.Fresh) (hp : Tables g p) : p.fetch.length ≤ 9223372036854775808 := by
  have hnd : p.fetch.Nodup := fetch_ascending.nodup
  let N := g.w * g.h * g.levels
  let big : List F :=
    ((List.range N).map fun i => sub (g.nodeQ (i / g.levels / g.h) (i / g.levels % g.h) (i % g.levels))
      (g.lowPixel (i / g.levels / g.h) (i / g.levels % g.h))) ++
    ((List.range (g.levels * g.levels)).map fun i =>
      mul g.smoothness (sqr (sub (ofNat (i / g.levels)) (ofNat (i % g.levels)))))
  have hsub : p.fetch ⊆ big := by
    intro a ha
    have hl := hg.levels_pos
    rcases candidate_cases hg hp ha with ⟨x, y, d, hd, rfl⟩ | ⟨d, d', h1, h2, rfl⟩
    · refine List.mem_append_left _ (List.mem_map.2 ⟨nidx g.h g.levels x y d, ?_, ?_⟩)
      · rw [List.mem_range]
        exact nidx_lt hd.1 hd.2.1 hd.2.2.1
      · have e1 : nidx g.h g.levels x y d % g.levels = d := by
          unfold nidx
          rw [Nat.add_mul_mod_self_left, Nat.mod_eq_of_lt hd.2.2.1]
        have e2 : nidx g.h g.levels x y d / g.levels = y + g.h * x := by
          unfold nidx
          rw [Nat.add_mul_div_left _ _ hl, Nat.div_eq_of_lt hd.2.2.1, Nat.zero_add]
        have e3 : (y + g.h * x) % g.h = y := by rw [Nat.add_mul_mod_self_left, Nat.mod_eq_of_lt hd.2.1]
        have e4 : (y + g.h * x) / g.h = x := by
          rw [Nat.add_mul_div_left _ _ hg.height_pos, Nat.div_eq_of_lt hd.2.1, Nat.zero_add]
        simp only [e1, e2, e3, e4]
    · refine List.mem_append_right _ (List.mem_map.2 ⟨d' + g.levels * d, ?_, ?_⟩)
      · rw [List.mem_range]
        calc d' + g.levels * d < g.levels + g.levels * d := by omega
          _ = g.levels * (d + 1) := by rw [Nat.mul_add, Nat.mul_one, Nat.add_comm]
          _ ≤ g.levels * g.levels := Nat.mul_le_mul_left _ h1
      · have e1 : (d' + g.levels * d) % g.levels = d' := by rw [Nat.add_mul_mod_self_left, Nat.mod_eq_of_lt h2]
        have e2 : (d' + g.levels * d) / g.levels = d := by
          rw [Nat.add_mul_div_left _ _ hl, Nat.div_eq_of_lt h2, Nat.zero_add]
        simp only [e1, e2]
  have hle := (hnd.subperm hsub).length_le
  have hlen : big.length = N + g.levels * g.levels := by simp [big]
  rw [hlen] at hle
  have h1 : g.levels * g.levels ≤ N := by
    have : g.levels ≤ g.w * g.h := by
      calc g.levels ≤ g.w := hg.levels_le
        _ = g.w * 1 := (Nat.mul_one _).symm
        _ ≤ g.w * g.h := Nat.mul_le_mul_left _ hg.height_pos
    exact Nat.mul_le_mul_right _ this
  have h2 : N * 4 < 18446744073709551616 := by
    have := hg.fits
    calc N * 4 = g.w * g.h * 4 * g.levels := by
          show g.w * g.h * g.levels * 4 = _
          rw [Nat.mul_assoc, Nat.mul_comm g.levels 4, ← Nat.mul_assoc]
      _ < _ := this
  omega

end SP
