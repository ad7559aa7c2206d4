import Verif.Lemmas.Map
import Verif.Props.Threshold
import Verif.Props.Disparity
/-!
# Properties C40–C45 and C11: the labeling, the disparity map and the whole computation
-/
namespace SP
open FloatOps

/-! ## C40: `choose_best_node` -/
section Choose
variable {F : Type} [FloatOps F] [LawfulFloat F] {c : ConstraintGraph F}

/-- **C40**, what holds. Full statement: `choose_best_node` leaves in the pixel exactly one of the nodes that were available,
one with the lowest penalty among them (the lowest disparity among equals), touches no other pixel, and reports failure if
and only if no node was available. It is false when penalties are negative (`C40_negative_penalties_refuted`): then the kept
node need not have the lowest penalty. Here: all but that holds for any penalties. -/
theorem C40_choose_one_partial (hc : c.Valid) (hp : c.Proper) {x y : Nat} (hx : x < c.w) (hy : y < c.h) :
    Ok (chooseBestNode c (mkPixel x y)) fun r => c.Same r.1 ∧
      (∀ x' y' d, ¬ (x' = x ∧ y' = y) → (r.1.Av x' y' d ↔ c.Av x' y' d)) ∧
      (r.2 = true ↔ ∃ d, c.Av x y d) ∧
      (r.2 = true → ∃ d, c.Av x y d ∧ ∀ d', r.1.Av x y d' ↔ d' = d) := by
  refine (chooseBestNode_mk hc hp hx hy).mono ?_
  rintro r ⟨h1, -, h3, h4⟩
  refine ⟨h1, fun x' y' d hne => ?_, by rw [h4, kept_exists hp], fun ht => ?_⟩
  · rw [h3]
    exact ⟨fun h => h.1, fun h => ⟨h, fun e => absurd e hne⟩⟩
  · obtain ⟨d, hd⟩ := h4.1 ht
    refine ⟨d, hd.1, fun d' => ?_⟩
    rw [h3]
    constructor
    · exact fun h => (h.2 ⟨rfl, rfl⟩).unique hd
    · rintro rfl
      exact ⟨hd.1, fun _ => hd⟩

/-- **C40** in full for penalties that are not negative, as they are on graphs the program builds. -/
theorem C40_choose_best_partial (hc : c.Valid) (hp : c.Proper) {x y : Nat} (hx : x < c.w) (hy : y < c.h)
    (hnn : ∀ d, c.Av x y d → le zero (c.disparityGraph.nodeQ x y d) = true) :
    Ok (chooseBestNode c (mkPixel x y)) fun r =>
      (∀ x' y' d, ¬ (x' = x ∧ y' = y) → (r.1.Av x' y' d ↔ c.Av x' y' d)) ∧
      (r.2 = true ↔ ∃ d, c.Av x y d) ∧
      ∀ d, r.1.Av x y d ↔ c.Av x y d ∧
        (∀ d', c.Av x y d' → le (c.disparityGraph.nodeQ x y d) (c.disparityGraph.nodeQ x y d') = true) ∧
        ∀ d', c.Av x y d' → c.disparityGraph.nodeQ x y d' = c.disparityGraph.nodeQ x y d → d ≤ d' := by
  refine (chooseBestNode_mk hc hp hx hy).mono ?_
  rintro r ⟨h1, -, h3, h4⟩
  refine ⟨fun x' y' d hne => ?_, by rw [h4, kept_exists hp], fun d => ?_⟩
  · rw [h3]
    exact ⟨fun h => h.1, fun h => ⟨h, fun e => absurd e hne⟩⟩
  · rw [h3]
    have e : (c.Av x y d ∧ (x = x ∧ y = y → Kept c x y d)) ↔ Kept c x y d :=
      ⟨fun h => h.2 ⟨rfl, rfl⟩, fun h => ⟨h.1, fun _ => h⟩⟩
    rw [e, kept_iff_best hp hnn]
    refine and_congr_right fun hav => and_congr_right fun hbest => ?_
    constructor
    · intro h d' hd' he
      by_contra hlt
      have := h d' (by omega) hd'
      rw [he, LawfulFloat.lt_iff, LawfulFloat.le_refl] at this
      exact Bool.noConfusion this
    · intro h d' hlt hd'
      rw [LawfulFloat.lt_iff]
      cases hle : le (c.disparityGraph.nodeQ x y d') (c.disparityGraph.nodeQ x y d)
      · rfl
      · have := h d' hd' (LawfulFloat.le_antisymm _ _ hle (hbest d' hd'))
        omega

end Choose

/-- Three disparities of the first pixel with penalties `3, -5, 4` (by reparametrization), all available. -/
def negativeGraph : ConstraintGraph Int :=
  let g : DisparityGraph Int :=
    { left := img 3 1 1 [0, 0, 0], right := img 3 1 1 [0, 0, 0], disparityLevels := 3, cleanness := 1, smoothness := 1,
      reparametrization := (Array.replicate 36 0).setIfInBounds 0 3 |>.setIfInBounds 1 (-5) |>.setIfInBounds 2 4 }
  { disparityGraph := g, lowestPenalties := ⟨g, Array.replicate 3 0, Array.replicate 12 0⟩,
    nodesAvailability := #[true, true, true, true, true, false, true, false, false], threshold := 100 }

theorem negativeGraph_ok : negativeGraph.Valid ∧ negativeGraph.Proper := by
  have hg : negativeGraph.disparityGraph.Valid :=
    { width_eq := rfl, height_eq := rfl, width_pos := by decide, height_pos := by decide, levels_pos := by decide,
      levels_le := by decide, left_size := by decide, right_size := by decide, rep_size := by decide, fits := by decide }
  refine ⟨⟨⟨hg, by decide, by decide⟩, rfl, by decide⟩, ?_⟩
  have : ∀ (x : Fin 3) (y : Fin 1) (d : Fin 3), negativeGraph.Av x.1 y.1 d.1 → x.1 + d.1 < 3 := by
    unfold ConstraintGraph.Av
    decide +kernel
  rintro x y d ⟨h1, h2, h3, h4⟩
  exact ⟨h1, h2, h3, this ⟨x, h1⟩ ⟨y, h2⟩ ⟨d, h3⟩ ⟨h1, h2, h3, h4⟩⟩

/-- **C40** is false for negative penalties: `-1` marks "nothing seen yet", so a negative lowest penalty is overwritten. Of the
penalties `3, -5, 4` the node with `3` is kept. -/
theorem C40_negative_penalties_refuted :
    negativeGraph.Valid ∧ negativeGraph.Proper ∧
    nodePenalty negativeGraph.disparityGraph (mkNode 0 0 0) = .ok 3 ∧
    nodePenalty negativeGraph.disparityGraph (mkNode 0 0 1) = .ok (-5) ∧
    isNodeAvailable negativeGraph (mkNode 0 0 1) = .ok true ∧
    Ok (chooseBestNode negativeGraph (mkPixel 0 0)) fun r => r.2 = true ∧
      isNodeAvailable r.1 (mkNode 0 0 0) = .ok true ∧ isNodeAvailable r.1 (mkNode 0 0 1) = .ok false := by
  refine ⟨negativeGraph_ok.1, negativeGraph_ok.2, by decide +kernel, by decide +kernel, by decide +kernel, ?_⟩
  have h : (match chooseBestNode negativeGraph (mkPixel 0 0) with
    | .ok r => decide (r.2 = true ∧ isNodeAvailable r.1 (mkNode 0 0 0) = .ok true ∧
        isNodeAvailable r.1 (mkNode 0 0 1) = .ok false)
    | .error _ => false) = true := by decide +kernel
  cases hr : chooseBestNode negativeGraph (mkPixel 0 0) with
  | error e => rw [hr] at h; simp at h
  | ok r => rw [hr] at h; exact Ok.pure (by simpa using h)

/-- Non-vacuity: of two available nodes the better one stays. -/
example : ((chooseBestNode smallStart (mkPixel 0 0)).toOption.map fun r => (r.1.nodesAvailability, r.2))
    = some (#[false, true, true, true, true, false], true) := by decide +kernel

/-! ## C41, C42: `find_labeling` -/
section Find
variable {F : Type} [FloatOps F] {c : ConstraintGraph F}

/-- **C41**. If `find_labeling` returns a graph then the nodes available in it are those of a consistent labeling of the given
graph (one node in each pixel, available before, neighboring nodes compatible), and `is_edge_available` is true for each two
neighboring nodes. No law of arithmetic is needed. -/
theorem C41_labeling_consistent (hc : c.Valid) (hp : c.Proper) {jobs : Nat} (hj : 0 < jobs)
    (hfit : c.h + jobs ≤ 18446744073709551616) :
    Ok (findLabeling (UInt64.ofNat jobs) c) fun r => r.2 = true → c.Same r.1 ∧ ∃ L : Nat → Nat → Nat,
      Consistent c.w c.h c.E c.Av L ∧
      (∀ x y d, r.1.Av x y d ↔ x < c.w ∧ y < c.h ∧ d = L x y) ∧
      ∀ x y k, HasNb c.w c.h x y k →
        isEdgeAvailable r.1 ⟨mkNode x y (L x y), mkNode (nbx x k) (nby y k) (L (nbx x k) (nby y k))⟩ = .ok true := by
  refine (findLabeling_mk hc hp hj hfit).mono ?_
  rintro ⟨g, b⟩ ⟨h1, h2, h3, h4⟩ hb
  obtain ⟨hal, harc, huniq⟩ := h4 hb
  simp only at h1 h2 h3 hal harc huniq
  have hex : ∀ x y, ∃ d, x < c.w → y < c.h → g.Av x y d := by
    intro x y
    by_cases hxy : x < c.w ∧ y < c.h
    · obtain ⟨d, hd⟩ := hal x y hxy.1 hxy.2
      exact ⟨d, fun _ _ => hd⟩
    · exact ⟨0, fun a b => absurd ⟨a, b⟩ hxy⟩
  choose L hL using hex
  have hE : ∀ x y k, HasNb c.w c.h x y k → c.E x y k (L x y) (L (nbx x k) (nby y k)) := by
    intro x y k hk
    obtain ⟨d', h5, h6⟩ := harc x y _ (hL x y hk.1 hk.2.1) k hk
    rwa [huniq _ _ _ _ (hL _ _ hk.nbx_lt hk.nby_lt) h5]
  refine ⟨h1, L, fun x y hx hy => ⟨h3 _ _ _ (hL x y hx hy), hE x y⟩, fun x y d => ⟨fun h => ?_, ?_⟩, fun x y k hk => ?_⟩
  · have h0 := h3 _ _ _ h
    exact ⟨h0.1, h0.2.1, huniq _ _ _ _ h (hL x y h0.1 h0.2.1)⟩
  · rintro ⟨hx, hy, rfl⟩
    exact hL x y hx hy
  · have a1 := hL x y hk.1 hk.2.1
    have a2 := hL _ _ hk.nbx_lt hk.nby_lt
    obtain ⟨b', hb', he⟩ := isEdgeAvailable_mk h2 (k := k) (d := L x y) (d' := L (nbx x k) (nby y k))
      (by rw [h1.w_eq, h1.h_eq]; exact hk) a1.2.2.1 a2.2.2.1
    rw [hb', he.2 ⟨a1, a2, by rw [h1.E_eq]; exact hE x y k hk⟩]

/-- **C42**, what holds. Full statement: for each accepted disparity graph the labeling step succeeds. It is false
(`C42_labeling_found_refuted`). What holds: if penalties of nodes are not negative and taking in each pixel the best available
node (the lowest disparity among equals) gives a consistent labeling, then `find_labeling` succeeds and returns it. -/
theorem C42_best_labeling_found_partial [LawfulFloat F] (hc : c.Valid) (hp : c.Proper) {jobs : Nat} (hj : 0 < jobs)
    (hfit : c.h + jobs ≤ 18446744073709551616)
    (hnn : ∀ x y d, c.Av x y d → le zero (c.disparityGraph.nodeQ x y d) = true)
    {L : Nat → Nat → Nat} (hL : Consistent c.w c.h c.E c.Av L)
    (hbest : ∀ x y d, x < c.w → y < c.h → c.Av x y d →
      le (c.disparityGraph.nodeQ x y (L x y)) (c.disparityGraph.nodeQ x y d) = true ∧
      (c.disparityGraph.nodeQ x y d = c.disparityGraph.nodeQ x y (L x y) → L x y ≤ d)) :
    Ok (findLabeling (UInt64.ofNat jobs) c) fun r => r.2 = true ∧
      ∀ x y d, r.1.Av x y d ↔ x < c.w ∧ y < c.h ∧ d = L x y := by
  have hmain : Ok (findLabeling (UInt64.ofNat jobs) c) fun r => r.2 = true ∧
      Sub (labelingNodes c.w c.h L) r.1.Av := by
    refine findLabeling_rule hc (fun _ _ g => c.Same g ∧ g.Valid ∧ Sub g.Av c.Av ∧
      Sub (labelingNodes c.w c.h L) g.Av) _ ⟨ConstraintGraph.Same.refl c, hc, Sub.refl _, hL.sub⟩ ?_ ?_ ?_
    · rintro x y g hx hy ⟨h1, h2, h3, h4⟩
      refine (labelStep_mk h2 (h1.proper hp h3) hj (by rw [h1.h_eq]; exact hfit) (by rw [h1.w_eq]; exact hx)
        (by rw [h1.h_eq]; exact hy)).mono ?_
      rintro r ⟨k1, k2, k3, k4⟩
      rw [h1.w_eq, h1.h_eq, h1.E_eq] at k4
      have hkept : Kept g x y (L x y) := by
        rw [kept_iff_best (h1.proper hp h3) (by rw [h1.1]; exact fun d hd => hnn x y d (h3 _ _ _ hd)), h1.1]
        refine ⟨h4 _ _ _ ⟨hx, hy, rfl⟩, fun d hd => (hbest x y d hx hy (h3 _ _ _ hd)).1, fun d hlt hd => ?_⟩
        obtain ⟨a1, a2⟩ := hbest x y d hx hy (h3 _ _ _ hd)
        rw [LawfulFloat.lt_iff]
        cases hle : le (c.disparityGraph.nodeQ x y d) (c.disparityGraph.nodeQ x y (L x y))
        · rfl
        · have := a2 (LawfulFloat.le_antisymm _ _ hle a1)
          omega
      have hsub : Sub (labelingNodes c.w c.h L) (keepBest g x y) := by
        rintro x' y' d ⟨hx', hy', rfl⟩
        refine ⟨h4 _ _ _ ⟨hx', hy', rfl⟩, ?_⟩
        rintro ⟨rfl, rfl⟩
        exact hkept
      have hsw := sub_sweep (consistent_arc hL) hsub (solveOrder c.w c.h jobs)
      rcases k4 with ⟨-, -, a3, a4⟩ | ⟨a1 | a1, -⟩
      · exact .inl ⟨a4, h1.trans k1, k2, k3.trans h3, by rw [a3]; exact hsw⟩
      · exact absurd (fun x y hx hy => ⟨L x y, hsw _ _ _ ⟨hx, hy, rfl⟩⟩) a1
      · exact absurd ⟨_, hkept⟩ a1
    · exact fun _ _ _ h => h
    · exact fun g h => ⟨rfl, h.2.2.2⟩
  obtain ⟨r, hr, h1, h2⟩ := hmain
  obtain ⟨r', hr', h3⟩ := C41_labeling_consistent hc hp hj hfit
  rw [hr] at hr'
  cases hr'
  refine ⟨r, hr, h1, fun x y d => ?_⟩
  obtain ⟨-, L', -, h5, -⟩ := h3 h1
  have e : ∀ x y, x < c.w → y < c.h → L x y = L' x y := fun x y hx hy =>
    ((h5 x y (L x y)).1 (h2 _ _ _ ⟨hx, hy, rfl⟩)).2.2
  rw [h5]
  constructor
  · rintro ⟨hx, hy, rfl⟩; exact ⟨hx, hy, (e x y hx hy).symm⟩
  · rintro ⟨hx, hy, rfl⟩; exact ⟨hx, hy, e x y hx hy⟩

end Find

/-- The error of the program when `find_labeling` fails. -/
def cannotFind : Err :=
  .exc (.logicError "Cannot find labeling. This should not ever happen. Refer to the developers.")

/-- **C42** is false: on `smallGraph` (images `1 0 0` and `0 0 0`, two levels, cleanness 1, smoothness 2) the program ends with
"Cannot find labeling", though the labeling of zeros is feasible at the found threshold `1`. -/
theorem C42_labeling_found_refuted :
    smallGraph.Fresh ∧ (Ok (minimalThreshold 1 smallGraph) fun r => r.2 = 1) ∧
    (smallGraph.FeasibleAt (1 : Int) fun _ _ => 0) ∧ disparityMap 1 smallGraph = .error cannotFind := by
  have key : ∀ m : M Image, (match m with | .error e => decide (e = cannotFind) | .ok _ => false) = true →
      m = .error cannotFind := by
    rintro (e | a) h
    · rw [of_decide_eq_true h]
    · exact Bool.noConfusion h
  refine ⟨smallGraph_fresh, ?_, ?_, key _ (by decide +kernel)⟩
  · have h : (minimalThreshold 1 smallGraph).toOption.map (·.2) = some 1 := by decide +kernel
    cases hr : minimalThreshold 1 smallGraph with
    | error e => rw [hr] at h; simp [Except.toOption] at h
    | ok r => rw [hr] at h; exact Ok.pure (by simpa [Except.toOption] using h)
  · intro x y hx hy
    have hw : smallGraph.w = 3 := by decide
    have hh : smallGraph.h = 1 := by decide
    rw [hw] at hx
    rw [hh] at hy
    obtain rfl : y = 0 := by omega
    have hn : smallGraph.IsNode x 0 0 := ⟨by omega, by omega, by decide, by omega⟩
    refine ⟨hn, fun d hd => ?_, fun k hk =>
      ⟨isEdge_zero smallGraph_fresh.toValid hk, fun d d' hd => ?_⟩⟩
    · have h1 : d < 2 := hd.2.2.1
      have : ∀ (x : Fin 3) (d : Fin 2),
          le (sub (smallGraph.nodeQ x.1 0 0) (smallGraph.nodeQ x.1 0 d.1)) (1 : Int) = true := by decide +kernel
      exact this ⟨x, hx⟩ ⟨d, h1⟩
    · rw [edgeQ_eq smallGraph_fresh]
      refine LawfulFloat.le_trans _ _ _ ?_ (show le (zero : Int) 1 = true by decide)
      have := LawfulFloat.sub_anti _ _ (zero : Int) (edgeQ_nonneg smallGraph_fresh x 0 k d d')
      rwa [LawfulFloat.sub_zero] at this

/-- A graph on which the program succeeds: a bright column moved by one pixel. -/
def niceGraph : DisparityGraph Int := freshGraph (img 3 2 3 [0, 3, 0, 0, 3, 0]) (img 3 2 3 [3, 0, 0, 3, 0, 0]) 2 1 1

theorem niceGraph_fresh : niceGraph.Fresh := by
  refine freshGraph_fresh ⟨rfl, by decide⟩ ⟨rfl, by decide⟩ (accepted_of ?_ ?_ ?_ ?_ ?_ ?_ ?_ rfl rfl rfl ?_ ?_ ?_)
    ?_ <;> decide

/-! ## C43, C44: the disparity map -/
section Map
variable {F : Type} [FloatOps F] {c : ConstraintGraph F}

/-- **C43**. `build_disparity_map` returns an image of the size of the inputs with the number of levels as the maximal value,
whose value in each pixel is the lowest available disparity, if each pixel has an available node; otherwise it throws
`std::logic_error`. -/
theorem C43_disparity_map (hc : c.Valid) (hp : c.Proper) :
    ((∀ x y, x < c.w → y < c.h → ∃ d, c.Av x y d) → Ok (buildDisparityMap c) fun im =>
      im.width = c.disparityGraph.right.width ∧ im.height = c.disparityGraph.right.height ∧
      im.maxValue = c.disparityGraph.disparityLevels ∧ im.data.size = c.w * c.h ∧
      ∀ x y, x < c.w → y < c.h → c.Av x y (im.at x y) ∧ ∀ d, c.Av x y d → im.at x y ≤ d) ∧
    ((¬ ∀ x y, x < c.w → y < c.h → ∃ d, c.Av x y d) →
      ∃ what, buildDisparityMap c = .error (.exc (.logicError what))) := by
  rcases buildDisparityMap_mk hc hp with ⟨h1, h2⟩ | ⟨h1, h2⟩
  · exact ⟨fun _ => h2, fun h => absurd h1 h⟩
  · exact ⟨fun h => absurd h h1, fun _ => ⟨_, h2⟩⟩

/-- **C43**, last part: the map is a valid image (when its size fits the 32-bit counter of `image_valid`). -/
theorem C43_map_valid (hc : c.Valid) (hp : c.Proper) (hsmall : c.w * c.h < 4294967296) {im : Image}
    (him : buildDisparityMap c = .ok im) : imageValid im = .ok true := by
  rcases buildDisparityMap_mk hc hp with ⟨-, im', h, h1, h2, h3, h4, h5⟩ | ⟨-, h⟩
  · rw [him] at h
    cases h
    have hw : im.width.toNat = c.w := by rw [h1]; rfl
    have hh : im.height.toNat = c.h := by rw [h2]; rfl
    have hs : im.Sized := ⟨by rw [hw, hh, h4], by rw [h4]; exact hsmall⟩
    obtain ⟨b, hb, hiff⟩ := C09_image_valid_exact im hs
    rw [hb]
    congr 1
    rw [hiff]
    refine ⟨by rw [hw]; exact hc.graph.width_pos, by rw [hh]; exact hc.graph.height_pos,
      by rw [h3]; exact hc.graph.levels_pos, fun v hv => ?_⟩
    obtain ⟨i, hi, rfl⟩ := Array.getElem_of_mem hv
    have hi' : i < c.w * c.h := by rw [← h4]; exact hi
    have hwp : 0 < c.w := hc.graph.width_pos
    have hx : i % c.w < c.w := Nat.mod_lt _ hwp
    have hy : i / c.w < c.h := Nat.div_lt_of_lt_mul hi'
    have hav := (h5 _ _ hx hy).1
    have e : im.at (i % c.w) (i / c.w) = im.data[i].toNat := by
      unfold Image.at pidx
      rw [hw, Nat.mod_add_div]
      simp [hi]
    rw [e] at hav
    have := hav.2.2.1
    rw [h3]
    exact Nat.le_of_lt this
  · rw [him] at h
    cases h

end Map

/-- Non-vacuity of both cases. -/
example : (buildDisparityMap smallStart).toOption.map (·.data) = some #[0, 0, 0] := by decide +kernel
example : buildDisparityMap { smallStart with nodesAvailability := #[true, false, false, false, true, false] }
    |>.toOption.isNone := by decide +kernel

/-- **C44** is false: the pixel `(0, 0)` of `smallStart` has two available nodes and the map is built; the check for a second
label is never reached because the loop ends at the first one. -/
theorem C44_ambiguity_refuted :
    smallStart.Valid ∧ smallStart.Proper ∧ isNodeAvailable smallStart (mkNode 0 0 0) = .ok true ∧
    isNodeAvailable smallStart (mkNode 0 0 1) = .ok true ∧ Ok (buildDisparityMap smallStart) fun _ => True := by
  refine ⟨smallStart_ok.1, smallStart_ok.2.1, by decide +kernel, by decide +kernel, ?_⟩
  refine ((C43_disparity_map smallStart_ok.1 smallStart_ok.2.1).1 ?_).mono fun _ _ => trivial
  have hw : smallStart.w = 3 := by decide +kernel
  have hh : smallStart.h = 1 := by decide +kernel
  have hav : ∀ (x : Fin 3) (y : Fin 1), smallStart.Av x.1 y.1 0 := by
    unfold ConstraintGraph.Av
    decide +kernel
  rw [hw, hh]
  exact fun x y hx hy => ⟨0, hav ⟨x, hx⟩ ⟨y, hy⟩⟩

/-! ## C45 and C11: the whole computation -/
section Whole
variable {F : Type} [FloatOps F] {g : DisparityGraph F}

/-- **C45** for the computation between reading and writing: whenever a disparity map is produced, it has the size of the images
and is a labeling feasible at the found threshold; in particular each value is below the number of levels and points inside
the left image, and matching columns of a row do not go backwards. -/
theorem C45_map_consistent [LawfulFloat F] (hg : g.Fresh) {jobs : Nat} (hj : 0 < jobs)
    (hfit : g.h + jobs ≤ 18446744073709551616) {im : Image} (him : disparityMap (UInt64.ofNat jobs) g = .ok im) :
    im.width = g.right.width ∧ im.height = g.right.height ∧ im.maxValue = g.disparityLevels ∧ im.data.size = g.w * g.h ∧
    (Ok (minimalThreshold (UInt64.ofNat jobs) g) fun r => g.FeasibleAt r.2 fun x y => im.at x y) ∧
    (∀ x y, x < g.w → y < g.h → im.at x y < g.levels ∧ x + im.at x y < g.w) ∧
    (∀ x y, x + 1 < g.w → y < g.h → x + im.at x y ≤ x + 1 + im.at (x + 1) y) := by
  obtain ⟨⟨p, t⟩, hmt, htab, -, -, -⟩ := minimalThreshold_mk hg hj hfit
  unfold disparityMap solvedGraph at him
  rw [hmt] at him
  simp only [bind_ok] at him
  obtain ⟨c0, hc0, a1, a2, a3, a4, a5, -, a7⟩ := start_mk hg htab t
  simp only at hc0
  rw [hc0, bind_ok] at him
  have eh0 : c0.h = g.h := by unfold ConstraintGraph.h; rw [a4]
  have ew0 : c0.w = g.w := by unfold ConstraintGraph.w; rw [a4]
  have hfit0 : c0.h + jobs ≤ 18446744073709551616 := by rw [eh0]; exact hfit
  obtain ⟨⟨c1, b1⟩, hc1, k1, k2, k3⟩ := solveCsp_mk a1 a2 hj hfit0
  rw [hc1, bind_ok] at him
  simp only at k1 k2 k3
  cases b1
  · simp at him
  · simp only [Bool.not_true, Bool.false_eq_true, if_false, pure_eq_ok, bind_ok] at him
    have hsub : Sub c1.Av c0.Av := by
      rcases k3 with ⟨-, e, -⟩ | ⟨-, -, e⟩
      · rw [e]; exact sweep_sub _
      · exact absurd e (by simp)
    have hp1 := k1.proper a2 hsub
    have hfit1 : c1.h + jobs ≤ 18446744073709551616 := by rw [k1.h_eq]; exact hfit0
    obtain ⟨⟨c2, b2⟩, hc2, m1, m2, m3, m4⟩ := findLabeling_mk k2 hp1 hj hfit1
    obtain ⟨r', hr', hcons⟩ := C41_labeling_consistent k2 hp1 hj hfit1
    rw [hc2] at hr'
    cases hr'
    rw [hc2, bind_ok] at him
    simp only at m1 m2 m3
    cases b2
    · simp at him
    · simp only [Bool.not_true, Bool.false_eq_true, if_false] at him
      obtain ⟨-, L, hL, hLav, -⟩ := hcons rfl
      simp only at hLav
      have ew1 : c1.w = g.w := by rw [k1.w_eq, ew0]
      have eh1 : c1.h = g.h := by rw [k1.h_eq, eh0]
      have ew2 : c2.w = g.w := by rw [m1.w_eq, ew1]
      have eh2 : c2.h = g.h := by rw [m1.h_eq, eh1]
      have hp2 := m1.proper hp1 m3
      rcases buildDisparityMap_mk m2 hp2 with ⟨-, im', h, h1, h2, h3, h4, h5⟩ | ⟨-, h⟩
      · rw [him] at h
        cases h
        have eg : c2.disparityGraph = g := by rw [m1.1, k1.1, a4]
        rw [eg] at h1 h2 h3
        rw [ew2, eh2] at h4 h5
        rw [ew1, eh1] at hLav
        have heq : ∀ x y, x < g.w → y < g.h → im.at x y = L x y := by
          intro x y hx hy
          exact ((hLav _ _ _).1 (h5 x y hx hy).1).2.2
        have hfeas : g.FeasibleAt t fun x y => im.at x y := by
          refine (feasible_iff_consistent hg a3 a4 a5 a7).1 ?_
          rw [← k1.w_eq, ← k1.h_eq, ← k1.E_eq]
          intro x y hx hy
          rw [ew1] at hx
          rw [eh1] at hy
          have hLxy := hL x y (by rw [ew1]; exact hx) (by rw [eh1]; exact hy)
          refine ⟨?_, fun k hk => ?_⟩
          · simp only [heq x y hx hy]
            exact hsub _ _ _ hLxy.1
          · have h6 := hk.nbx_lt
            have h7 := hk.nby_lt
            rw [ew1] at h6
            rw [eh1] at h7
            simp only [heq x y hx hy, heq _ _ h6 h7]
            exact hLxy.2 k hk
        refine ⟨h1, h2, h3, h4, ⟨_, hmt, hfeas⟩, fun x y hx hy => ?_, fun x y hx hy => ?_⟩
        · have hn := (hfeas x y hx hy).1
          exact ⟨hn.2.2.1, hn.2.2.2⟩
        · have hk : HasNb g.w g.h x y 0 := ⟨by omega, hy, .inl ⟨rfl, hx⟩⟩
          have he := ((hfeas x y (by omega) hy).2.2 0 hk).1
          have ho : im.at x y ≤ im.at (x + 1) y + 1 := he.2.2.2.1 rfl
          omega
      · rw [him] at h
        cases h

/-- **C60**. Whenever a disparity map is produced, it is optimal: it is feasible at some threshold, and no labeling at all is
feasible at a smaller one. -/
theorem C60_map_optimal [LawfulFloat F] (hg : g.Fresh) {jobs : Nat} (hj : 0 < jobs)
    (hfit : g.h + jobs ≤ 18446744073709551616) {im : Image} (him : disparityMap (UInt64.ofNat jobs) g = .ok im) :
    ∃ t, g.FeasibleAt t (fun x y => im.at x y) ∧ ∀ t' L, g.FeasibleAt t' L → le t t' = true := by
  obtain ⟨-, -, -, -, ⟨r, hr, hf⟩, -⟩ := C45_map_consistent hg hj hfit him
  obtain ⟨r', hr', hmin⟩ := C39_minimal_threshold_partial hg hj hfit
  rw [hr] at hr'
  cases hr'
  refine ⟨r.2, hf, fun t' L hL => ?_⟩
  cases hle : le r.2 t'
  · exact absurd ⟨L, hL⟩ (hmin t' ((LawfulFloat.lt_iff _ _).2 hle))
  · rfl

/-- **C11**. For any valid graph (any reparametrization, any arithmetic) whose list of candidates is not longer than `2^63`, the
whole computation returns a map or ends with `std::logic_error`: it never reads or writes outside of an array and never runs
forever. -/
theorem C11_memory_safe (hg : g.Valid) {jobs : Nat} (hj : 0 < jobs) (hfit : g.h + jobs ≤ 18446744073709551616)
    (hlen : ∀ p, mkLowestPenalties g = .ok p → p.fetch.length ≤ 9223372036854775808) :
    (∃ im, disparityMap (UInt64.ofNat jobs) g = .ok im) ∨
    ∃ what, disparityMap (UInt64.ofNat jobs) g = .error (.exc (.logicError what)) := by
  obtain ⟨p, hpe, hpg, hpv, -, -⟩ := mkLowestPenalties_mk hg
  have hlen' := hlen p hpe
  have hmt : Ok (minimalThreshold (UInt64.ofNat jobs) g) fun r => r.1 = p := by
    unfold minimalThreshold
    rw [hpe, bind_ok, fetchAvailablePenalties_mk hpv, bind_ok]
    refine Ok.bind (calculateMinimalConsistentThreshold_mk (jobs := UInt64.ofNat jobs) (p := p) (g := g)
      (arr := p.fetch.toArray) (sol := fun i => solvable (UInt64.ofNat jobs) p g (p.fetch.getD i zero)) ?_ ?_ ?_) ?_
    · intro i hi
      have hi' : i < p.fetch.length := by simpa using hi
      have e : p.fetch.toArray[i] = p.fetch.getD i zero := by simp [List.getD, hi']
      rw [e]
      exact solvedAt_solvable hpv hpg hj hfit _
    · simpa using List.length_pos_of_ne_nil (fetch_ne_nil hpv)
    · simpa using hlen'
    · rintro ⟨t, n⟩ -
      exact Ok.pure rfl
  obtain ⟨⟨p', t⟩, hmt, hp'⟩ := hmt
  simp only at hp'
  subst hp'
  unfold disparityMap solvedGraph
  rw [hmt]
  simp only [bind_ok]
  obtain ⟨c0, hc0, a1, a2, a3, a4, a5⟩ := mkConstraintGraph_mk hpv hpg t
  rw [hc0, bind_ok]
  subst a1
  have hp0 := mkConstraintGraph_proper rfl a5
  obtain ⟨⟨c1, b1⟩, hc1, k1, k2, k3⟩ := solveCsp_mk a4 hp0 hj hfit
  rw [hc1, bind_ok]
  cases b1
  · exact .inr ⟨_, rfl⟩
  · simp only [Bool.not_true, Bool.false_eq_true, if_false, pure_eq_ok, bind_ok]
    simp only at k1 k2 k3
    have hsub : Sub c1.Av c0.Av := by
      rcases k3 with ⟨-, e, -⟩ | ⟨-, -, e⟩
      · rw [e]; exact sweep_sub _
      · exact absurd e (by simp)
    have hp1 := k1.proper hp0 hsub
    obtain ⟨⟨c2, b2⟩, hc2, m1, m2, m3, -⟩ := findLabeling_mk k2 hp1 hj (by rw [k1.h_eq]; exact hfit)
    rw [hc2, bind_ok]
    cases b2
    · exact .inr ⟨_, rfl⟩
    · simp only [Bool.not_true, Bool.false_eq_true, if_false]
      rcases buildDisparityMap_mk m2 (m1.proper hp1 m3) with ⟨-, im, h, -⟩ | ⟨-, h⟩
      · exact .inl ⟨im, h⟩
      · exact .inr ⟨_, h⟩

/-- **C11** for graphs as constructed: no condition on the list of candidates is needed. -/
theorem C11_memory_safe_fresh [LawfulFloat F] (hg : g.Fresh) {jobs : Nat} (hj : 0 < jobs)
    (hfit : g.h + jobs ≤ 18446744073709551616) :
    (∃ im, disparityMap (UInt64.ofNat jobs) g = .ok im) ∨
    ∃ what, disparityMap (UInt64.ofNat jobs) g = .error (.exc (.logicError what)) := by
  refine C11_memory_safe hg.toValid hj hfit fun p hp => ?_
  obtain ⟨p', hp', htab⟩ := tables_mk hg
  rw [hp] at hp'
  cases hp'
  exact fetch_length hg htab

end Whole

/-- Non-vacuity: the map of `niceGraph`. -/
example : (disparityMap 1 niceGraph).toOption.map (·.data) = some #[1, 1, 0, 1, 1, 0] := by decide +kernel

end SP
