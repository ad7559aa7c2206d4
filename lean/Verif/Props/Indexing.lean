import Verif.Lemmas.Indexing
import Verif.Spec.IntFloat
/-!
# C01–C08: indexing and existence checks
-/
namespace SP
variable {F : Type}

/-- C01. Pixels of an image correspond one-to-one to elements of its data. -/
theorem C01_pixel_index_bijective (image : Image)
    (hsize : image.data.size = image.width.toNat * image.height.toNat)
    (hfit : image.data.size ≤ 2 ^ 64) :
    (∀ p, image.Inside p → (pixelIndex image p).toNat < image.data.size) ∧
    (∀ p q, image.Inside p → image.Inside q → pixelIndex image p = pixelIndex image q → p = q) ∧
    (∀ i, i < image.data.size → ∃ p, image.Inside p ∧ (pixelIndex image p).toNat = i) := by
  rw [hsize] at hfit ⊢
  have key : ∀ p, image.Inside p → (pixelIndex image p).toNat
      = pidx image.width.toNat p.x.toNat p.y.toNat := by
    intro p hp
    rw [pixelIndex_eq, toNat_ofNat_lt]
    have := pidx_lt hp.1 hp.2
    omega
  refine ⟨fun p hp => ?_, fun p q hp hq h => ?_, fun i hi => ?_⟩
  · rw [key p hp]; exact pidx_lt hp.1 hp.2
  · have := congrArg UInt64.toNat h
    rw [key p hp, key q hq] at this
    obtain ⟨h1, h2⟩ := pidx_inj hp.1 hq.1 this
    cases p; cases q
    simp only [Pixel.mk.injEq, ← UInt64.toNat_inj]
    exact ⟨h1, h2⟩
  · obtain ⟨y, x, hy, hx, he⟩ := mix_surj hi
    have h1 := toNat_lt' image.width
    have h2 := toNat_lt' image.height
    have hp : image.Inside ⟨UInt64.ofNat x, UInt64.ofNat y⟩ := by
      constructor
      · simp only [toNat_ofNat]; omega
      · simp only [toNat_ofNat]; omega
    refine ⟨_, hp, ?_⟩
    rw [key _ hp]
    simp only [pidx, toNat_ofNat_lt (Nat.lt_trans hx h1), toNat_ofNat_lt (Nat.lt_trans hy h2), he]

example : ∃ image : Image, image.data.size = image.width.toNat * image.height.toNat ∧
    image.data.size ≤ 2 ^ 64 ∧ image.Inside ⟨1, 1⟩ := by
  refine ⟨img 2 2 5 [1, 2, 3, 4], ?_⟩
  unfold Image.Inside
  decide

/-- C02. Nodes (pixels with a disparity) correspond one-to-one to availability flags, whose number
`width * height * levels` is the size allocated by the constructor of `ConstraintGraph`. -/
theorem C02_node_index_bijective (g : DisparityGraph F)
    (hfit : g.w * g.h * g.levels ≤ 2 ^ 64) :
    let In (n : Node) := n.pixel.x.toNat < g.w ∧ n.pixel.y.toNat < g.h ∧ n.disparity.toNat < g.levels
    (∀ n, In n → (nodeIndex g n).toNat < g.w * g.h * g.levels) ∧
    (∀ n m, In n → In m → nodeIndex g n = nodeIndex g m → n = m) ∧
    (∀ i, i < g.w * g.h * g.levels → ∃ n, In n ∧ (nodeIndex g n).toNat = i) := by
  intro In
  have key : ∀ n, In n → (nodeIndex g n).toNat
      = nidx g.h g.levels n.pixel.x.toNat n.pixel.y.toNat n.disparity.toNat := by
    intro n hn
    rw [nodeIndex_eq, toNat_ofNat_lt]
    have := nidx_lt hn.1 hn.2.1 hn.2.2
    omega
  refine ⟨fun p hp => ?_, fun p q hp hq h => ?_, fun i hi => ?_⟩
  · rw [key p hp]; exact nidx_lt hp.1 hp.2.1 hp.2.2
  · have := congrArg UInt64.toNat h
    rw [key p hp, key q hq] at this
    obtain ⟨h1, h2, h3⟩ := nidx_inj hp.2.1 hp.2.2 hq.2.1 hq.2.2 this
    obtain ⟨⟨_, _⟩, _⟩ := p
    obtain ⟨⟨_, _⟩, _⟩ := q
    simp only [Node.mk.injEq, Pixel.mk.injEq, ← UInt64.toNat_inj]
    exact ⟨⟨h1, h2⟩, h3⟩
  · obtain ⟨x, y, d, hx, hy, hd, he⟩ := nidx_surj hi
    have hx' := Nat.lt_trans hx (toNat_lt' _)
    have hy' := Nat.lt_trans hy (toNat_lt' _)
    have hd' := Nat.lt_trans hd (toNat_lt' _)
    have hp : In ⟨⟨UInt64.ofNat x, UInt64.ofNat y⟩, UInt64.ofNat d⟩ := by
      simp only [In, toNat_ofNat_lt hx', toNat_ofNat_lt hy', toNat_ofNat_lt hd']
      exact ⟨hx, hy, hd⟩
    refine ⟨_, hp, ?_⟩
    rw [key _ hp]
    simp only [toNat_ofNat_lt hx', toNat_ofNat_lt hy', toNat_ofNat_lt hd', he]

/-- The precondition of C02 is met, and the last node has the last index. -/
example : let g := graphOf 3 2 9 2 [0, 1, 2, 3, 4, 5] [5, 4, 3, 2, 1, 0] 1 1
    g.w * g.h * g.levels ≤ 2 ^ 64 ∧ (nodeIndex g ⟨⟨2, 1⟩, 1⟩).toNat = 11 := by decide

/-- C03. Elements of reparametrization correspond one-to-one to nodes with a direction. -/
theorem C03_reparametrization_index_bijective (g : DisparityGraph F)
    (hh : g.left.height = g.right.height) (hfit : g.w * g.h * 4 * g.levels ≤ 2 ^ 64) :
    let In (n : Node) (k : UInt64) := n.pixel.x.toNat < g.w ∧ n.pixel.y.toNat < g.h ∧
      n.disparity.toNat < g.levels ∧ k.toNat < 4
    (∀ n k, In n k → (reparametrizationIndexFast g n k).toNat < g.w * g.h * 4 * g.levels) ∧
    (∀ n k m j, In n k → In m j →
      reparametrizationIndexFast g n k = reparametrizationIndexFast g m j → n = m ∧ k = j) ∧
    (∀ i, i < g.w * g.h * 4 * g.levels →
      ∃ n k, In n k ∧ (reparametrizationIndexFast g n k).toNat = i) := by
  intro In
  have key : ∀ n k, In n k → (reparametrizationIndexFast g n k).toNat
      = ridx g.h g.levels n.pixel.x.toNat n.pixel.y.toNat n.disparity.toNat k.toNat := by
    intro n k hn
    rw [reparametrizationIndexFast_eq g hh, toNat_ofNat_lt]
    have := ridx_lt hn.1 hn.2.1 hn.2.2.1 hn.2.2.2
    omega
  refine ⟨fun p k hp => ?_, fun p k q j hp hq h => ?_, fun i hi => ?_⟩
  · rw [key p k hp]; exact ridx_lt hp.1 hp.2.1 hp.2.2.1 hp.2.2.2
  · have := congrArg UInt64.toNat h
    rw [key p k hp, key q j hq] at this
    obtain ⟨h1, h2, h3, h4⟩ :=
      ridx_inj hp.2.1 hp.2.2.1 hp.2.2.2 hq.2.1 hq.2.2.1 hq.2.2.2 this
    obtain ⟨⟨_, _⟩, _⟩ := p
    obtain ⟨⟨_, _⟩, _⟩ := q
    simp only [Node.mk.injEq, Pixel.mk.injEq, ← UInt64.toNat_inj]
    exact ⟨⟨⟨h1, h2⟩, h3⟩, h4⟩
  · obtain ⟨x, y, d, k, hx, hy, hd, hk, he⟩ := ridx_surj hi
    have hx' := Nat.lt_trans hx (toNat_lt' _)
    have hy' := Nat.lt_trans hy (toNat_lt' _)
    have hd' := Nat.lt_trans hd (toNat_lt' _)
    have hk' : k < 18446744073709551616 := by omega
    have hp : In ⟨⟨UInt64.ofNat x, UInt64.ofNat y⟩, UInt64.ofNat d⟩ (UInt64.ofNat k) := by
      simp only [In, toNat_ofNat_lt hx', toNat_ofNat_lt hy', toNat_ofNat_lt hd', toNat_ofNat_lt hk']
      exact ⟨hx, hy, hd, hk⟩
    refine ⟨_, _, hp, ?_⟩
    rw [key _ _ hp]
    simp only [toNat_ofNat_lt hx', toNat_ofNat_lt hy', toNat_ofNat_lt hd', toNat_ofNat_lt hk', he]

example : let g := graphOf 3 2 9 2 [0, 1, 2, 3, 4, 5] [5, 4, 3, 2, 1, 0] 1 1
    g.left.height = g.right.height ∧ g.w * g.h * 4 * g.levels ≤ 2 ^ 64 ∧
    (reparametrizationIndexFast g ⟨⟨2, 1⟩, 1⟩ 3).toNat = 47 := by decide

/-- C04. Elements of the table of lowest neighborhood penalties (of size `4 * height * width`) correspond one-to-one to
pixels with a direction. -/
theorem C04_neighborhood_index_bijective (g : DisparityGraph F)
    (hfit : 4 * (g.h * g.w) ≤ 2 ^ 64) :
    let In (p : Pixel) (k : UInt64) := p.x.toNat < g.w ∧ p.y.toNat < g.h ∧ k.toNat < 4
    (∀ p k, In p k → (neighborhoodIndexFast g p k).toNat < 4 * (g.h * g.w)) ∧
    (∀ p k q j, In p k → In q j →
      neighborhoodIndexFast g p k = neighborhoodIndexFast g q j → p = q ∧ k = j) ∧
    (∀ i, i < 4 * (g.h * g.w) → ∃ p k, In p k ∧ (neighborhoodIndexFast g p k).toNat = i) := by
  intro In
  have key : ∀ p k, In p k → (neighborhoodIndexFast g p k).toNat
      = hidx g.h p.x.toNat p.y.toNat k.toNat := by
    intro p k hn
    rw [neighborhoodIndexFast_eq g, toNat_ofNat_lt]
    have := hidx_lt hn.1 hn.2.1 hn.2.2
    omega
  refine ⟨fun p k hp => ?_, fun p k q j hp hq h => ?_, fun i hi => ?_⟩
  · rw [key p k hp]; exact hidx_lt hp.1 hp.2.1 hp.2.2
  · have := congrArg UInt64.toNat h
    rw [key p k hp, key q j hq] at this
    obtain ⟨h1, h2, h4⟩ := hidx_inj hp.2.1 hp.2.2 hq.2.1 hq.2.2 this
    obtain ⟨_, _⟩ := p
    obtain ⟨_, _⟩ := q
    simp only [Pixel.mk.injEq, ← UInt64.toNat_inj]
    exact ⟨⟨h1, h2⟩, h4⟩
  · obtain ⟨x, y, k, hx, hy, hk, he⟩ := hidx_surj hi
    have hx' := Nat.lt_trans hx (toNat_lt' _)
    have hy' := Nat.lt_trans hy (toNat_lt' _)
    have hk' : k < 18446744073709551616 := by omega
    have hp : In ⟨UInt64.ofNat x, UInt64.ofNat y⟩ (UInt64.ofNat k) := by
      simp only [In, toNat_ofNat_lt hx', toNat_ofNat_lt hy', toNat_ofNat_lt hk']
      exact ⟨hx, hy, hk⟩
    refine ⟨_, _, hp, ?_⟩
    rw [key _ _ hp]
    simp only [toNat_ofNat_lt hx', toNat_ofNat_lt hy', toNat_ofNat_lt hk', he]

example : let g := graphOf 3 2 9 2 [0, 1, 2, 3, 4, 5] [5, 4, 3, 2, 1, 0] 1 1
    4 * (g.h * g.w) ≤ 2 ^ 64 ∧ (neighborhoodIndexFast g ⟨2, 1⟩ 3).toNat = 23 := by decide

/-- C05. The number of the neighbor obtained by number is that number, and the pixel obtained by the number of a straight
neighbor is that neighbor; other pixels get the number `4`. -/
theorem C05_neighbor_numbering (g : DisparityGraph F) (hg : g.Dims) :
    (∀ p k, neighborhoodExistsFast g p k = true → neighborIndex p (neighborByIndex p k) = k) ∧
    (∀ p q, g.right.Inside p → g.right.Inside q → StraightNeighbors p q →
      neighborByIndex p (neighborIndex p q) = q) ∧
    (∀ p q, g.right.Inside p → g.right.Inside q → ¬ StraightNeighbors p q → neighborIndex p q = 4) := by
  have h1 := toNat_lt' g.right.width
  have h2 := toNat_lt' g.right.height
  refine ⟨?_, ?_, ?_⟩
  · intro p k hk
    rw [neighborhoodExistsFast_iff g hg] at hk
    obtain ⟨hx, hy, h⟩ := hk
    simp only [DisparityGraph.w, DisparityGraph.h] at hx hy h
    rcases h with ⟨rfl, h⟩ | ⟨rfl, h⟩ | ⟨rfl, h⟩ | ⟨rfl, h⟩
    · exact neighborIndex_right
    · exact neighborIndex_left h
    · exact neighborIndex_down
    · exact neighborIndex_up h
  · intro p q hp hq hs
    obtain ⟨px, py⟩ := p
    obtain ⟨qx, qy⟩ := q
    simp only [Image.Inside, StraightNeighbors] at hp hq hs
    rcases hs with ⟨rfl, h | h⟩ | ⟨rfl, h | h⟩
    · have e : px + 1 = qx := (add_one_eq_iff (by omega)).2 h
      subst e
      simp [neighborIndex, neighborByIndex]
    · have e : qx + 1 = px := (add_one_eq_iff (by omega)).2 h
      subst e
      have : ¬ (qx + 1 + 1 = qx) := by
        rw [← UInt64.toNat_inj, UInt64.toNat_add, UInt64.toNat_add]; simp; omega
      simp [neighborIndex, neighborByIndex, this]
    · have e : py + 1 = qy := (add_one_eq_iff (by omega)).2 h
      subst e
      simp [neighborIndex, neighborByIndex]
    · have e : qy + 1 = py := (add_one_eq_iff (by omega)).2 h
      subst e
      have : ¬ (qy + 1 + 1 = qy) := by
        rw [← UInt64.toNat_inj, UInt64.toNat_add, UInt64.toNat_add]; simp; omega
      simp [neighborIndex, neighborByIndex, this]
  · intro p q hp hq hs
    simp only [Image.Inside, StraightNeighbors] at hp hq hs
    have e1 : p.x + 1 = q.x ↔ p.x.toNat + 1 = q.x.toNat := add_one_eq_iff (by omega)
    have e2 : p.x = q.x + 1 ↔ p.x.toNat = q.x.toNat + 1 := eq_add_one_iff (by omega)
    have e3 : p.y + 1 = q.y ↔ p.y.toNat + 1 = q.y.toNat := add_one_eq_iff (by omega)
    have e4 : p.y = q.y + 1 ↔ p.y.toNat = q.y.toNat + 1 := eq_add_one_iff (by omega)
    rw [← UInt64.toNat_inj, ← UInt64.toNat_inj] at hs
    simp only [neighborIndex, NEIGHBORS_COUNT, e1, e2, e3, e4, ne_eq]
    by_cases h : ¬p.x = q.x ∧ ¬p.y = q.y
    · rw [if_pos h]
    · rw [if_neg h]
      rw [← UInt64.toNat_inj, ← UInt64.toNat_inj] at h
      rw [if_neg (by omega), if_neg (by omega), if_neg (by omega), if_neg (by omega)]

/-- The hypotheses of C05 are met by a graph with existing neighborhoods in all directions. -/
theorem exampleDims : (graphOf 3 3 9 2 [0, 1, 2, 3, 4, 5, 6, 7, 8] [5, 4, 3, 2, 1, 0, 0, 0, 0] 1 1).Dims :=
  ⟨rfl, rfl, by decide, by decide, by decide, by decide⟩

example : let g := graphOf 3 3 9 2 [0, 1, 2, 3, 4, 5, 6, 7, 8] [5, 4, 3, 2, 1, 0, 0, 0, 0] 1 1
    g.Dims ∧ (∀ k : Fin 4, neighborhoodExistsFast g ⟨1, 1⟩ (UInt64.ofNat k) = true) ∧
    StraightNeighbors ⟨1, 1⟩ ⟨1, 0⟩ ∧ ¬ StraightNeighbors ⟨1, 1⟩ ⟨2, 0⟩ :=
  ⟨exampleDims, by decide, by decide, by decide⟩

/-- C06. `neighborhood_exists` is true if and only if both pixels are in the image and are straight neighbors. -/
theorem C06_neighborhood_exists_iff (g : DisparityGraph F) (hg : g.Dims) (p q : Pixel) :
    neighborhoodExists g p q = true ↔
      g.right.Inside p ∧ g.right.Inside q ∧ StraightNeighbors p q := by
  have h1 := toNat_lt' g.right.width
  have h2 := toNat_lt' g.right.height
  rw [neighborhoodExists, neighborhoodExistsFast_iff g hg]
  simp only [Image.Inside, StraightNeighbors, DisparityGraph.w, DisparityGraph.h]
  have h3 := toNat_lt' p.x
  have h4 := toNat_lt' p.y
  have h5 := toNat_lt' q.x
  have h6 := toNat_lt' q.y
  constructor
  · rintro ⟨hx, hy, h⟩
    have e1 : p.x + 1 = q.x ↔ p.x.toNat + 1 = q.x.toNat := add_one_eq_iff (by omega)
    have e3 : p.y + 1 = q.y ↔ p.y.toNat + 1 = q.y.toNat := add_one_eq_iff (by omega)
    simp only [neighborIndex, NEIGHBORS_COUNT, ne_eq] at h
    split at h
    · simp at h
    · rename_i hd
      split at h
      · rename_i h'
        rw [e1] at h'
        simp [← UInt64.toNat_inj] at h hd ⊢
        omega
      · split at h
        · rename_i h'
          simp [← UInt64.toNat_inj, UInt64.toNat_add] at h h' hd ⊢
          omega
        · split at h
          · rename_i h'
            rw [e3] at h'
            simp [← UInt64.toNat_inj] at h hd ⊢
            omega
          · split at h
            · rename_i h'
              simp [← UInt64.toNat_inj, UInt64.toNat_add] at h h' hd ⊢
              omega
            · simp at h
  · rintro ⟨⟨hx, hy⟩, ⟨hx', hy'⟩, hs⟩
    refine ⟨hx, hy, ?_⟩
    obtain ⟨px, py⟩ := p
    obtain ⟨qx, qy⟩ := q
    simp only at *
    rcases hs with ⟨rfl, h | h⟩ | ⟨rfl, h | h⟩
    · have e : px + 1 = qx := (add_one_eq_iff (by omega)).2 h
      subst e
      simp [neighborIndex]
      omega
    · have e : qx + 1 = px := (add_one_eq_iff (by omega)).2 h
      subst e
      have : ¬ (qx + 1 + 1 = qx) := by
        rw [← UInt64.toNat_inj, UInt64.toNat_add, UInt64.toNat_add]; simp; omega
      simp [neighborIndex, this]
      omega
    · have e : py + 1 = qy := (add_one_eq_iff (by omega)).2 h
      subst e
      simp [neighborIndex]
      omega
    · have e : qy + 1 = py := (add_one_eq_iff (by omega)).2 h
      subst e
      have : ¬ (qy + 1 + 1 = qy) := by
        rw [← UInt64.toNat_inj, UInt64.toNat_add, UInt64.toNat_add]; simp; omega
      simp [neighborIndex, this]
      omega

/-- C06. `neighborhood_exists` is symmetric. -/
theorem C06_neighborhood_exists_symmetric (g : DisparityGraph F) (hg : g.Dims) (p q : Pixel) :
    neighborhoodExists g p q = neighborhoodExists g q p := by
  rw [Bool.eq_iff_iff, C06_neighborhood_exists_iff g hg, C06_neighborhood_exists_iff g hg]
  exact ⟨fun ⟨a, b, c⟩ => ⟨b, a, c.symm⟩, fun ⟨a, b, c⟩ => ⟨b, a, c.symm⟩⟩

/-- Both answers of C06 occur. -/
example : let g := graphOf 3 3 9 2 [0, 1, 2, 3, 4, 5, 6, 7, 8] [5, 4, 3, 2, 1, 0, 0, 0, 0] 1 1
    g.Dims ∧ neighborhoodExists g ⟨1, 1⟩ ⟨1, 0⟩ = true ∧
    neighborhoodExists g ⟨0, 0⟩ ⟨18446744073709551615, 0⟩ = false :=
  ⟨exampleDims, by decide, by decide⟩

/-- C07. `node_exists` is true if and only if the pixel, the disparity and the matching left pixel are in range.
`x + d` of an in-range node does not wrap around because `levels ≤ width` and sizes fit the machine word. -/
theorem C07_node_exists_iff (g : DisparityGraph F) (hg : g.Dims) (hfit : g.w + g.levels ≤ 2 ^ 64) (n : Node) :
    nodeExists g n = true ↔ NodeIn g n := by
  simp only [nodeExists, NodeIn, DisparityGraph.w, DisparityGraph.h, DisparityGraph.levels] at *
  simp only [Bool.not_eq_true', Bool.or_eq_false_iff, decide_eq_false_iff_not, UInt64.le_iff_toNat_le,
    UInt64.toNat_add, ge_iff_le, hg.width_eq]
  omega

/-- Both answers of C07 occur; the disparity `1` is out of range for the last column only. -/
example : let g := graphOf 3 3 9 2 [0, 1, 2, 3, 4, 5, 6, 7, 8] [5, 4, 3, 2, 1, 0, 0, 0, 0] 1 1
    g.Dims ∧ g.w + g.levels ≤ 2 ^ 64 ∧ nodeExists g ⟨⟨1, 2⟩, 1⟩ = true ∧ nodeExists g ⟨⟨2, 2⟩, 1⟩ = false :=
  ⟨exampleDims, by decide, by decide, by decide⟩

/-- C08. `edge_exists` is true if and only if both nodes exist, their pixels are straight neighbors and, within a row,
the matching left columns keep the order. -/
theorem C08_edge_exists_iff (g : DisparityGraph F) (hg : g.Dims) (hfit : g.w + g.levels ≤ 2 ^ 64) (e : Edge) :
    edgeExists g e = true ↔ EdgeIn g e := by
  unfold edgeExists EdgeIn
  rw [← C07_node_exists_iff g hg hfit, ← C07_node_exists_iff g hg hfit]
  cases h1 : nodeExists g e.node
  · simp
  cases h2 : nodeExists g e.neighbor
  · simp
  rw [C07_node_exists_iff g hg hfit] at h1 h2
  obtain ⟨a1, a2, a3, a4⟩ := h1
  obtain ⟨b1, b2, b3, b4⟩ := h2
  cases h3 : neighborhoodExists g e.node.pixel e.neighbor.pixel
  · simp only [Bool.not_true, Bool.not_false, if_true, Bool.false_eq_true, if_false, true_and,
      false_iff]
    intro h
    have := (C06_neighborhood_exists_iff g hg e.node.pixel e.neighbor.pixel).2
      ⟨⟨a1, a2⟩, ⟨b1, b2⟩, h.1⟩
    simp [this] at h3
  · rw [C06_neighborhood_exists_iff g hg] at h3
    obtain ⟨_, _, hs⟩ := h3
    simp only [Bool.not_true, Bool.false_eq_true, if_false, true_and, hs]
    have hw := toNat_lt' g.right.width
    simp only [DisparityGraph.w, DisparityGraph.levels, hg.width_eq] at *
    have e1 : e.node.pixel.x + 1 = e.neighbor.pixel.x ↔
        e.node.pixel.x.toNat + 1 = e.neighbor.pixel.x.toNat := add_one_eq_iff (by omega)
    have e2 : e.node.pixel.x = e.neighbor.pixel.x + 1 ↔
        e.node.pixel.x.toNat = e.neighbor.pixel.x.toNat + 1 := eq_add_one_iff (by omega)
    have hl := hg.levels_le
    simp only [DisparityGraph.w, DisparityGraph.levels] at hl
    simp only [e1, e2, StraightNeighbors, ← UInt64.toNat_inj, gt_iff_lt, UInt64.lt_iff_toNat_lt,
      UInt64.toNat_add, UInt64.reduceToNat, ne_eq] at hs ⊢
    by_cases c1 : ¬ e.node.pixel.y.toNat = e.neighbor.pixel.y.toNat
    · rw [if_pos c1]; simp; omega
    · rw [if_neg c1]
      split
      · simp; omega
      · split
        · simp; omega
        · simp; omega

/-- C08. Reversing an edge does not change its existence. -/
theorem C08_edge_exists_symmetric (g : DisparityGraph F) (hg : g.Dims) (hfit : g.w + g.levels ≤ 2 ^ 64)
    (e : Edge) : edgeExists g e.reverse = edgeExists g e := by
  rw [Bool.eq_iff_iff, C08_edge_exists_iff g hg hfit, C08_edge_exists_iff g hg hfit]
  exact ⟨fun h => h.reverse, fun h => h.reverse⟩

/-- Both answers of C08 occur: `2 → 0` for the right neighbor breaks the order, `1 → 0` does not. -/
example : let g := graphOf 4 1 9 4 [0, 1, 2, 3] [5, 4, 3, 2] 1 1
    g.Dims ∧ g.w + g.levels ≤ 2 ^ 64 ∧
    edgeExists g ⟨⟨⟨0, 0⟩, 1⟩, ⟨⟨1, 0⟩, 0⟩⟩ = true ∧ edgeExists g ⟨⟨⟨0, 0⟩, 2⟩, ⟨⟨1, 0⟩, 0⟩⟩ = false :=
  ⟨⟨rfl, rfl, by decide, by decide, by decide, by decide⟩, by decide, by decide, by decide⟩

end SP
