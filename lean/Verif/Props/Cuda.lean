import Verif.Props.Indexing
import Verif.Model.Cuda
import Verif.Spec.IntFloat
/-!
# C81: 32-bit indices of the CUDA version
-/
namespace SP
variable {F : Type}

/-- A pixel as it is on the device. -/
def Pixel.cuda (p : Pixel) : Cuda.Pixel := ⟨p.x.toUInt32, p.y.toUInt32⟩
/-- A node as it is on the device. -/
def Node.cuda (n : Node) : Cuda.Node := ⟨n.pixel.cuda, n.disparity.toUInt32⟩
/-- An edge as it is on the device. -/
def Edge.cuda (e : Edge) : Cuda.Edge := ⟨e.node.cuda, e.neighbor.cuda⟩

/-- A pixel of the image and a disparity less than the number of levels. -/
def DisparityGraph.Holds (g : DisparityGraph F) (n : Node) : Prop :=
  n.pixel.x.toNat < g.w ∧ n.pixel.y.toNat < g.h ∧ n.disparity.toNat < g.levels

theorem toUInt32_toNat {a : UInt64} (h : a.toNat < 4294967296) : a.toUInt32.toNat = a.toNat := by
  simp only [UInt64.toNat_toUInt32]; omega

/-- Small numbers are equal on the device if and only if they are equal. -/
theorem toUInt32_eq {a b : UInt64} (ha : a.toNat < 4294967296) (hb : b.toNat < 4294967296) : a.toUInt32 = b.toUInt32 ↔ a = b := by
  rw [← UInt32.toNat_inj, toUInt32_toNat ha, toUInt32_toNat hb, UInt64.toNat_inj]

theorem toUInt32_lt {a b : UInt64} (ha : a.toNat < 4294967296) (hb : b.toNat < 4294967296) : a.toUInt32 < b.toUInt32 ↔ a < b := by
  rw [UInt32.lt_iff_toNat_lt, toUInt32_toNat ha, toUInt32_toNat hb, UInt64.lt_iff_toNat_lt]

theorem toUInt32_le {a b : UInt64} (ha : a.toNat < 4294967296) (hb : b.toNat < 4294967296) : a.toUInt32 ≤ b.toUInt32 ↔ a ≤ b := by
  rw [UInt32.le_iff_toNat_le, toUInt32_toNat ha, toUInt32_toNat hb, UInt64.le_iff_toNat_le]

theorem cuda_pixelIndex (image : Image) (p : Pixel) :
    Cuda.pixelIndex image.width.toUInt32 p.cuda = (pixelIndex image p).toUInt32 := by
  simp [Cuda.pixelIndex, pixelIndex, Pixel.cuda]

theorem cuda_nodeIndex (g : DisparityGraph F) (n : Node) : Cuda.nodeIndex (Cuda.ofGraph g) n.cuda = (nodeIndex g n).toUInt32 := by
  simp [Cuda.nodeIndex, nodeIndex, Node.cuda, Pixel.cuda, Cuda.ofGraph]

theorem cuda_reparametrizationIndexFast (g : DisparityGraph F) (hh : g.left.height = g.right.height) (n : Node) (k : UInt64) :
    Cuda.reparametrizationIndexFast (Cuda.ofGraph g) n.cuda k.toUInt32 = (reparametrizationIndexFast g n k).toUInt32 := by
  simp [Cuda.reparametrizationIndexFast, reparametrizationIndexFast, Node.cuda, Pixel.cuda, Cuda.ofGraph, Cuda.NEIGHBORS_COUNT, NEIGHBORS_COUNT, hh]

theorem cuda_neighborhoodIndexFast (g : DisparityGraph F) (p : Pixel) (k : UInt64) :
    Cuda.neighborhoodIndexFast (Cuda.ofGraph g) p.cuda k.toUInt32 = (neighborhoodIndexFast g p k).toUInt32 := by
  simp [Cuda.neighborhoodIndexFast, neighborhoodIndexFast, Pixel.cuda, Cuda.ofGraph, Cuda.NEIGHBORS_COUNT, NEIGHBORS_COUNT]

theorem cuda_neighborIndex {p q : Pixel} (hp : p.x.toNat < 4294967295 ∧ p.y.toNat < 4294967295)
    (hq : q.x.toNat < 4294967295 ∧ q.y.toNat < 4294967295) : Cuda.neighborIndex p.cuda q.cuda = (neighborIndex p q).toUInt32 := by
  have e1 : ∀ a : UInt64, a.toNat < 4294967295 → (a + 1).toNat < 4294967296 := fun a ha => by
    rw [UInt64.toNat_add]; simp; omega
  simp only [Cuda.neighborIndex, neighborIndex, Pixel.cuda, Cuda.NEIGHBORS_COUNT, NEIGHBORS_COUNT, ne_eq,
    show ∀ a : UInt64, a.toUInt32 + 1 = (a + 1).toUInt32 from fun a => by simp]
  have c1 := toUInt32_eq (a := p.x) (b := q.x) (by omega) (by omega)
  have c2 := toUInt32_eq (a := p.y) (b := q.y) (by omega) (by omega)
  have c3 := toUInt32_eq (a := p.x + 1) (b := q.x) (e1 _ hp.1) (by omega)
  have c4 := toUInt32_eq (a := p.x) (b := q.x + 1) (by omega) (e1 _ hq.1)
  have c5 := toUInt32_eq (a := p.y + 1) (b := q.y) (e1 _ hp.2) (by omega)
  have c6 := toUInt32_eq (a := p.y) (b := q.y + 1) (by omega) (e1 _ hq.2)
  simp only [c1, c2, c3, c4, c5, c6]
  split
  · rfl
  split
  · rfl
  split
  · rfl
  split
  · rfl
  split
  · rfl
  · rfl

theorem neighborIndex_lt (p q : Pixel) : (neighborIndex p q).toNat < 5 := by
  unfold neighborIndex
  split
  · decide
  split
  · decide
  split
  · decide
  split
  · decide
  split
  · decide
  · decide

section
variable {g : DisparityGraph F} (hg : g.Dims) (hfit : g.w * g.h * 4 * g.levels ≤ 2 ^ 32)
include hg hfit

theorem cuda_sizes : g.w ≤ 1073741824 ∧ g.h ≤ 1073741824 ∧ g.levels ≤ 1073741824 := by
  have h1 := hg.width_pos
  have h2 := hg.height_pos
  have h3 := hg.levels_pos
  have h4 : g.w ≤ g.w * g.h := Nat.le_mul_of_pos_right _ h2
  have h5 : g.h ≤ g.w * g.h := Nat.le_mul_of_pos_left _ h1
  have h6 : g.w * g.h * 4 ≤ g.w * g.h * 4 * g.levels := Nat.le_mul_of_pos_right _ h3
  have := hg.levels_le
  omega

theorem cuda_neighborhoodExistsFast {p : Pixel} {k : UInt64} (hp : p.x.toNat < g.w ∧ p.y.toNat < g.h) (hk : k.toNat < 5) :
    Cuda.neighborhoodExistsFast (Cuda.ofGraph g) p.cuda k.toUInt32 = neighborhoodExistsFast g p k := by
  obtain ⟨hw, hh, -⟩ := cuda_sizes hg hfit
  have hw' : g.right.width.toNat ≤ 1073741824 := hw
  have hh' : g.right.height.toNat ≤ 1073741824 := hh
  have e1 : ∀ a : UInt64, a.toNat < 4294967295 → (a + 1).toNat < 4294967296 := fun a ha => by
    rw [UInt64.toNat_add]; simp; omega
  have lit : ∀ j : UInt64, j.toNat < 5 → ∀ a : UInt64, a.toNat < 4294967296 → (a.toUInt32 = j.toUInt32 ↔ a = j) :=
    fun j hj a ha => toUInt32_eq ha (by omega)
  unfold Cuda.neighborhoodExistsFast neighborhoodExistsFast
  simp only [Cuda.ofGraph, Pixel.cuda, gt_iff_lt, ge_iff_le, hg.width_eq, hg.height_eq,
    show ∀ a : UInt64, a.toUInt32 + 1 = (a + 1).toUInt32 from fun a => by simp]
  have l0 : (0 : UInt32) = (0 : UInt64).toUInt32 := rfl
  have l1 : (1 : UInt32) = (1 : UInt64).toUInt32 := rfl
  have l2 : (2 : UInt32) = (2 : UInt64).toUInt32 := rfl
  have l3 : (3 : UInt32) = (3 : UInt64).toUInt32 := rfl
  rw [l0, l1, l2, l3]
  have c1 := toUInt32_lt (a := 3) (b := k) (by decide) (by omega)
  have c2 := toUInt32_le (a := g.right.height) (b := p.y) (by omega) (by omega)
  have c3 := toUInt32_le (a := g.right.width) (b := p.x) (by omega) (by omega)
  have c4 := toUInt32_eq (a := p.x + 1) (b := g.right.width) (e1 _ (by omega)) (by omega)
  have c5 := toUInt32_eq (a := p.y + 1) (b := g.right.height) (e1 _ (by omega)) (by omega)
  have c6 := toUInt32_eq (a := p.x) (b := 0) (by omega) (by decide)
  have c7 := toUInt32_eq (a := p.y) (b := 0) (by omega) (by decide)
  have c8 : ∀ j : UInt64, j.toNat < 5 → (k.toUInt32 = j.toUInt32 ↔ k = j) := fun j hj => toUInt32_eq (by omega) (by omega)
  simp only [c1, c2, c3, c4, c5, c6, c7, c8 0 (by decide), c8 1 (by decide), c8 2 (by decide), c8 3 (by decide)]

theorem cuda_nodeExists {n : Node} (hn : g.Holds n) : Cuda.nodeExists (Cuda.ofGraph g) n.cuda = nodeExists g n := by
  obtain ⟨hw, hh, hl⟩ := cuda_sizes hg hfit
  have hw' : g.right.width.toNat ≤ 1073741824 := hw
  have hh' : g.right.height.toNat ≤ 1073741824 := hh
  have hl' : g.disparityLevels.toNat ≤ 1073741824 := hl
  obtain ⟨hx, hy, hd⟩ := hn
  have e : (n.pixel.x + n.disparity).toNat < 4294967296 := by rw [UInt64.toNat_add]; omega
  unfold Cuda.nodeExists nodeExists
  simp only [Cuda.ofGraph, Node.cuda, Pixel.cuda, ge_iff_le, hg.width_eq,
    show ∀ a b : UInt64, a.toUInt32 + b.toUInt32 = (a + b).toUInt32 from fun a b => by simp]
  have c1 := toUInt32_le (a := g.disparityLevels) (b := n.disparity) (by omega) (by omega)
  have c2 := toUInt32_le (a := g.right.height) (b := n.pixel.y) (by omega) (by omega)
  have c3 := toUInt32_le (a := g.right.width) (b := n.pixel.x) (by omega) (by omega)
  have c4 := toUInt32_le (a := g.right.width) (b := n.pixel.x + n.disparity) (by omega) e
  simp only [c1, c2, c3, c4]

theorem cuda_edgeExists {e : Edge} (h1 : g.Holds e.node) (h2 : g.Holds e.neighbor) :
    Cuda.edgeExists (Cuda.ofGraph g) e.cuda = edgeExists g e := by
  obtain ⟨hw, hh, hl⟩ := cuda_sizes hg hfit
  have hx1 := h1.1
  have hy1 := h1.2.1
  have hd1 := h1.2.2
  have hx2 := h2.1
  have hy2 := h2.2.1
  have hd2 := h2.2.2
  have e1 : ∀ a : UInt64, a.toNat < 4294967295 → (a + 1).toNat < 4294967296 := fun a ha => by
    rw [UInt64.toNat_add]; simp; omega
  have c0 : Cuda.neighborhoodExists (Cuda.ofGraph g) e.node.pixel.cuda e.neighbor.pixel.cuda
      = neighborhoodExists g e.node.pixel e.neighbor.pixel := by
    unfold Cuda.neighborhoodExists neighborhoodExists
    rw [cuda_neighborIndex ⟨by omega, by omega⟩ ⟨by omega, by omega⟩]
    exact cuda_neighborhoodExistsFast hg hfit ⟨hx1, hy1⟩ (neighborIndex_lt _ _)
  unfold Cuda.edgeExists edgeExists
  have d1 : e.cuda.node = e.node.cuda := rfl
  have d2 : e.cuda.neighbor = e.neighbor.cuda := rfl
  have d3 : ∀ n : Node, n.cuda.pixel = n.pixel.cuda := fun _ => rfl
  simp only [d1, d2, d3]
  rw [cuda_nodeExists hg hfit h1, cuda_nodeExists hg hfit h2, c0]
  have c1 := toUInt32_eq (a := e.node.pixel.y) (b := e.neighbor.pixel.y) (by omega) (by omega)
  have c2 := toUInt32_eq (a := e.node.pixel.x + 1) (b := e.neighbor.pixel.x) (e1 _ (by omega)) (by omega)
  have c3 := toUInt32_eq (a := e.node.pixel.x) (b := e.neighbor.pixel.x + 1) (by omega) (e1 _ (by omega))
  have c4 := toUInt32_lt (a := e.neighbor.disparity + 1) (b := e.node.disparity) (e1 _ (by omega)) (by omega)
  have c5 := toUInt32_lt (a := e.node.disparity + 1) (b := e.neighbor.disparity) (e1 _ (by omega)) (by omega)
  simp only [Node.cuda, Pixel.cuda, ne_eq, gt_iff_lt, show ∀ a : UInt64, a.toUInt32 + 1 = (a + 1).toUInt32 from fun a => by simp]
  simp only [c1, c2, c3, c4, c5]

end

/-- **C81**. The full property: for every graph the CUDA version, which computes with 32 bits, uses the same elements of arrays and the
same nodes and edges as the processor. It is false (see below); this is so when there are at most `2 ^ 32` elements of
reparametrization. -/
theorem C81_cuda_indices_partial (g : DisparityGraph F) (hg : g.Dims) (hfit : g.w * g.h * 4 * g.levels ≤ 2 ^ 32) :
    (∀ n, g.Holds n →
      (Cuda.nodeIndex (Cuda.ofGraph g) n.cuda).toNat = (nodeIndex g n).toNat ∧
      Cuda.nodeExists (Cuda.ofGraph g) n.cuda = nodeExists g n ∧
      ∀ k : UInt64, k.toNat < 4 →
        (Cuda.reparametrizationIndexFast (Cuda.ofGraph g) n.cuda k.toUInt32).toNat = (reparametrizationIndexFast g n k).toNat) ∧
    (∀ p : Pixel, p.x.toNat < g.w → p.y.toNat < g.h →
      (Cuda.pixelIndex (Cuda.ofGraph g).rightWidth p.cuda).toNat = (pixelIndex g.right p).toNat ∧
      (Cuda.pixelIndex (Cuda.ofGraph g).leftWidth p.cuda).toNat = (pixelIndex g.left p).toNat ∧
      ∀ k : UInt64, k.toNat < 4 →
        (Cuda.neighborhoodIndexFast (Cuda.ofGraph g) p.cuda k.toUInt32).toNat = (neighborhoodIndexFast g p k).toNat ∧
        Cuda.neighborhoodExistsFast (Cuda.ofGraph g) p.cuda k.toUInt32 = neighborhoodExistsFast g p k ∧
        Cuda.neighborByIndex p.cuda k.toUInt32 = (neighborByIndex p k).cuda) ∧
    (∀ p q : Pixel, p.x.toNat < g.w → p.y.toNat < g.h → q.x.toNat < g.w → q.y.toNat < g.h →
      (Cuda.neighborIndex p.cuda q.cuda).toNat = (neighborIndex p q).toNat) ∧
    (∀ e : Edge, g.Holds e.node → g.Holds e.neighbor → Cuda.edgeExists (Cuda.ofGraph g) e.cuda = edgeExists g e) := by
  obtain ⟨hw, hh, hl⟩ := cuda_sizes hg hfit
  have hlp := hg.levels_pos
  have hwh : g.w * g.h * 4 ≤ 2 ^ 32 := Nat.le_trans (Nat.le_mul_of_pos_right _ hlp) hfit
  refine ⟨fun n hn => ⟨?_, cuda_nodeExists hg hfit hn, fun k hk => ?_⟩, fun p hx hy => ⟨?_, ?_, fun k hk => ⟨?_, ?_, ?_⟩⟩, ?_,
    fun e h1 h2 => cuda_edgeExists hg hfit h1 h2⟩
  · rw [cuda_nodeIndex, toUInt32_toNat]
    have h1 := nidx_lt hn.1 hn.2.1 hn.2.2
    have h2 : g.w * g.h * g.levels ≤ g.w * g.h * 4 * g.levels := Nat.mul_le_mul_right _ (by omega)
    rw [nodeIndex_eq, toNat_ofNat_lt (by unfold DisparityGraph.w DisparityGraph.h DisparityGraph.levels at *; omega)]
    unfold DisparityGraph.w DisparityGraph.h DisparityGraph.levels at *
    omega
  · rw [cuda_reparametrizationIndexFast g hg.height_eq, toUInt32_toNat]
    have h1 := ridx_lt hn.1 hn.2.1 hn.2.2 hk
    rw [reparametrizationIndexFast_eq g hg.height_eq, toNat_ofNat_lt (by unfold DisparityGraph.w DisparityGraph.h DisparityGraph.levels at *; omega)]
    unfold DisparityGraph.w DisparityGraph.h DisparityGraph.levels at *
    omega
  · have := cuda_pixelIndex g.right p
    rw [show (Cuda.ofGraph g).rightWidth = g.right.width.toUInt32 from rfl, this, toUInt32_toNat]
    have h1 := pidx_lt hx hy
    rw [pixelIndex_eq, toNat_ofNat_lt (by unfold DisparityGraph.w DisparityGraph.h at *; omega)]
    unfold DisparityGraph.w DisparityGraph.h at *
    omega
  · have := cuda_pixelIndex g.left p
    rw [show (Cuda.ofGraph g).leftWidth = g.left.width.toUInt32 from by rw [hg.width_eq]; rfl, this, toUInt32_toNat]
    have h1 := pidx_lt hx hy
    rw [pixelIndex_eq, hg.width_eq, toNat_ofNat_lt (by unfold DisparityGraph.w DisparityGraph.h at *; omega)]
    unfold DisparityGraph.w DisparityGraph.h at *
    omega
  · rw [cuda_neighborhoodIndexFast, toUInt32_toNat]
    have h1 := hidx_lt hx hy hk
    have h2 : 4 * (g.h * g.w) = g.w * g.h * 4 := by rw [Nat.mul_comm g.h, Nat.mul_comm]
    rw [neighborhoodIndexFast_eq, toNat_ofNat_lt (by unfold DisparityGraph.w DisparityGraph.h at *; omega)]
    unfold DisparityGraph.w DisparityGraph.h at *
    omega
  · exact cuda_neighborhoodExistsFast hg hfit ⟨hx, hy⟩ (by omega)
  · have c8 : ∀ j : UInt64, j.toNat < 5 → (k.toUInt32 = j.toUInt32 ↔ k = j) := fun j hj => toUInt32_eq (by omega) (by omega)
    have c0 : k.toUInt32 = 0 ↔ k = 0 := c8 0 (by decide)
    have c1 : k.toUInt32 = 1 ↔ k = 1 := c8 1 (by decide)
    have c2 : k.toUInt32 = 2 ↔ k = 2 := c8 2 (by decide)
    have c3 : k.toUInt32 = 3 ↔ k = 3 := c8 3 (by decide)
    unfold Cuda.neighborByIndex neighborByIndex
    simp only [c0, c1, c2, c3]
    split
    · simp [Pixel.cuda]
    split
    · simp [Pixel.cuda]
    split
    · simp [Pixel.cuda]
    split
    · simp [Pixel.cuda]
    · rfl
  · intro p q hpx hpy hqx hqy
    rw [cuda_neighborIndex ⟨by omega, by omega⟩ ⟨by omega, by omega⟩, toUInt32_toNat]
    have := neighborIndex_lt p q
    omega

/-- A graph with sizes of a VGA image and 64 levels. -/
example : ∃ g : DisparityGraph Int, g.Dims ∧ g.w * g.h * 4 * g.levels ≤ 2 ^ 32 ∧ g.Holds ⟨⟨639, 479⟩, 63⟩ := by
  refine ⟨graphOf 640 480 255 64 [] [] 1 1, ⟨rfl, rfl, ?_, ?_, ?_, ?_⟩, ?_, ?_, ?_, ?_⟩ <;> decide

/-- **C81** is false for larger graphs: whenever there are more than `2 ^ 32` nodes, flags of some two of them are the same for CUDA. -/
theorem C81_cuda_indices_refuted (g : DisparityGraph F) (hmany : 2 ^ 32 < g.w * g.h * g.levels)
    (hfit : g.w * g.h * g.levels ≤ 2 ^ 64) :
    ∃ n m, g.Holds n ∧ g.Holds m ∧ n ≠ m ∧ nodeIndex g n ≠ nodeIndex g m ∧
      Cuda.nodeIndex (Cuda.ofGraph g) n.cuda = Cuda.nodeIndex (Cuda.ofGraph g) m.cuda := by
  obtain ⟨-, -, hsurj⟩ := C02_node_index_bijective g hfit
  obtain ⟨n, hn, h0⟩ := hsurj 0 (by omega)
  obtain ⟨m, hm, h1⟩ := hsurj (2 ^ 32) hmany
  have hne : nodeIndex g n ≠ nodeIndex g m := fun h => by rw [h, h1] at h0; omega
  refine ⟨n, m, hn, hm, fun h => hne (h ▸ rfl), hne, ?_⟩
  rw [cuda_nodeIndex, cuda_nodeIndex, ← UInt32.toNat_inj, UInt64.toNat_toUInt32, UInt64.toNat_toUInt32, h0, h1]

/-- Images of 2048 x 2048 with all the levels are enough. -/
example : ∃ g : DisparityGraph Int, g.Dims ∧ 2 ^ 32 < g.w * g.h * g.levels ∧ g.w * g.h * g.levels ≤ 2 ^ 64 := by
  refine ⟨graphOf 2048 2048 255 2048 [] [] 1 1, ⟨rfl, rfl, ?_, ?_, ?_, ?_⟩, ?_, ?_⟩ <;> decide

/-- **C81**, intensities: those less than `2 ^ 31` are what they are on the processor, others are not (`__int2float_rn` takes a
signed number). -/
theorem C81_cuda_intensities_partial (v : UInt64) : Cuda.toFloat (Cuda.intensity v) = v.toNat ↔ v.toNat < 2 ^ 31 := by
  unfold Cuda.toFloat Cuda.intensity
  have h := toNat_lt' v
  have h2 : v.toUInt32.toNat = v.toNat % 4294967296 := by simp
  have : v.toUInt32.toInt32.toInt = Int.bmod v.toUInt32.toNat 4294967296 := by
    exact BitVec.toInt_eq_toNat_bmod _
  rw [this, h2, Int.bmod_def]
  omega

end SP
