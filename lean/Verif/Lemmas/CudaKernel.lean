import Verif.Model.CudaKernel
import Verif.Props.Cuda
import Verif.Lemmas.GpuLabel
/-!
# Kernels with 32-bit numbers do what kernels with 64-bit numbers do

This is so when all the indices are less than `2 ^ 32` and all the intensities are less than `2 ^ 31`.
-/
set_option linter.unusedSectionVars false

namespace SP
open FloatOps
variable {F D : Type} [FloatOps F] [FloatOps D]

/-- Everything fits in 32 bits: numbers of elements and intensities. -/
structure DisparityGraph.Fits32 (g : DisparityGraph D) : Prop where
  fit : g.w * g.h * 4 * g.levels ≤ 2 ^ 32
  left : ∀ i, (g.left.data.getD i 0).toNat < 2 ^ 31
  right : ∀ i, (g.right.data.getD i 0).toNat < 2 ^ 31

theorem rd_cuda {α : Type} (a : Array α) {i : UInt64} (h : i.toNat < 4294967296) : Cuda.rd a i.toUInt32 = rd a i := by
  unfold Cuda.rd rd
  rw [toUInt32_toNat h]
  cases a[i.toNat]? <;> rfl

theorem wr_cuda {α : Type} (a : Array α) {i : UInt64} (v : α) (h : i.toNat < 4294967296) : Cuda.wr a i.toUInt32 v = wr a i v := by
  unfold Cuda.wr wr
  rw [toUInt32_toNat h]

theorem rdFlag_cuda (n : Nat) {i : UInt64} (h : i.toNat < 4294967296) : Cuda.rdFlag n i.toUInt32 = Par.rdFlag 1 n i := by
  unfold Cuda.rdFlag Par.rdFlag
  rw [toUInt32_toNat h, Nat.div_one]

theorem wrFlag_cuda (n : Nat) {i : UInt64} (b : Bool) (h : i.toNat < 4294967296) : Cuda.wrFlag n i.toUInt32 b = Par.wrFlag 1 n i b := by
  unfold Cuda.wrFlag Par.wrFlag
  rw [toUInt32_toNat h, Nat.div_one]

theorem toFloat_small {x : UInt32} (h : x.toNat < 2147483648) : Cuda.toFloat x = (x.toNat : Int) := by
  unfold Cuda.toFloat
  have : x.toInt32.toInt = (x.toNat : Int).bmod (2 ^ 32) := by
    simp [UInt32.toInt32, Int32.toInt, BitVec.toInt_eq_toNat_bmod]
    rfl
  rw [this, Int.bmod_eq_of_le] <;> omega

theorem number_cuda {a : UInt64} (h : a.toNat < 2147483648) : (Cuda.number a.toUInt32 : D) = ofNat a.toNat := by
  unfold Cuda.number Cuda.ofInt
  have e := toUInt32_toNat (a := a) (by omega)
  rw [toFloat_small (by omega), e, if_neg (by omega)]
  rfl

/-! ## Loops -/

theorem cfor_index {ι ι' σ : Type} {cond : ι → Bool} {cond' : ι' → Bool} {step : ι → ι} {step' : ι' → ι'}
    {body : ι → σ → M (σ × Bool)} {body' : ι' → σ → M (σ × Bool)} (f : ι → ι') (I : ι → σ → Prop)
    (hcond : ∀ i s, I i s → cond' (f i) = cond i)
    (hbody : ∀ i s, I i s → cond i = true → body' (f i) s = body i s)
    (hstep : ∀ i s, I i s → cond i = true → step' (f i) = f (step i))
    (hnext : ∀ i s r, I i s → cond i = true → body i s = .ok (r, false) → I (step i) r)
    (fuel : Nat) (i : ι) (s : σ) (h : I i s) : cfor fuel (f i) cond' step' body' s = cfor fuel i cond step body s := by
  induction fuel generalizing i s with
  | zero => unfold cfor; rw [hcond i s h]
  | succ fuel ih =>
    unfold cfor
    rw [hcond i s h]
    cases hc : cond i
    · rfl
    · simp only [if_true]
      rw [hbody i s h hc]
      cases hb : body i s with
      | error e => rfl
      | ok r =>
        obtain ⟨r, b⟩ := r
        cases b
        · show cfor fuel (step' (f i)) _ _ _ r = cfor fuel (step i) _ _ _ r
          rw [hstep i s h hc]
          exact ih _ _ (hnext i s r h hc hb)
        · rfl

theorem pfor_index {ι ι' σ : Type} {cond : ι → Bool} {cond' : ι' → Bool} {step : ι → ι} {step' : ι' → ι'}
    {body : ι → σ → Prog (σ × Bool)} {body' : ι' → σ → Prog (σ × Bool)} (f : ι → ι') (I : ι → Prop)
    (hcond : ∀ i, I i → cond' (f i) = cond i)
    (hbody : ∀ i s, I i → cond i = true → body' (f i) s = body i s)
    (hstep : ∀ i, I i → cond i = true → step' (f i) = f (step i))
    (hnext : ∀ i, I i → cond i = true → I (step i))
    (fuel : Nat) (i : ι) (s : σ) (h : I i) : pfor fuel (f i) cond' step' body' s = pfor fuel i cond step body s := by
  induction fuel generalizing i s with
  | zero => unfold pfor; rw [hcond i h]
  | succ fuel ih =>
    unfold pfor
    rw [hcond i h]
    cases hc : cond i
    · rfl
    · simp only [if_true]
      rw [hbody i s h hc]
      congr 1
      funext r
      rw [hstep i h hc, ih _ _ (hnext i h hc)]

theorem inc_cuda (i : UInt64) : Cuda.inc i.toUInt32 = (inc i).toUInt32 := by simp [Cuda.inc, inc]

/-! ## Penalties -/
section
variable {g : DisparityGraph D} (hg : g.Valid) (hf : g.Fits32)
include hg hf

theorem nodeIndex_lt32 {n : Node} (hn : g.Holds n) : (nodeIndex g n).toNat < 4294967296 := by
  have h1 := nidx_lt hn.1 hn.2.1 hn.2.2
  have h2 : g.w * g.h * g.levels ≤ g.w * g.h * 4 * g.levels := Nat.mul_le_mul_right _ (by omega)
  have h3 := hf.fit
  rw [nodeIndex_eq, toNat_ofNat_lt (by unfold DisparityGraph.w DisparityGraph.h DisparityGraph.levels at *; omega)]
  unfold DisparityGraph.w DisparityGraph.h DisparityGraph.levels at *
  omega

theorem reparametrizationIndexFast_lt32 {n : Node} (hn : g.Holds n) {k : UInt64} (hk : k.toNat < 4) :
    (reparametrizationIndexFast g n k).toNat < 4294967296 := by
  have h1 := ridx_lt hn.1 hn.2.1 hn.2.2 hk
  have h3 := hf.fit
  rw [reparametrizationIndexFast_eq g hg.height_eq, toNat_ofNat_lt (by unfold DisparityGraph.w DisparityGraph.h DisparityGraph.levels at *; omega)]
  unfold DisparityGraph.w DisparityGraph.h DisparityGraph.levels at *
  omega

theorem neighborhoodIndexFast_lt32 {p : Pixel} (hx : p.x.toNat < g.w) (hy : p.y.toNat < g.h) {k : UInt64} (hk : k.toNat < 4) :
    (neighborhoodIndexFast g p k).toNat < 4294967296 := by
  have h1 := hidx_lt hx hy hk
  have h2 : 4 * (g.h * g.w) = g.w * g.h * 4 := by rw [Nat.mul_comm g.h, Nat.mul_comm]
  have h3 : g.w * g.h * 4 ≤ 2 ^ 32 := Nat.le_trans (Nat.le_mul_of_pos_right _ hg.levels_pos) hf.fit
  rw [neighborhoodIndexFast_eq, toNat_ofNat_lt (by unfold DisparityGraph.w DisparityGraph.h at *; omega)]
  unfold DisparityGraph.w DisparityGraph.h at *
  omega

theorem pixelIndex_lt32 {p : Pixel} (hx : p.x.toNat < g.w) (hy : p.y.toNat < g.h) : (pixelIndex g.right p).toNat < 4294967296 := by
  have h1 := pidx_lt hx hy
  have h3 : g.w * g.h * 4 ≤ 2 ^ 32 := Nat.le_trans (Nat.le_mul_of_pos_right _ hg.levels_pos) hf.fit
  rw [pixelIndex_eq, toNat_ofNat_lt (by unfold DisparityGraph.w DisparityGraph.h at *; omega)]
  unfold DisparityGraph.w DisparityGraph.h at *
  omega

/-- Two neighboring pixels. -/
def DisparityGraph.Adjacent (g : DisparityGraph D) (p q : Pixel) : Prop :=
  p.x.toNat < g.w ∧ p.y.toNat < g.h ∧ q.x.toNat < g.w ∧ q.y.toNat < g.h ∧ (neighborIndex p q).toNat < 4 ∧ (neighborIndex q p).toNat < 4

omit hf in
theorem neighborIndex_cuda (hf : g.Fits32) {p q : Pixel} (h : g.Adjacent p q) :
    Cuda.neighborIndex p.cuda q.cuda = (neighborIndex p q).toUInt32 := by
  obtain ⟨hw, hh, -⟩ := cuda_sizes hg.toDims hf.fit
  obtain ⟨h1, h2, h3, h4, -, -⟩ := h
  exact cuda_neighborIndex ⟨by omega, by omega⟩ ⟨by omega, by omega⟩

theorem edgePenalty_cuda {e : Edge} (h1 : g.Holds e.node) (h2 : g.Holds e.neighbor)
    (ha : g.Adjacent e.node.pixel e.neighbor.pixel) : Cuda.edgePenalty g e.cuda = edgePenalty g e := by
  obtain ⟨hw, hh, hl⟩ := cuda_sizes hg.toDims hf.fit
  have ha' : g.Adjacent e.neighbor.pixel e.node.pixel := ⟨ha.2.2.1, ha.2.2.2.1, ha.1, ha.2.1, ha.2.2.2.2.2, ha.2.2.2.2.1⟩
  have hd1 := h1.2.2
  have hd2 := h2.2.2
  have e1 : Cuda.reparametrizationValueSlow g e.cuda = reparametrizationValueSlow g e := by
    unfold Cuda.reparametrizationValueSlow reparametrizationValueSlow reparametrizationIndexSlow
    show Cuda.rd _ (Cuda.reparametrizationIndexFast _ e.node.cuda (Cuda.neighborIndex e.node.pixel.cuda e.neighbor.pixel.cuda)) = _
    rw [neighborIndex_cuda hg hf ha, cuda_reparametrizationIndexFast g hg.height_eq,
      rd_cuda _ (reparametrizationIndexFast_lt32 hg hf h1 ha.2.2.2.2.1)]
  have e2 : Cuda.reparametrizationValue g e.cuda.neighbor e.cuda.node.pixel = reparametrizationValue g e.neighbor e.node.pixel := by
    unfold Cuda.reparametrizationValue reparametrizationValue reparametrizationIndex
    show Cuda.rd _ (Cuda.reparametrizationIndexFast _ e.neighbor.cuda (Cuda.neighborIndex e.neighbor.pixel.cuda e.node.pixel.cuda)) = _
    rw [neighborIndex_cuda hg hf ha', cuda_reparametrizationIndexFast g hg.height_eq,
      rd_cuda _ (reparametrizationIndexFast_lt32 hg hf h2 ha'.2.2.2.2.1)]
  unfold Cuda.edgePenalty edgePenalty
  rw [e1, e2]
  show _ = _
  have n1 : (Cuda.number e.cuda.node.disparity : D) = ofNat e.node.disparity.toNat := number_cuda (by omega)
  have n2 : (Cuda.number e.cuda.neighbor.disparity : D) = ofNat e.neighbor.disparity.toNat := number_cuda (by omega)
  rw [n1, n2]

theorem pixelValue_cuda {image : Image} (hw : image.width = g.right.width)
    (hi : ∀ i, (image.data.getD i 0).toNat < 2 ^ 31) {p : Pixel} (hx : p.x.toNat < g.w) (hy : p.y.toNat < g.h) :
    (Cuda.pixelValue g image.data p.cuda >>= fun v => pure (Cuda.number v : D)) =
      (pixelValue image p >>= fun v => pure (ofNat v.toNat)) := by
  have h1 := pixelIndex_lt32 hg hf hx hy
  have h2 : pixelIndex g.right p = pixelIndex image p := by unfold pixelIndex; rw [hw]
  unfold Cuda.pixelValue pixelValue
  have : Cuda.pixelIndex (Cuda.ofGraph g).rightWidth p.cuda = (pixelIndex image p).toUInt32 := by rw [← h2]; exact cuda_pixelIndex g.right p
  rw [this, rd_cuda _ (by rw [← h2]; exact h1)]
  unfold rd
  cases h : image.data[(pixelIndex image p).toNat]? with
  | none => rfl
  | some v =>
    have := hi (pixelIndex image p).toNat
    rw [Array.getD_eq_getD_getElem?, h] at this
    show Except.ok _ = Except.ok _
    rw [show (Cuda.intensity v) = v.toUInt32 from rfl, number_cuda (by simpa using this)]

theorem nodePenalty_cuda {n : Node} (hn : g.Holds n) (hx : n.pixel.x.toNat + n.disparity.toNat < g.w) :
    Cuda.nodePenalty g n.cuda = nodePenalty g n := by
  obtain ⟨hw, hh, hl⟩ := cuda_sizes hg.toDims hf.fit
  have e : ∀ k : UInt64, k.toNat < 4 → Cuda.reparametrizationValueFast g n.cuda k.toUInt32 = reparametrizationValueFast g n k := by
    intro k hk
    unfold Cuda.reparametrizationValueFast reparametrizationValueFast
    rw [cuda_reparametrizationIndexFast g hg.height_eq, rd_cuda _ (reparametrizationIndexFast_lt32 hg hf hn hk)]
  have e0 : Cuda.reparametrizationValueFast g n.cuda 0 = _ := e 0 (by decide)
  have e1 : Cuda.reparametrizationValueFast g n.cuda 1 = _ := e 1 (by decide)
  have e2 : Cuda.reparametrizationValueFast g n.cuda 2 = _ := e 2 (by decide)
  have e3 : Cuda.reparametrizationValueFast g n.cuda 3 = _ := e 3 (by decide)
  have hs : (n.pixel.x + n.disparity).toNat = n.pixel.x.toNat + n.disparity.toNat := by
    rw [UInt64.toNat_add]; omega
  have p1 := pixelValue_cuda hg hf (image := g.right) rfl hf.right hn.1 hn.2.1
  have p2 := pixelValue_cuda hg hf (image := g.left) (p := ⟨n.pixel.x + n.disparity, n.pixel.y⟩) hg.width_eq hf.left
    (by rw [hs]; exact hx) hn.2.1
  have hl : (⟨n.cuda.pixel.x + n.cuda.disparity, n.cuda.pixel.y⟩ : Cuda.Pixel) = (⟨n.pixel.x + n.disparity, n.pixel.y⟩ : Pixel).cuda := by
    simp [Node.cuda, Pixel.cuda]
  unfold Cuda.nodePenalty nodePenalty
  simp only [hl, e0, e1, e2, e3]
  rw [show n.cuda.pixel = n.pixel.cuda from rfl]
  revert p1 p2
  generalize Cuda.pixelValue g g.right.data n.pixel.cuda = a1
  generalize pixelValue g.right n.pixel = b1
  generalize Cuda.pixelValue g g.left.data _ = a2
  generalize pixelValue g.left _ = b2
  intro p1 p2
  have q : ∀ {a : M UInt32} {b : M UInt64} {β : Type} (k : D → M β),
      (a >>= fun v => pure (Cuda.number v : D)) = (b >>= fun v => pure (ofNat v.toNat)) →
      (a >>= fun v => k (Cuda.number v)) = (b >>= fun v => k (ofNat v.toNat)) := by
    intro a b β k h
    have := congrArg (· >>= k) h
    simpa using this
  rw [q (fun x => do
    let vl ← a2
    let r₀ ← reparametrizationValueFast g n 0
    let r₁ ← reparametrizationValueFast g n 1
    let r₂ ← reparametrizationValueFast g n 2
    let r₃ ← reparametrizationValueFast g n 3
    return add (add (add (add (mul g.cleanness (sqr (sub x (Cuda.number vl)))) r₀) r₁) r₂) r₃) p1]
  refine congrArg _ (funext fun vr => ?_)
  exact q (fun x => do
    let r₀ ← reparametrizationValueFast g n 0
    let r₁ ← reparametrizationValueFast g n 1
    let r₂ ← reparametrizationValueFast g n 2
    let r₃ ← reparametrizationValueFast g n 3
    return add (add (add (add (mul g.cleanness (sqr (sub (ofNat vr.toNat) x))) r₀) r₁) r₂) r₃) p2

/-! ## Work items -/

theorem levels_cuda : (Cuda.ofGraph g).disparityLevels.toNat = g.disparityLevels.toNat := by
  obtain ⟨-, -, hl⟩ := cuda_sizes hg.toDims hf.fit
  have hl' : g.disparityLevels.toNat ≤ 1073741824 := hl
  exact toUInt32_toNat (by omega)

/-- The condition of loops over disparities. -/
theorem cond_cuda {p : Pixel} (hx : p.x.toNat < g.w) {d : UInt64} (hd : d.toNat ≤ g.levels) :
    (decide (p.cuda.x + d.toUInt32 < g.right.width.toUInt32) && decide (d.toUInt32 < (Cuda.ofGraph g).disparityLevels)) =
      (decide (p.x + d < g.right.width) && decide (d < g.disparityLevels)) := by
  obtain ⟨hw, -, hl⟩ := cuda_sizes hg.toDims hf.fit
  have hl' : g.disparityLevels.toNat ≤ 1073741824 := hl
  have hw' : g.right.width.toNat ≤ 1073741824 := hw
  have e : (p.x + d).toNat < 4294967296 := by rw [UInt64.toNat_add]; omega
  have c1 := toUInt32_lt (a := p.x + d) (b := g.right.width) e (by omega)
  have c2 := toUInt32_lt (a := d) (b := g.disparityLevels) (by omega) (by omega)
  have e3 : p.cuda.x + d.toUInt32 = (p.x + d).toUInt32 := by simp [Pixel.cuda]
  rw [e3]
  show (decide _ && decide (_ < g.disparityLevels.toUInt32)) = _
  simp only [c1, c2]

theorem cond_holds {p : Pixel} (hx : p.x.toNat < g.w) {d : UInt64} (hd : d.toNat ≤ g.levels)
    (h : (decide (p.x + d < g.right.width) && decide (d < g.disparityLevels)) = true) :
    p.x.toNat + d.toNat < g.w ∧ d.toNat < g.levels := by
  obtain ⟨hw, -, hl⟩ := cuda_sizes hg.toDims hf.fit
  rw [Bool.and_eq_true, decide_eq_true_eq, decide_eq_true_eq, UInt64.lt_iff_toNat_lt, UInt64.lt_iff_toNat_lt, UInt64.toNat_add] at h
  have h1 : g.right.width.toNat = g.w := rfl
  have h2 : g.disparityLevels.toNat = g.levels := rfl
  omega

theorem inc_le {d : UInt64} (h : d.toNat < g.levels) : (inc d).toNat ≤ g.levels := by
  obtain ⟨-, -, hl⟩ := cuda_sizes hg.toDims hf.fit
  unfold inc
  rw [UInt64.toNat_add]
  simp
  omega

end

section
variable {c : ConstraintGraph D} (hc : c.Valid) (hf : c.disparityGraph.Fits32)
include hc hf

theorem isNodeAvailable_cuda {n : Node} (hn : c.disparityGraph.Holds n) :
    Cuda.isNodeAvailable c n.cuda = Par.isNodeAvailable 1 c n := by
  unfold Cuda.isNodeAvailable Par.isNodeAvailable
  rw [cuda_nodeIndex, rdFlag_cuda _ (nodeIndex_lt32 hc.graph hf hn)]

theorem makeNodeUnavailable_cuda {n : Node} (hn : c.disparityGraph.Holds n) :
    Cuda.makeNodeUnavailable c n.cuda = Par.makeNodeUnavailable 1 c n := by
  unfold Cuda.makeNodeUnavailable Par.makeNodeUnavailable
  rw [cuda_nodeIndex, wrFlag_cuda _ _ (nodeIndex_lt32 hc.graph hf hn)]

theorem lowestNeighborhoodPenalty_cuda {e : Edge} (ha : c.disparityGraph.Adjacent e.node.pixel e.neighbor.pixel) :
    Cuda.lowestNeighborhoodPenalty c.lowestPenalties e.cuda = lowestNeighborhoodPenalty c.lowestPenalties e := by
  unfold Cuda.lowestNeighborhoodPenalty lowestNeighborhoodPenalty neighborhoodIndexSlow
  rw [hc.same]
  show Cuda.rd _ (Cuda.neighborhoodIndexFast _ e.node.pixel.cuda (Cuda.neighborIndex e.node.pixel.cuda e.neighbor.pixel.cuda)) = _
  rw [neighborIndex_cuda hc.graph hf ha, cuda_neighborhoodIndexFast,
    rd_cuda _ (neighborhoodIndexFast_lt32 hc.graph hf ha.1 ha.2.1 ha.2.2.2.2.1)]

theorem isEdgeAvailable_cuda {e : Edge} (h1 : c.disparityGraph.Holds e.node) (h2 : c.disparityGraph.Holds e.neighbor)
    (ha : c.disparityGraph.Adjacent e.node.pixel e.neighbor.pixel) : Cuda.isEdgeAvailable c e.cuda = Par.isEdgeAvailable 1 c e := by
  unfold Cuda.isEdgeAvailable Par.isEdgeAvailable
  rw [edgePenalty_cuda hc.graph hf h1 h2 ha, lowestNeighborhoodPenalty_cuda hc hf ha,
    show e.cuda.node = e.node.cuda from rfl, show e.cuda.neighbor = e.neighbor.cuda from rfl,
    isNodeAvailable_cuda hc hf h1, isNodeAvailable_cuda hc hf h2, cuda_edgeExists hc.graph.toDims hf.fit h1 h2]

omit hf hc in
theorem removalInitialDisparity_cuda {n : Node} {p : Pixel} (h1 : n.pixel.x.toNat < 4294967295) (h2 : p.x.toNat < 4294967295)
    (h3 : n.disparity.toNat < 4294967295) :
    Cuda.removalInitialDisparity n.cuda p.cuda = (removalInitialDisparity n p).toUInt32 := by
  have e1 : (n.pixel.x + 1).toNat < 4294967296 := by rw [UInt64.toNat_add]; simp; omega
  have c1 := toUInt32_eq (a := n.pixel.x + 1) (b := p.x) e1 (by omega)
  have c2 := toUInt32_lt (a := 1) (b := n.disparity) (by decide) (by omega)
  have e2 : n.cuda.pixel.x + 1 = (n.pixel.x + 1).toUInt32 := by simp [Node.cuda, Pixel.cuda]
  have e3 : n.cuda.disparity - 1 = (n.disparity - 1).toUInt32 := by simp [Node.cuda]
  unfold Cuda.removalInitialDisparity removalInitialDisparity
  rw [e2, e3]
  have c2' : n.cuda.disparity > 1 ↔ n.disparity > 1 := c2
  have c1' : (n.pixel.x + 1).toUInt32 = p.cuda.x ↔ n.pixel.x + 1 = p.x := c1
  simp only [c1', c2']
  split <;> rfl

omit hf hc in
theorem removalInitialDisparity_le (n : Node) (p : Pixel) : (removalInitialDisparity n p).toNat ≤ n.disparity.toNat := by
  unfold removalInitialDisparity
  split
  · rename_i h
    have := h.2
    rw [gt_iff_lt, UInt64.lt_iff_toNat_lt] at this
    rw [UInt64.toNat_sub_of_le]
    · omega
    · rw [UInt64.le_iff_toNat_le]; omega
  · exact Nat.zero_le _

theorem edgeFound_cuda {n : Node} (hn : c.disparityGraph.Holds n) {p : Pixel} (ha : c.disparityGraph.Adjacent n.pixel p) :
    Cuda.edgeFound c n.cuda p.cuda = Par.edgeFound 1 c n p := by
  obtain ⟨hw, hh, hl⟩ := cuda_sizes hc.graph.toDims hf.fit
  have b1 := ha.1
  have b2 := ha.2.2.1
  have b3 := hn.2.2
  have hw' : c.disparityGraph.left.width = c.disparityGraph.right.width := hc.graph.width_eq
  unfold Cuda.edgeFound Par.edgeFound
  rw [levels_cuda hc.graph hf, removalInitialDisparity_cuda (by omega) (by omega) (by omega), hw']
  refine pfor_index UInt64.toUInt32 (fun d => d.toNat ≤ c.disparityGraph.levels) ?_ ?_ ?_ ?_ _ _ _ ?_
  · intro d hd
    exact cond_cuda hc.graph hf b2 hd
  · intro d s hd hcond
    obtain ⟨-, hd'⟩ := cond_holds hc.graph hf b2 hd hcond
    have := isEdgeAvailable_cuda hc hf (e := ⟨n, ⟨p, d⟩⟩) hn ⟨b2, ha.2.2.2.1, hd'⟩ ha
    rw [show (⟨n.cuda, ⟨p.cuda, d.toUInt32⟩⟩ : Cuda.Edge) = Edge.cuda ⟨n, ⟨p, d⟩⟩ from rfl, this]
  · intro d _ _
    exact inc_cuda d
  · intro d hd hcond
    exact inc_le hc.graph hf (cond_holds hc.graph hf b2 hd hcond).2
  · exact Nat.le_of_lt (Nat.lt_of_le_of_lt (removalInitialDisparity_le n p) b3)

omit hf in
theorem adjacent_of (hf : c.disparityGraph.Fits32) {p : Pixel} (hx : p.x.toNat < c.disparityGraph.w) (hy : p.y.toNat < c.disparityGraph.h)
    {k : UInt64} (hk : k.toNat < 4) (he : neighborhoodExistsFast c.disparityGraph p k = true) :
    c.disparityGraph.Adjacent p (neighborByIndex p k) ∧ Cuda.neighborByIndex p.cuda k.toUInt32 = (neighborByIndex p k).cuda := by
  have hb := hc.graph.bounds
  refine ⟨?_, ((C81_cuda_indices_partial c.disparityGraph hc.graph.toDims hf.fit).2.1 p hx hy).2.2 k hk |>.2.2⟩
  obtain ⟨j, hj, rfl⟩ : ∃ j, j < 4 ∧ k = UInt64.ofNat j := ⟨k.toNat, hk, by simp⟩
  obtain ⟨x, hx', ex⟩ : ∃ x, x < c.disparityGraph.w ∧ p.x = UInt64.ofNat x := ⟨p.x.toNat, hx, by simp⟩
  obtain ⟨y, hy', ey⟩ : ∃ y, y < c.disparityGraph.h ∧ p.y = UInt64.ofNat y := ⟨p.y.toNat, hy, by simp⟩
  obtain rfl : p = mkPixel x y := by
    obtain ⟨px, py⟩ := p
    simp only at ex ey
    rw [ex, ey]
    rfl
  rw [neighborhoodExistsFast_mk hc.graph.toDims hx' hy' hj] at he
  rw [neighborByIndex_mk he]
  have hw4 := hb.bw
  have hh4 := hb.bh
  have h1 := he.nbx_lt
  have h2 := he.nby_lt
  refine ⟨hx, hy, ?_, ?_, ?_, ?_⟩
  · unfold mkPixel; rw [toNat_ofNat_lt (by omega)]; exact h1
  · unfold mkPixel; rw [toNat_ofNat_lt (by omega)]; exact h2
  · rw [neighborIndex_mk he (by omega) (by omega), toNat_ofNat_lt (by omega)]; exact hj
  · have : opp j < 4 := by unfold opp; (repeat' split) <;> omega
    rw [neighborIndex_mk_opp he (by omega) (by omega), toNat_ofNat_lt (by omega)]
    exact this

theorem shouldRemoveNode_cuda {n : Node} (hn : c.disparityGraph.Holds n) : Cuda.shouldRemoveNode c n.cuda = Par.shouldRemoveNode 1 c n := by
  unfold Cuda.shouldRemoveNode Par.shouldRemoveNode
  rw [isNodeAvailable_cuda hc hf hn]
  have : ∀ r : Bool, pfor 4 (0 : UInt32) (fun n => decide (n < Cuda.NEIGHBORS_COUNT)) Cuda.inc
      (fun neighbor_index r => do
        if !Cuda.neighborhoodExistsFast (Cuda.ofGraph c.disparityGraph) n.cuda.pixel neighbor_index then
          return (r, false)
        if !(← Cuda.edgeFound c n.cuda (Cuda.neighborByIndex n.cuda.pixel neighbor_index)) then
          return (true, true)
        return (r, false)) r =
      pfor 4 (0 : UInt64) (fun n => decide (n < NEIGHBORS_COUNT)) inc
      (fun neighbor_index r => do
        if !neighborhoodExistsFast c.disparityGraph n.pixel neighbor_index then
          return (r, false)
        if !(← Par.edgeFound 1 c n (neighborByIndex n.pixel neighbor_index)) then
          return (true, true)
        return (r, false)) r := by
    intro r
    refine pfor_index UInt64.toUInt32 (fun k => k.toNat ≤ 4) ?_ ?_ ?_ ?_ _ 0 _ (by decide)
    · intro k hk
      have := toUInt32_lt (a := k) (b := 4) (by omega) (by decide)
      exact decide_eq_decide.2 this
    · intro k s hk hcond
      have hk4 : k.toNat < 4 := by
        rw [decide_eq_true_eq, UInt64.lt_iff_toNat_lt] at hcond
        exact hcond
      rw [show n.cuda.pixel = n.pixel.cuda from rfl, cuda_neighborhoodExistsFast hc.graph.toDims hf.fit ⟨hn.1, hn.2.1⟩ (by omega)]
      cases he : neighborhoodExistsFast c.disparityGraph n.pixel k
      · rfl
      · obtain ⟨ha, e⟩ := adjacent_of hc hf hn.1 hn.2.1 hk4 he
        rw [e, edgeFound_cuda hc hf hn ha]
    · intro k _ _
      exact inc_cuda k
    · intro k hk hcond
      rw [decide_eq_true_eq, UInt64.lt_iff_toNat_lt] at hcond
      have : NEIGHBORS_COUNT.toNat = 4 := rfl
      unfold inc
      rw [UInt64.toNat_add]
      simp
      omega
  rw [this]

theorem cspProcessPixel_cuda {p : Pixel} (hx : p.x.toNat < c.disparityGraph.w) (hy : p.y.toNat < c.disparityGraph.h) :
    Cuda.cspProcessPixel c p.cuda = Par.cspProcessPixel 1 c p := by
  unfold Cuda.cspProcessPixel Par.cspProcessPixel
  rw [levels_cuda hc.graph hf]
  refine pfor_index UInt64.toUInt32 (fun d => d.toNat ≤ c.disparityGraph.levels) ?_ ?_ ?_ ?_ _ 0 _ (by simp)
  · intro d hd
    exact cond_cuda hc.graph hf hx hd
  · intro d s hd hcond
    obtain ⟨-, hd'⟩ := cond_holds hc.graph hf hx hd hcond
    have hn : c.disparityGraph.Holds ⟨p, d⟩ := ⟨hx, hy, hd'⟩
    simp only [show (⟨p.cuda, d.toUInt32⟩ : Cuda.Node) = Node.cuda ⟨p, d⟩ from rfl]
    rw [shouldRemoveNode_cuda hc hf hn, makeNodeUnavailable_cuda hc hf hn]
  · intro d _ _
    exact inc_cuda d
  · intro d hd hcond
    exact inc_le hc.graph hf (cond_holds hc.graph hf hx hd hcond).2

theorem rounds_cuda {p : Pixel} (hx : p.x.toNat < c.disparityGraph.w) (hy : p.y.toNat < c.disparityGraph.h) (fuel : Nat) :
    Cuda.rounds c p.cuda fuel = Gpu.rounds c (Gpu.wrChanged c 0 true) p fuel := by
  induction fuel with
  | zero => rfl
  | succ fuel ih =>
    unfold Cuda.rounds Gpu.rounds
    rw [cspProcessPixel_cuda hc hf hx hy, ih]

/-- Threads do the same with 32 and with 64 bits. -/
theorem cspIteration_cuda {i : Nat} (hi : i < c.w * c.h) :
    Cuda.cspIteration c (UInt64.ofNat i) = Gpu.cspIterationCuda c (UInt64.ofNat i) := by
  have hhp : 0 < c.h := hc.graph.height_pos
  have hb := hc.graph.bounds
  have hi' : (UInt64.ofNat i).toNat = i := toNat_ofNat_lt (Nat.lt_trans hi hb.wh)
  have hh : c.disparityGraph.right.height.toNat = c.h := rfl
  unfold Cuda.cspIteration Gpu.cspIterationCuda Gpu.cspSolutionIterationCuda
  refine rounds_cuda hc hf (p := Gpu.threadPixel c (UInt64.ofNat i)) ?_ ?_ _
  · unfold Gpu.threadPixel
    rw [UInt64.toNat_div, hi', hh]
    exact Nat.div_lt_of_lt_mul (by rwa [Nat.mul_comm])
  · unfold Gpu.threadPixel
    rw [UInt64.toNat_mod, hi', hh]
    exact Nat.mod_lt _ hhp

/-! ## Choosing of the best node -/

theorem nodeAvailable_cuda {n : Node} (hn : c.disparityGraph.Holds n) : Cuda.nodeAvailable c n.cuda = isNodeAvailable c n := by
  unfold Cuda.nodeAvailable isNodeAvailable
  rw [cuda_nodeIndex, rd_cuda _ (nodeIndex_lt32 hc.graph hf hn)]

theorem bestPenalty_cuda {p : Pixel} (hx : p.x.toNat < c.disparityGraph.w) (hy : p.y.toNat < c.disparityGraph.h) :
    Cuda.bestPenalty c p.cuda = bestPenalty c p := by
  unfold Cuda.bestPenalty bestPenalty
  rw [levels_cuda hc.graph hf, show c.disparityGraph.left.width = c.disparityGraph.right.width from hc.graph.width_eq]
  refine cfor_index UInt64.toUInt32 (fun d _ => d.toNat ≤ c.disparityGraph.levels) ?_ ?_ ?_ ?_ _ 0 _ (by simp)
  · intro d _ hd
    exact cond_cuda hc.graph hf hx hd
  · intro d s hd hcond
    obtain ⟨hx', hd'⟩ := cond_holds hc.graph hf hx hd hcond
    have hn : c.disparityGraph.Holds ⟨p, d⟩ := ⟨hx, hy, hd'⟩
    simp only [show (⟨p.cuda, d.toUInt32⟩ : Cuda.Node) = Node.cuda ⟨p, d⟩ from rfl]
    rw [nodeAvailable_cuda hc hf hn, nodePenalty_cuda hc.graph hf hn hx']
  · intro d _ _ _
    exact inc_cuda d
  · intro d _ _ hd hcond _
    exact inc_le hc.graph hf (cond_holds hc.graph hf hx hd hcond).2

theorem chooseBestNode_cuda {p : Pixel} (hx : p.x.toNat < c.disparityGraph.w) (hy : p.y.toNat < c.disparityGraph.h) :
    Cuda.chooseBestNode c p.cuda = chooseBestNode c p >>= fun r => pure r.1 := by
  unfold Cuda.chooseBestNode chooseBestNode
  rw [levels_cuda hc.graph hf, show c.disparityGraph.left.width = c.disparityGraph.right.width from hc.graph.width_eq,
    bestPenalty_cuda hc hf hx hy, bind_assoc]
  refine congrArg _ (funext fun m => congrArg (· >>= _) ?_)
  refine cfor_index UInt64.toUInt32 (fun d (s : ConstraintGraph D × Bool) =>
    d.toNat ≤ c.disparityGraph.levels ∧ s.1.disparityGraph = c.disparityGraph) ?_ ?_ ?_ ?_ _ 0 _ ⟨by simp, rfl⟩
  · rintro d _ ⟨hd, -⟩
    exact cond_cuda hc.graph hf hx hd
  · rintro d ⟨⟨sg, sl, sa, st⟩, sb⟩ ⟨hd, he⟩ hcond
    simp only at he
    subst he
    obtain ⟨hx', hd'⟩ := cond_holds hc.graph hf hx hd hcond
    have hn : c.disparityGraph.Holds ⟨p, d⟩ := ⟨hx, hy, hd'⟩
    simp only [show (⟨p.cuda, d.toUInt32⟩ : Cuda.Node) = Node.cuda ⟨p, d⟩ from rfl, nodePenalty_cuda hc.graph hf hn hx']
    unfold Cuda.nodeAvailable isNodeAvailable makeNodeUnavailable
    simp only [cuda_nodeIndex, rd_cuda _ (nodeIndex_lt32 hc.graph hf hn), wr_cuda _ _ (nodeIndex_lt32 hc.graph hf hn), bind_assoc]
    rfl
  · rintro d _ - -
    exact inc_cuda d
  · rintro d s r ⟨hd, he⟩ hcond hb
    refine ⟨inc_le hc.graph hf (cond_holds hc.graph hf hx hd hcond).2, ?_⟩
    obtain ⟨a, -, hb⟩ := bind_eq_ok hb
    split at hb
    · cases hb; exact he
    obtain ⟨q, -, hb⟩ := bind_eq_ok hb
    split at hb
    · obtain ⟨g, hg, hb⟩ := bind_eq_ok hb
      unfold makeNodeUnavailable at hg
      obtain ⟨a, -, hg⟩ := bind_eq_ok hg
      cases hg; cases hb
      exact he
    · cases hb; exact he

end

/-! ## Launches -/

/-- Pools that differ only in programs of workers that do not exist. -/
structure Pool.Agree {α : Type} (n : Nat) (P Q : Pool α) : Prop where
  mem : P.mem = Q.mem
  seen : P.seen = Q.seen
  prog : ∀ i, i < n → P.prog i = Q.prog i

theorem Step.agree {α : Type} {fresh : Bool} {group : Nat → Nat} {n : Nat} {P P' Q : Pool α} (h : Step fresh group n P P')
    (ha : P.Agree n Q) : ∃ Q', Step fresh group n Q Q' ∧ P'.Agree n Q' := by
  obtain ⟨qm, qp, qs⟩ := Q
  obtain ⟨e1, e2, e3⟩ := ha
  simp only at e1 e2 e3
  subst e1 e2
  have hset : ∀ i (p : Prog α) j, j < n → setAt P.prog i p j = setAt qp i p j := by
    intro i p j hj
    unfold setAt
    split
    · rfl
    · exact e3 j hj
  cases h with
  | load hi hp hv ht hf => exact ⟨_, .load hi ((e3 _ hi).symm.trans hp) hv ht hf, rfl, rfl, hset _ _⟩
  | store hi hp => exact ⟨_, .store hi ((e3 _ hi).symm.trans hp), rfl, rfl, hset _ _⟩
  | barrier hne hp hle hex hout =>
    refine ⟨_, .barrier hne (fun i hi hg => (e3 _ hi).symm.trans (hp i hi hg)) hle hex hout, rfl, rfl, ?_⟩
    intro i hi
    simp only
    split
    · rfl
    · exact e3 i hi

theorem Steps.agree {α : Type} {fresh : Bool} {group : Nat → Nat} {n : Nat} {P P' Q : Pool α} (h : Steps fresh group n P P')
    (ha : P.Agree n Q) : ∃ Q', Steps fresh group n Q Q' ∧ P'.Agree n Q' := by
  induction h with
  | refl => exact ⟨Q, .refl Q, ha⟩
  | step _ h' ih =>
    obtain ⟨R, h1, h2⟩ := ih
    obtain ⟨R', h3, h4⟩ := h'.agree h2
    exact ⟨R', h1.step h3, h4⟩

/-- Kernels whose work items are the same have the same outcomes. -/
theorem LaunchOutcome.agree {kernel kernel' : Kernel D} {allowed : (Nat → Nat) → Prop} {d : Device D}
    (h : ∀ i, i < d.items → kernel d.graph (UInt64.ofNat i) = kernel' d.graph (UInt64.ofNat i)) {m : M (Device D)}
    (hm : LaunchOutcome kernel allowed d m) : LaunchOutcome kernel' allowed d m := by
  have ha : (d.launch kernel).Agree d.items (d.launch kernel') := ⟨rfl, rfl, h⟩
  cases m with
  | ok d' =>
    obtain ⟨group, hg, P, hs, hr, rfl⟩ := hm
    obtain ⟨Q, h1, h2⟩ := hs.agree ha
    refine ⟨group, hg, Q, h1, fun i hi => ?_, ?_⟩
    · rw [← h2.prog i hi]; exact hr i hi
    · rw [h2.mem]
  | error e =>
    obtain ⟨group, P, hg, hs, hend⟩ := hm
    obtain ⟨Q, h1, h2⟩ := hs.agree ha
    refine ⟨group, Q, hg, h1, ?_⟩
    rcases hend with ⟨i, hi, he⟩ | ⟨he, i, j, k, hi, hj, hij, hb, hr⟩
    · exact .inl ⟨i, hi, by rw [← h2.prog i hi]; exact he⟩
    · exact .inr ⟨he, i, j, k, hi, hj, hij, by rw [← h2.prog i hi]; exact hb, by rw [← h2.prog j hj]; exact hr⟩

/-- The number of threads. -/
theorem items_eq {d : Device D} (hc : d.graph.Valid) : d.items = d.graph.w * d.graph.h := hc.graph.right_size

section
variable {launch : Launcher D} {allowed : (Nat → Nat) → Prop}

/-- Launches of the kernel with 32 bits seen as launches of that with 64 bits: those of graphs that do not fit have any possible outcome. -/
noncomputable def Launcher.widen (launch : Launcher D) (h : ∃ group : Nat → Nat, allowed group) : Launcher D := fun n d =>
  open Classical in
  if d.graph.Valid ∧ d.graph.disparityGraph.Fits32 then launch n d
  else choose (LaunchOutcome.exists (allowed := allowed) Gpu.cspIterationCuda d (choose_spec h))

theorem Launcher.Possible.some_group {kernel : Kernel D} (h : launch.Possible kernel allowed) (d : Device D) : ∃ group, allowed group := by
  have := h 0 d
  cases hm : launch 0 d with
  | ok d' => rw [hm] at this; obtain ⟨g, hg, -⟩ := this; exact ⟨g, hg⟩
  | error e => rw [hm] at this; obtain ⟨g, P, hg, -⟩ := this; exact ⟨g, hg⟩

theorem Launcher.widen_possible (hl : launch.Possible Cuda.cspIteration allowed) (h : ∃ group, allowed group) :
    (launch.widen h).Possible Gpu.cspIterationCuda allowed := by
  intro n d
  unfold Launcher.widen
  split
  · rename_i hd
    refine (hl n d).agree fun i hi => cspIteration_cuda hd.1 hd.2 ?_
    rwa [← items_eq hd.1]
  · exact Classical.choose_spec (LaunchOutcome.exists (allowed := allowed) Gpu.cspIterationCuda d (Classical.choose_spec h))

theorem Launcher.widen_eq (h : ∃ group, allowed group) {d : Device D} (hc : d.graph.Valid) (hf : d.graph.disparityGraph.Fits32) (n : Nat) :
    launch.widen h n d = launch n d := by
  unfold Launcher.widen
  rw [if_pos ⟨hc, hf⟩]

/-! ## The host -/

omit [FloatOps F] in
theorem cfor_inv {ι σ : Type} {cond : ι → Bool} {step : ι → ι} {body : ι → σ → M (σ × Bool)} {I : σ → Prop}
    (h : ∀ i s r b, I s → cond i = true → body i s = .ok (r, b) → I r) (fuel : Nat) {i : ι} {s r : σ} (hs : I s)
    (hr : cfor fuel i cond step body s = .ok r) : I r := by
  induction fuel generalizing i s with
  | zero =>
    unfold cfor at hr
    split at hr
    · cases hr
    · cases hr; exact hs
  | succ fuel ih =>
    unfold cfor at hr
    split at hr
    · rename_i hc
      cases hb : body i s with
      | error e => rw [hb] at hr; cases hr
      | ok a =>
        obtain ⟨a, b⟩ := a
        have ha := h i s a b hs hc hb
        rw [hb] at hr
        cases b
        · exact ih ha hr
        · cases hr; exact ha
    · cases hr; exact hs

theorem cfor_congr {ι σ : Type} {cond : ι → Bool} {step : ι → ι} {body body' : ι → σ → M (σ × Bool)} {I : σ → Prop}
    (h : ∀ i s, I s → cond i = true → body' i s = body i s) (hI : ∀ i s r b, I s → cond i = true → body i s = .ok (r, b) → I r)
    (fuel : Nat) (i : ι) (s : σ) (hs : I s) : cfor fuel i cond step body' s = cfor fuel i cond step body s :=
  cfor_index (cond := cond) (cond' := cond) (step := step) (step' := step) id (fun _ s => I s) (fun _ _ _ => rfl) (fun i s h1 h2 => h i s h1 h2) (fun _ _ _ _ => rfl)
    (fun i s r h1 h2 h3 => hI i s r false h1 h2 h3) fuel i s hs

/-- What is kept by the host. -/
structure Kept32 (c : ConstraintGraph D) (d : Device D) : Prop where
  same : c.Same d.graph
  valid : d.graph.Valid
  sub : Sub d.graph.Av c.Av

variable {c : ConstraintGraph D}

theorem Kept32.fits {d : Device D} (h : Kept32 c d) (hf : c.disparityGraph.Fits32) : d.graph.disparityGraph.Fits32 := by
  rw [h.same.1]; exact hf

theorem Kept32.choose (hp : c.Proper) {d : Device D} (h : Kept32 c d) {x y : UInt64} (hx : x.toNat < c.w) (hy : y.toNat < c.h)
    {r : ConstraintGraph D × Bool} (hr : chooseBestNode d.graph ⟨x, y⟩ = .ok r) : Kept32 c { d with graph := r.1 } := by
  have e : (⟨x, y⟩ : Pixel) = mkPixel x.toNat y.toNat := by simp [mkPixel]
  have := chooseBestNode_mk h.valid (h.same.proper hp h.sub) (x := x.toNat) (y := y.toNat) (by rw [h.same.w_eq]; exact hx)
    (by rw [h.same.h_eq]; exact hy)
  rw [← e] at this
  obtain ⟨r', h1, h2, h3, h4, -⟩ := this
  rw [hr] at h1
  cases h1
  exact ⟨h.same.trans h2, h3, fun x y d h' => h.sub _ _ _ ((h4 x y d).1 h').1⟩

theorem Kept32.launched (hl : launch.Possible Gpu.cspIterationCuda allowed) {d d' : Device D} (h : Kept32 c d) {n : Nat}
    (hd : launch n d = .ok d') : Kept32 c d' := by
  have := hl n d
  rw [hd] at this
  obtain ⟨group, -, ht⟩ := this
  obtain ⟨h1, h2, h3⟩ := ht.basic Gpu.covers_cuda h.valid
  exact ⟨h.same.trans h1, h2, h3.trans h.sub⟩

theorem cspSolution_cuda (hl : launch.Possible Cuda.cspIteration allowed) (h : ∃ group, allowed group) (hc : c.Valid) (hp : c.Proper)
    (hf : c.disparityGraph.Fits32) : Cuda.cspSolution launch c = Gpu.cspSolutionCuda (launch.widen h) c := by
  have hpos := Launcher.widen_possible hl h
  have hwl : c.disparityGraph.right.width.toNat = c.w := rfl
  have hhl : c.disparityGraph.right.height.toNat = c.h := rfl
  unfold Cuda.cspSolution Gpu.cspSolutionCuda
  refine congrArg (· >>= _) ?_
  have hstep : ∀ (x y : UInt64) (s : Device D × Nat) r b, x.toNat < c.w → y.toNat < c.h → Kept32 c s.1 → (do
      let (g, _) ← chooseBestNode s.1.graph { x := x, y := y }
      let d ← launch.widen h s.2 { s.1 with graph := g }
      return ((d, s.2 + 1), false) : M ((Device D × Nat) × Bool)) = .ok (r, b) → Kept32 c r.1 := by
    intro x y s r b hx hy hs hr
    obtain ⟨g, hg, hr⟩ := bind_eq_ok hr
    obtain ⟨d, hd, hr⟩ := bind_eq_ok hr
    cases hr
    exact (hs.choose hp hx hy hg).launched hpos hd
  have hlt : ∀ {a b : UInt64}, decide (a < b) = true → a.toNat < b.toNat := fun h => UInt64.lt_iff_toNat_lt.1 (of_decide_eq_true h)
  refine cfor_congr (I := fun s : Device D × Nat => Kept32 c s.1) ?_ ?_ _ _ _ ⟨ConstraintGraph.Same.refl _, hc, Sub.refl _⟩
  · intro x s hs hx
    refine congrArg (· >>= _) ?_
    refine cfor_congr (I := fun s : Device D × Nat => Kept32 c s.1) ?_ ?_ _ _ _ hs
    · intro y s hs hy
      have := chooseBestNode_cuda hs.valid (hs.fits hf) (p := ⟨x, y⟩) (by have := hs.same.w_eq; unfold ConstraintGraph.w at this; rw [this]; exact hlt hx)
        (by have := hs.same.h_eq; unfold ConstraintGraph.h at this; rw [this]; exact hlt hy)
      rw [show (⟨x.toUInt32, y.toUInt32⟩ : Cuda.Pixel) = Pixel.cuda ⟨x, y⟩ from rfl, this, bind_assoc]
      cases hg : chooseBestNode s.1.graph ⟨x, y⟩ with
      | error e => rfl
      | ok r =>
        have hk := hs.choose hp (hlt hx) (hlt hy) hg
        simp only [bind_ok]
        rw [pure_bind, Launcher.widen_eq h hk.valid (hk.fits hf)]
    · intro y s r b hs hy hr
      exact hstep x y s r b (hlt hx) (hlt hy) hs hr
  · intro x s r b hs hx hr
    obtain ⟨a, ha, hr⟩ := bind_eq_ok hr
    cases hr
    exact cfor_inv (I := fun s : Device D × Nat => Kept32 c s.1)
      (fun y s r b hs hy hr => hstep x y s r b (hlt hx) (hlt hy) hs hr) _ hs ha

theorem cspSolutionLimited_cuda (limits : Gpu.Limits) (hl : launch.Possible Cuda.cspIteration allowed) (h : ∃ group, allowed group)
    (hc : c.Valid) (hp : c.Proper) (hf : c.disparityGraph.Fits32) :
    Cuda.cspSolutionLimited limits launch c = Gpu.cspSolutionCudaLimited limits (launch.widen h) c := by
  have hpos := Launcher.widen_possible hl h
  have hwl : c.disparityGraph.right.width.toNat = c.w := rfl
  have hhl : c.disparityGraph.right.height.toNat = c.h := rfl
  unfold Cuda.cspSolutionLimited Gpu.cspSolutionCudaLimited
  refine congrArg (· >>= _) ?_
  have hstep : ∀ (x y : UInt64) (s : Device D × Nat × Bool) r b, x.toNat < c.w → y.toNat < c.h → Kept32 c s.1 → (do
      Gpu.cudaCheckError s.2.2
      let (g, _) ← chooseBestNode s.1.graph { x := x, y := y }
      if limits.Fits c then
        let d ← launch.widen h s.2.1 { s.1 with graph := g }
        return ((d, s.2.1 + 1, s.2.2), false)
      else
        return (({ s.1 with graph := g }, s.2.1 + 1, true), false) : M ((Device D × Nat × Bool) × Bool)) = .ok (r, b) → Kept32 c r.1 := by
    intro x y s r b hx hy hs hr
    obtain ⟨-, -, hr⟩ := bind_eq_ok hr
    obtain ⟨g, hg, hr⟩ := bind_eq_ok hr
    have hk := hs.choose hp hx hy hg
    simp only at hr
    split at hr
    · obtain ⟨d, hd, hr⟩ := bind_eq_ok hr
      cases hr
      exact hk.launched hpos hd
    · cases hr
      exact hk
  have hlt : ∀ {a b : UInt64}, decide (a < b) = true → a.toNat < b.toNat := fun h => UInt64.lt_iff_toNat_lt.1 (of_decide_eq_true h)
  refine cfor_congr (I := fun s : Device D × Nat × Bool => Kept32 c s.1) ?_ ?_ _ _ _ ⟨ConstraintGraph.Same.refl _, hc, Sub.refl _⟩
  · intro x s hs hx
    refine congrArg (· >>= _) ?_
    refine cfor_congr (I := fun s : Device D × Nat × Bool => Kept32 c s.1) ?_ ?_ _ _ _ hs
    · intro y s hs hy
      have := chooseBestNode_cuda hs.valid (hs.fits hf) (p := ⟨x, y⟩) (by have := hs.same.w_eq; unfold ConstraintGraph.w at this; rw [this]; exact hlt hx)
        (by have := hs.same.h_eq; unfold ConstraintGraph.h at this; rw [this]; exact hlt hy)
      rw [show (⟨x.toUInt32, y.toUInt32⟩ : Cuda.Pixel) = Pixel.cuda ⟨x, y⟩ from rfl, this]
      refine congrArg _ (funext fun _ => ?_)
      rw [bind_assoc]
      cases hg : chooseBestNode s.1.graph ⟨x, y⟩ with
      | error e => rfl
      | ok r =>
        have hk := hs.choose hp (hlt hx) (hlt hy) hg
        simp only [bind_ok]
        rw [pure_bind, Launcher.widen_eq h hk.valid (hk.fits hf)]
    · intro y s r b hs hy hr
      exact hstep x y s r b (hlt hx) (hlt hy) hs hr
  · intro x s r b hs hx hr
    obtain ⟨a, ha, hr⟩ := bind_eq_ok hr
    cases hr
    exact cfor_inv (I := fun s : Device D × Nat × Bool => Kept32 c s.1)
      (fun y s r b hs hy hr => hstep x y s r b (hlt hx) (hlt hy) hs hr) _ hs ha

/-! ## Labeling -/

theorem fits_onDevice {g : DisparityGraph F} (hf : g.Fits32) (conv : F → D) : (g.onDevice conv).Fits32 := ⟨hf.fit, hf.left, hf.right⟩

/-- The labeling found with 32 bits is that found with 64 bits. -/
theorem findLabeling_cuda {c : ConstraintGraph F} (conv : F → D) (hl : launch.Possible Cuda.cspIteration allowed) (h : ∃ group, allowed group)
    (hc : c.Valid) (hp : c.Proper) (hf : c.disparityGraph.Fits32) :
    Cuda.findLabeling conv launch c = Gpu.findLabelingCuda conv (launch.widen h) c := by
  unfold Cuda.findLabeling Gpu.findLabelingCuda
  rw [cspSolution_cuda hl h (Gpu.onDevice_valid hc conv) (Gpu.onDevice_proper hp conv) (fits_onDevice hf conv)]

theorem findLabelingLimited_cuda {c : ConstraintGraph F} (limits : Gpu.Limits) (conv : F → D)
    (hl : launch.Possible Cuda.cspIteration allowed) (h : ∃ group, allowed group)
    (hc : c.Valid) (hp : c.Proper) (hf : c.disparityGraph.Fits32) :
    Cuda.findLabelingLimited limits conv launch c = Gpu.findLabelingCudaLimited limits conv (launch.widen h) c := by
  unfold Cuda.findLabelingLimited Gpu.findLabelingCudaLimited
  rw [cspSolutionLimited_cuda limits hl h (Gpu.onDevice_valid hc conv) (Gpu.onDevice_proper hp conv) (fits_onDevice hf conv)]

end

/-! ## Graphs of the program -/

/-- The graph for which a labeling is looked for; whatever the arithmetic is. -/
theorem solvedGraph_proper {solve : Solver F} {B : Nat} {jobs : UInt64} (hs : solve.Possible B jobs) {g : DisparityGraph F} (hg : g.Valid)
    (hj : 0 < jobs.toNat) (hfit : g.h + jobs.toNat ≤ 18446744073709551616) {c : ConstraintGraph F} {n : Nat}
    (h : Par.solvedGraph solve g = .ok (c, n)) : c.Valid ∧ c.Proper ∧ c.disparityGraph = g := by
  unfold Par.solvedGraph at h
  obtain ⟨⟨p, t, calls⟩, hm, h⟩ := bind_eq_ok h
  obtain ⟨c0, h0, h⟩ := bind_eq_ok h
  obtain ⟨⟨c1, b⟩, h1, h⟩ := bind_eq_ok h
  unfold Par.minimalThreshold at hm
  obtain ⟨p', hp, hm⟩ := bind_eq_ok hm
  obtain ⟨l, -, hm⟩ := bind_eq_ok hm
  obtain ⟨q, -, hm⟩ := bind_eq_ok hm
  cases hm
  obtain ⟨p'', hp', k1, k2, -⟩ := mkLowestPenalties_mk hg
  rw [hp] at hp'
  cases hp'
  obtain ⟨c0', h0', k3, -, -, k4, k5⟩ := mkConstraintGraph_mk k2 k1 q.1
  rw [h0] at h0'
  cases h0'
  have hfit' : c0.h + jobs.toNat ≤ 18446744073709551616 := by unfold ConstraintGraph.h; rw [k3]; exact hfit
  have hsol := solver_res hs hj q.2 k4 (mkConstraintGraph_proper k3 k5) hfit'
  rw [h1] at hsol
  obtain ⟨k6, k7, k8⟩ := SolveTo.basic hsol k4 hj hfit'
  cases b
  · cases h
  · cases h
    exact ⟨k7, k6.proper (mkConstraintGraph_proper k3 k5) k8, k6.1.trans k3⟩

end SP
