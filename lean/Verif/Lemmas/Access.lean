import Verif.Model.Constraint
import Verif.Lemmas.Indexing
/-!
# Values of accessors at grid coordinates
-/
namespace SP
open FloatOps
variable {F : Type}

/-! ## Grid -/

theorem HasNb.lt4 {w h x y k : Nat} (hk : HasNb w h x y k) : k < 4 := by
  obtain ⟨_, _, h⟩ := hk; omega

theorem HasNb.nbx_lt {w h x y k : Nat} (hk : HasNb w h x y k) : nbx x k < w := by
  obtain ⟨hx, hy, h⟩ := hk
  unfold nbx
  rcases h with ⟨rfl, h⟩ | ⟨rfl, h⟩ | ⟨rfl, h⟩ | ⟨rfl, h⟩ <;> simp <;> omega

theorem HasNb.nby_lt {w h x y k : Nat} (hk : HasNb w h x y k) : nby y k < h := by
  obtain ⟨hx, hy, h⟩ := hk
  unfold nby
  rcases h with ⟨rfl, h⟩ | ⟨rfl, h⟩ | ⟨rfl, h⟩ | ⟨rfl, h⟩ <;> simp <;> omega

theorem HasNb.nbx_opp {w h x y k : Nat} (hk : HasNb w h x y k) : nbx (nbx x k) (opp k) = x := by
  obtain ⟨hx, hy, h⟩ := hk
  unfold nbx opp
  rcases h with ⟨rfl, h⟩ | ⟨rfl, h⟩ | ⟨rfl, h⟩ | ⟨rfl, h⟩ <;> simp; omega

theorem HasNb.nby_opp {w h x y k : Nat} (hk : HasNb w h x y k) : nby (nby y k) (opp k) = y := by
  obtain ⟨hx, hy, h⟩ := hk
  unfold nby opp
  rcases h with ⟨rfl, h⟩ | ⟨rfl, h⟩ | ⟨rfl, h⟩ | ⟨rfl, h⟩ <;> simp; omega

theorem HasNb.opp_opp {w h x y k : Nat} (hk : HasNb w h x y k) : opp (opp k) = k := by
  obtain ⟨hx, hy, h⟩ := hk
  unfold opp
  rcases h with ⟨rfl, h⟩ | ⟨rfl, h⟩ | ⟨rfl, h⟩ | ⟨rfl, h⟩ <;> simp

theorem HasNb.symm {w h x y k : Nat} (hk : HasNb w h x y k) :
    HasNb w h (nbx x k) (nby y k) (opp k) := by
  refine ⟨hk.nbx_lt, hk.nby_lt, ?_⟩
  obtain ⟨hx, hy, h⟩ := hk
  unfold nbx nby opp
  rcases h with ⟨rfl, h⟩ | ⟨rfl, h⟩ | ⟨rfl, h⟩ | ⟨rfl, h⟩ <;> simp <;> omega

/-! ## Bounds -/

structure Bounds (w h l : Nat) : Prop where
  bw : 4 * w < 18446744073709551616
  bh : 4 * h < 18446744073709551616
  bl : 4 * l < 18446744073709551616
  wh : w * h < 18446744073709551616
  whl : w * h * l < 18446744073709551616
  hw4 : 4 * (h * w) < 18446744073709551616

theorem bounds_of {w h l : Nat} (hw : 0 < w) (hh : 0 < h) (hl : 0 < l)
    (hf : w * h * 4 * l < 18446744073709551616) : Bounds w h l := by
  have e : w * h * 4 * l = 4 * (w * h * l) := by
    rw [Nat.mul_assoc _ 4, Nat.mul_comm 4 l, ← Nat.mul_assoc, Nat.mul_comm]
  rw [e] at hf
  have h1 : w * h ≤ w * h * l := Nat.le_mul_of_pos_right _ hl
  have h2 : w ≤ w * h := Nat.le_mul_of_pos_right _ hh
  have h3 : h ≤ w * h := Nat.le_mul_of_pos_left _ hw
  have h4 : l ≤ w * h * l := Nat.le_mul_of_pos_left _ (Nat.mul_pos hw hh)
  have h5 : h * w = w * h := Nat.mul_comm _ _
  constructor <;> omega

theorem DisparityGraph.Valid.bounds {g : DisparityGraph F} (hg : g.Valid) : Bounds g.w g.h g.levels :=
  bounds_of hg.width_pos hg.height_pos hg.levels_pos hg.fits

/-! ## Neighbors -/

theorem ofNat_pred {x : Nat} (hx : 0 < x) : UInt64.ofNat x - 1 = UInt64.ofNat (x - 1) := by
  obtain ⟨n, rfl⟩ : ∃ n, x = n + 1 := ⟨x - 1, by omega⟩
  simp [UInt64.ofNat_add]

theorem neighborByIndex_mk {w h x y k : Nat} (hk : HasNb w h x y k) :
    neighborByIndex (mkPixel x y) (UInt64.ofNat k) = mkPixel (nbx x k) (nby y k) := by
  obtain ⟨hx, hy, h⟩ := hk
  rcases h with ⟨rfl, h⟩ | ⟨rfl, h⟩ | ⟨rfl, h⟩ | ⟨rfl, h⟩
  · simp [neighborByIndex, nbx, nby, mkPixel, UInt64.ofNat_add]
  · simp [neighborByIndex, nbx, nby, mkPixel, ofNat_pred h]
  · simp [neighborByIndex, nbx, nby, mkPixel, UInt64.ofNat_add]
  · simp [neighborByIndex, nbx, nby, mkPixel, ofNat_pred h]

theorem neighborIndex_mk {w h x y k : Nat} (hk : HasNb w h x y k)
    (hw : w < 18446744073709551616) (hh : h < 18446744073709551616) :
    neighborIndex (mkPixel x y) (mkPixel (nbx x k) (nby y k)) = UInt64.ofNat k := by
  rw [← neighborByIndex_mk hk]
  obtain ⟨hx, hy, h⟩ := hk
  have e1 : (UInt64.ofNat x).toNat = x := toNat_ofNat_lt (by omega)
  have e2 : (UInt64.ofNat y).toNat = y := toNat_ofNat_lt (by omega)
  rcases h with ⟨rfl, h⟩ | ⟨rfl, h⟩ | ⟨rfl, h⟩ | ⟨rfl, h⟩
  · exact neighborIndex_right
  · exact neighborIndex_left (by simp only [mkPixel, e1]; exact h)
  · exact neighborIndex_down
  · exact neighborIndex_up (by simp only [mkPixel, e2]; exact h)

theorem neighborIndex_mk_opp {w h x y k : Nat} (hk : HasNb w h x y k)
    (hw : w < 18446744073709551616) (hh : h < 18446744073709551616) :
    neighborIndex (mkPixel (nbx x k) (nby y k)) (mkPixel x y) = UInt64.ofNat (opp k) := by
  have := neighborIndex_mk hk.symm hw hh
  rwa [hk.nbx_opp, hk.nby_opp] at this

theorem neighborhoodExistsFast_mk {g : DisparityGraph F} (hg : g.Dims) {x y k : Nat}
    (hx : x < g.w) (hy : y < g.h) (hk : k < 4) :
    neighborhoodExistsFast g (mkPixel x y) (UInt64.ofNat k) = true ↔ HasNb g.w g.h x y k := by
  have hw := toNat_lt' g.right.width
  have hh := toNat_lt' g.right.height
  have e1 : (mkPixel x y).x.toNat = x := toNat_ofNat_lt (by
    have : g.w = g.right.width.toNat := rfl
    omega)
  have e2 : (mkPixel x y).y.toNat = y := toNat_ofNat_lt (by
    have : g.h = g.right.height.toNat := rfl
    omega)
  rw [neighborhoodExistsFast_iff g hg, e1, e2]
  unfold HasNb
  have e (j : Nat) (hj : j < 4) : UInt64.ofNat k = UInt64.ofNat j ↔ k = j :=
    ofNat_inj (by omega) (by omega)
  have e0 := e 0 (by omega)
  have e1 := e 1 (by omega)
  have e2 := e 2 (by omega)
  have e3 := e 3 (by omega)
  simp only [UInt64.reduceOfNat] at e0 e1 e2 e3
  rw [e0, e1, e2, e3]

/-! ## Reading -/

theorem getD_eq {α : Type} {a : Array α} {i : Nat} {v : α} (h : i < a.size) : a.getD i v = a[i] := by
  simp [Array.getD, h]

theorem rd_getD {α : Type} {a : Array α} {k : Nat} {v : α} (hk : k < 18446744073709551616)
    (h : k < a.size) : rd a (UInt64.ofNat k) = .ok (a.getD k v) := by
  rw [rd_ofNat hk h, getD_eq h]

theorem pixelIndex_mk (img : Image) (x y : Nat) :
    pixelIndex img (mkPixel x y) = UInt64.ofNat (pidx img.width.toNat x y) := by
  simp [pixelIndex, mkPixel, pidx, UInt64.ofNat_add, UInt64.ofNat_mul, UInt64.add_comm]

theorem nodeIndex_mk (g : DisparityGraph F) (x y d : Nat) :
    nodeIndex g (mkNode x y d) = UInt64.ofNat (nidx g.h g.levels x y d) := by
  simp [nodeIndex, mkNode, nidx, UInt64.ofNat_add, UInt64.ofNat_mul, DisparityGraph.h,
    DisparityGraph.levels]

theorem neighborhoodIndexFast_mk (g : DisparityGraph F) (x y k : Nat) :
    neighborhoodIndexFast g (mkPixel x y) (UInt64.ofNat k) = UInt64.ofNat (hidx g.h x y k) := by
  simp [neighborhoodIndexFast, mkPixel, hidx, UInt64.ofNat_add, UInt64.ofNat_mul, DisparityGraph.h,
    NEIGHBORS_COUNT]

theorem reparametrizationIndexFast_mk {g : DisparityGraph F} (hg : g.Dims) (x y d k : Nat) :
    reparametrizationIndexFast g (mkNode x y d) (UInt64.ofNat k)
      = UInt64.ofNat (ridx g.h g.levels x y d k) := by
  simp [reparametrizationIndexFast, mkNode, ridx, UInt64.ofNat_add, UInt64.ofNat_mul,
    DisparityGraph.h, DisparityGraph.levels, NEIGHBORS_COUNT, hg.height_eq]
  rw [UInt64.add_comm]
  congr 1
  rw [UInt64.mul_comm]
  congr 1
  rw [UInt64.add_comm]
  congr 1
  rw [UInt64.mul_comm]
  congr 1
  rw [UInt64.add_comm]
  congr 1
  rw [UInt64.mul_comm]

theorem pixelValue_right {g : DisparityGraph F} (hg : g.Valid) {x y : Nat} (hx : x < g.w) (hy : y < g.h) :
    ∃ v, pixelValue g.right (mkPixel x y) = .ok v ∧ v.toNat = g.right.at x y := by
  have hb := hg.bounds
  have hi := pidx_lt hx hy
  have hwh := hb.wh
  refine ⟨_, ?_, rfl⟩
  unfold pixelValue
  rw [pixelIndex_mk]
  refine rd_getD ?_ ?_
  · exact Nat.lt_trans hi hwh
  · rw [hg.right_size]; exact hi

theorem pixelValue_left {g : DisparityGraph F} (hg : g.Valid) {x y : Nat} (hx : x < g.w) (hy : y < g.h) :
    ∃ v, pixelValue g.left (mkPixel x y) = .ok v ∧ v.toNat = g.left.at x y := by
  have hb := hg.bounds
  have hi := pidx_lt hx hy
  have hwh := hb.wh
  refine ⟨_, ?_, rfl⟩
  unfold pixelValue
  rw [pixelIndex_mk, hg.width_eq]
  refine rd_getD ?_ ?_
  · exact Nat.lt_trans hi hwh
  · rw [hg.left_size]; exact hi

variable [FloatOps F]

theorem reparametrizationValueFast_mk {g : DisparityGraph F} (hg : g.Valid) {x y d k : Nat}
    (hx : x < g.w) (hy : y < g.h) (hd : d < g.levels) (hk : k < 4) :
    reparametrizationValueFast g (mkNode x y d) (UInt64.ofNat k) = .ok (g.phi x y d k) := by
  have hi := ridx_lt hx hy hd hk
  unfold reparametrizationValueFast
  rw [reparametrizationIndexFast_mk hg.toDims, rd_getD (Nat.lt_trans hi hg.fits)]
  · rfl
  · rw [hg.rep_size]; exact hi

theorem nodePenalty_mk {g : DisparityGraph F} (hg : g.Valid) {x y d : Nat} (hn : g.IsNode x y d) :
    nodePenalty g (mkNode x y d) = .ok (g.nodeQ x y d) := by
  obtain ⟨hx, hy, hd, hxd⟩ := hn
  obtain ⟨vr, hvr, evr⟩ := pixelValue_right hg hx hy
  obtain ⟨vl, hvl, evl⟩ := pixelValue_left hg hxd hy
  have h0 := reparametrizationValueFast_mk hg hx hy hd (k := 0) (by omega)
  have h1 := reparametrizationValueFast_mk hg hx hy hd (k := 1) (by omega)
  have h2 := reparametrizationValueFast_mk hg hx hy hd (k := 2) (by omega)
  have h3 := reparametrizationValueFast_mk hg hx hy hd (k := 3) (by omega)
  have e : ({ x := (mkPixel x y).x + (mkNode x y d).disparity, y := (mkPixel x y).y } : Pixel)
      = mkPixel (x + d) y := by simp [mkNode, mkPixel, UInt64.ofNat_add]
  have e' : (mkNode x y d).pixel = mkPixel x y := rfl
  unfold nodePenalty
  simp only [e', e, hvr, hvl]
  simp only [UInt64.reduceOfNat] at h0 h1 h2 h3
  simp only [bind_ok, h0, h1, h2, h3, evr, evl]
  rfl

theorem edgePenalty_mk {g : DisparityGraph F} (hg : g.Valid) {x y k d d' : Nat}
    (hk : HasNb g.w g.h x y k) (hd : d < g.levels) (hd' : d' < g.levels) :
    edgePenalty g ⟨mkNode x y d, mkNode (nbx x k) (nby y k) d'⟩ = .ok (g.edgeQ x y k d d') := by
  have hb := hg.bounds
  have h1 := hb.bw
  have h2 := hb.bh
  have h3 := hb.bl
  have e1 : reparametrizationValueSlow g ⟨mkNode x y d, mkNode (nbx x k) (nby y k) d'⟩
      = .ok (g.phi x y d k) := by
    unfold reparametrizationValueSlow reparametrizationIndexSlow
    change rd g.reparametrization (reparametrizationIndexFast g (mkNode x y d)
      (neighborIndex (mkPixel x y) (mkPixel (nbx x k) (nby y k)))) = _
    rw [neighborIndex_mk hk (by omega) (by omega)]
    exact reparametrizationValueFast_mk hg hk.1 hk.2.1 hd hk.lt4
  have e2 : reparametrizationValue g (mkNode (nbx x k) (nby y k) d') (mkNode x y d).pixel
      = .ok (g.phi (nbx x k) (nby y k) d' (opp k)) := by
    unfold reparametrizationValue reparametrizationIndex
    change rd g.reparametrization (reparametrizationIndexFast g (mkNode (nbx x k) (nby y k) d')
      (neighborIndex (mkPixel (nbx x k) (nby y k)) (mkPixel x y))) = _
    rw [neighborIndex_mk_opp hk (by omega) (by omega)]
    exact reparametrizationValueFast_mk hg hk.nbx_lt hk.nby_lt hd' hk.symm.lt4
  unfold edgePenalty
  simp only [e1, e2, bind_ok, pure_eq_ok]
  simp only [mkNode, toNat_ofNat_lt (show d < 18446744073709551616 by omega),
    toNat_ofNat_lt (show d' < 18446744073709551616 by omega)]
  rfl

theorem lowestPixelPenalty_mk {p : LowestPenalties F} (hp : p.Valid) {x y : Nat}
    (hx : x < p.graph.w) (hy : y < p.graph.h) :
    lowestPixelPenalty p (mkPixel x y) = .ok (p.pixelMin x y) := by
  have hi := pidx_lt hx hy
  have hwh := hp.graph.bounds.wh
  unfold lowestPixelPenalty
  rw [pixelIndex_mk]
  change rd _ (UInt64.ofNat (pidx p.graph.w x y)) = _
  rw [rd_getD (v := zero) (Nat.lt_trans hi hwh)]
  · rfl
  · rw [hp.pixels_size]; exact hi

theorem lowestNeighborhoodPenalty_mk {p : LowestPenalties F} (hp : p.Valid) {x y k d d' : Nat}
    (hk : HasNb p.graph.w p.graph.h x y k) :
    lowestNeighborhoodPenalty p ⟨mkNode x y d, mkNode (nbx x k) (nby y k) d'⟩
      = .ok (p.edgeMin x y k) := by
  have hb := hp.graph.bounds
  have h1 := hb.bw
  have h2 := hb.bh
  have hi := hidx_lt hk.1 hk.2.1 hk.lt4
  unfold lowestNeighborhoodPenalty neighborhoodIndexSlow
  change rd p.neighborhoods (neighborhoodIndexFast p.graph (mkPixel x y)
    (neighborIndex (mkPixel x y) (mkPixel (nbx x k) (nby y k)))) = _
  rw [neighborIndex_mk hk (by omega) (by omega), neighborhoodIndexFast_mk,
    rd_getD (v := zero) (Nat.lt_trans hi hb.hw4)]
  · rfl
  · rw [hp.neighborhoods_size]; exact hi

end SP
