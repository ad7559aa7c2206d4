import Verif.Model.Indexing
import Verif.Spec.Penalty
import Verif.Lemmas.Core
/-!
# Index arithmetic
-/
namespace SP
variable {F : Type}

theorem mix_lt {a b m n : Nat} (ha : a < m) (hb : b < n) : b + n * a < n * m := by
  calc b + n * a < n + n * a := by omega
    _ = n * (a + 1) := by rw [Nat.mul_succ]; omega
    _ ≤ n * m := Nat.mul_le_mul_left _ ha

theorem mix_inj {a a' b b' n : Nat} (hb : b < n) (hb' : b' < n) (h : b + n * a = b' + n * a') :
    a = a' ∧ b = b' := by
  have h1 : (b + n * a) / n = (b' + n * a') / n := by rw [h]
  rw [Nat.add_mul_div_left _ _ (by omega), Nat.add_mul_div_left _ _ (by omega),
    Nat.div_eq_of_lt hb, Nat.div_eq_of_lt hb'] at h1
  have : a = a' := by omega
  subst this
  exact ⟨rfl, by omega⟩

theorem mix_surj {k m n : Nat} (h : k < n * m) : ∃ a b, a < m ∧ b < n ∧ b + n * a = k := by
  have hn : 0 < n := Nat.pos_of_ne_zero (by rintro rfl; simp at h)
  exact ⟨k / n, k % n, Nat.div_lt_of_lt_mul h, Nat.mod_lt _ hn, by
    have := Nat.div_add_mod k n; omega⟩


theorem pixelIndex_eq (img : Image) (p : Pixel) :
    pixelIndex img p = UInt64.ofNat (pidx img.width.toNat p.x.toNat p.y.toNat) := by
  simp [pixelIndex, pidx, UInt64.ofNat_add, UInt64.ofNat_mul, UInt64.add_comm]

theorem nodeIndex_eq (g : DisparityGraph F) (n : Node) :
    nodeIndex g n = UInt64.ofNat
      (nidx g.h g.levels n.pixel.x.toNat n.pixel.y.toNat n.disparity.toNat) := by
  simp [nodeIndex, nidx, UInt64.ofNat_add, UInt64.ofNat_mul, DisparityGraph.h, DisparityGraph.levels]

theorem neighborhoodIndexFast_eq (g : DisparityGraph F) (p : Pixel) (k : UInt64) :
    neighborhoodIndexFast g p k = UInt64.ofNat (hidx g.h p.x.toNat p.y.toNat k.toNat) := by
  simp [neighborhoodIndexFast, hidx, UInt64.ofNat_add, UInt64.ofNat_mul, DisparityGraph.h,
    NEIGHBORS_COUNT]

theorem reparametrizationIndexFast_eq (g : DisparityGraph F) (hd : g.left.height = g.right.height)
    (n : Node) (k : UInt64) :
    reparametrizationIndexFast g n k = UInt64.ofNat
      (ridx g.h g.levels n.pixel.x.toNat n.pixel.y.toNat n.disparity.toNat k.toNat) := by
  simp [reparametrizationIndexFast, ridx, UInt64.ofNat_add, UInt64.ofNat_mul, DisparityGraph.h,
    DisparityGraph.levels, NEIGHBORS_COUNT, hd]
  rw [UInt64.add_comm]
  congr 1
  rw [UInt64.mul_comm]
  congr 1
  rw [UInt64.add_comm]
  congr 1
  rw [UInt64.mul_comm]
  congr 1
  rw [UInt64.add_comm]
  congr 1
  rw [UInt64.mul_comm]

theorem pidx_lt {w h x y : Nat} (hx : x < w) (hy : y < h) : pidx w x y < w * h := mix_lt hy hx

theorem nidx_lt {w h l x y d : Nat} (hx : x < w) (hy : y < h) (hd : d < l) :
    nidx h l x y d < w * h * l := by
  have := mix_lt (mix_lt hx hy) hd
  rw [Nat.mul_comm w h, Nat.mul_comm _ l]
  exact this

theorem hidx_lt {w h x y k : Nat} (hx : x < w) (hy : y < h) (hk : k < 4) :
    hidx h x y k < 4 * (h * w) := mix_lt (mix_lt hx hy) hk

theorem ridx_lt {w h l x y d k : Nat} (hx : x < w) (hy : y < h) (hd : d < l) (hk : k < 4) :
    ridx h l x y d k < w * h * 4 * l := by
  have := mix_lt (mix_lt (mix_lt hx hk) hd) hy
  calc _ < _ := this
    _ = w * h * 4 * l := by
      rw [Nat.mul_comm l, ← Nat.mul_assoc, ← Nat.mul_assoc, Nat.mul_comm h 4, Nat.mul_assoc 4,
        Nat.mul_comm h w, Nat.mul_comm 4]

theorem pidx_inj {w x y x' y' : Nat} (hx : x < w) (hx' : x' < w) (h : pidx w x y = pidx w x' y') :
    x = x' ∧ y = y' := (mix_inj hx hx' h).symm

theorem nidx_inj {h l x y d x' y' d' : Nat} (hy : y < h) (hd : d < l) (hy' : y' < h) (hd' : d' < l)
    (he : nidx h l x y d = nidx h l x' y' d') : x = x' ∧ y = y' ∧ d = d' := by
  obtain ⟨h1, h2⟩ := mix_inj hd hd' he
  obtain ⟨h3, h4⟩ := mix_inj hy hy' h1
  exact ⟨h3, h4, h2⟩

theorem hidx_inj {h x y k x' y' k' : Nat} (hy : y < h) (hk : k < 4) (hy' : y' < h) (hk' : k' < 4)
    (he : hidx h x y k = hidx h x' y' k') : x = x' ∧ y = y' ∧ k = k' := by
  obtain ⟨h1, h2⟩ := mix_inj hk hk' he
  obtain ⟨h3, h4⟩ := mix_inj hy hy' h1
  exact ⟨h3, h4, h2⟩

theorem ridx_inj {h l x y d k x' y' d' k' : Nat} (hy : y < h) (hd : d < l) (hk : k < 4)
    (hy' : y' < h) (hd' : d' < l) (hk' : k' < 4)
    (he : ridx h l x y d k = ridx h l x' y' d' k') : x = x' ∧ y = y' ∧ d = d' ∧ k = k' := by
  obtain ⟨h1, h2⟩ := mix_inj hy hy' he
  obtain ⟨h3, h4⟩ := mix_inj hd hd' h1
  obtain ⟨h5, h6⟩ := mix_inj hk hk' h3
  exact ⟨h5, h2, h4, h6⟩

theorem nidx_surj {w h l i : Nat} (hi : i < w * h * l) :
    ∃ x y d, x < w ∧ y < h ∧ d < l ∧ nidx h l x y d = i := by
  rw [Nat.mul_comm _ l, Nat.mul_comm w h] at hi
  obtain ⟨a, d, ha, hd, he⟩ := mix_surj hi
  obtain ⟨x, y, hx, hy, he'⟩ := mix_surj ha
  exact ⟨x, y, d, hx, hy, hd, by simp [nidx, he', he]⟩

theorem hidx_surj {w h i : Nat} (hi : i < 4 * (h * w)) :
    ∃ x y k, x < w ∧ y < h ∧ k < 4 ∧ hidx h x y k = i := by
  obtain ⟨a, d, ha, hd, he⟩ := mix_surj hi
  obtain ⟨x, y, hx, hy, he'⟩ := mix_surj ha
  exact ⟨x, y, d, hx, hy, hd, by simp [hidx, he', he]⟩

theorem ridx_surj {w h l i : Nat} (hi : i < w * h * 4 * l) :
    ∃ x y d k, x < w ∧ y < h ∧ d < l ∧ k < 4 ∧ ridx h l x y d k = i := by
  have hi' : i < h * (l * (4 * w)) := by
    calc _ < _ := hi
      _ = h * (l * (4 * w)) := by
        rw [Nat.mul_comm l, ← Nat.mul_assoc, ← Nat.mul_assoc, Nat.mul_comm h 4, Nat.mul_assoc 4,
          Nat.mul_comm h w, Nat.mul_comm 4]
  obtain ⟨a, y, ha, hy, he⟩ := mix_surj hi'
  obtain ⟨b, d, hb, hd, he'⟩ := mix_surj ha
  obtain ⟨x, k, hx, hk, he''⟩ := mix_surj hb
  exact ⟨x, y, d, k, hx, hy, hd, hk, by simp [ridx, he'', he', he]⟩

theorem neighborhoodExistsFast_iff (g : DisparityGraph F) (hg : g.Dims) (p : Pixel) (k : UInt64) :
    neighborhoodExistsFast g p k = true ↔
      p.x.toNat < g.w ∧ p.y.toNat < g.h ∧
      ((k = 0 ∧ p.x.toNat + 1 < g.w) ∨ (k = 1 ∧ 0 < p.x.toNat) ∨
       (k = 2 ∧ p.y.toNat + 1 < g.h) ∨ (k = 3 ∧ 0 < p.y.toNat)) := by
  have h1 := toNat_lt' g.right.width
  have h2 := toNat_lt' g.right.height
  have h3 := toNat_lt' p.x
  have h4 := toNat_lt' p.y
  have h5 := toNat_lt' k
  have h6 := hg.width_pos
  have h7 := hg.height_pos
  simp only [neighborhoodExistsFast, hg.width_eq, hg.height_eq, DisparityGraph.w, DisparityGraph.h,
    Bool.not_eq_true', Bool.or_eq_false_iff, Bool.and_eq_false_iff, decide_eq_false_iff_not,
    UInt64.lt_iff_toNat_lt, UInt64.le_iff_toNat_le, ← UInt64.toNat_inj, UInt64.toNat_add, gt_iff_lt,
    ge_iff_le, UInt64.reduceToNat] at *
  omega

theorem add_one_eq_iff {a b : UInt64} (h : a.toNat + 1 < 18446744073709551616) :
    a + 1 = b ↔ a.toNat + 1 = b.toNat := by
  rw [← UInt64.toNat_inj, UInt64.toNat_add]; simp; omega

theorem eq_add_one_iff {a b : UInt64} (h : a.toNat + 1 < 18446744073709551616) :
    b = a + 1 ↔ b.toNat = a.toNat + 1 := by
  rw [← UInt64.toNat_inj, UInt64.toNat_add]; simp; omega

theorem neighborIndex_right {p : Pixel} :
    neighborIndex p ⟨p.x + 1, p.y⟩ = 0 := by
  simp [neighborIndex]

theorem neighborIndex_left {p : Pixel} (_h : 0 < p.x.toNat) : neighborIndex p ⟨p.x - 1, p.y⟩ = 1 := by
  have h3 := toNat_lt' p.x
  have : ¬ (p.x + 1 = p.x - 1) := by
    rw [← UInt64.toNat_inj, UInt64.toNat_add, UInt64.toNat_sub]; simp; omega
  simp [neighborIndex, this]

theorem neighborIndex_down {p : Pixel} :
    neighborIndex p ⟨p.x, p.y + 1⟩ = 2 := by
  simp [neighborIndex]

theorem neighborIndex_up {p : Pixel} (_h : 0 < p.y.toNat) : neighborIndex p ⟨p.x, p.y - 1⟩ = 3 := by
  have h3 := toNat_lt' p.y
  have : ¬ (p.y + 1 = p.y - 1) := by
    rw [← UInt64.toNat_inj, UInt64.toNat_add, UInt64.toNat_sub]; simp; omega
  simp [neighborIndex, this]

theorem StraightNeighbors.symm {p q : Pixel} (h : StraightNeighbors p q) : StraightNeighbors q p := by
  unfold StraightNeighbors at *
  rcases h with ⟨h, h' | h'⟩ | ⟨h, h' | h'⟩
  · exact .inl ⟨h.symm, .inr h'⟩
  · exact .inl ⟨h.symm, .inl h'⟩
  · exact .inr ⟨h.symm, .inr h'⟩
  · exact .inr ⟨h.symm, .inl h'⟩

theorem EdgeIn.reverse {g : DisparityGraph F} {e : Edge} (h : EdgeIn g e) : EdgeIn g e.reverse :=
  ⟨h.2.1, h.1, h.2.2.1.symm, h.2.2.2.2, h.2.2.2.1⟩

end SP
