import Verif.Lemmas.IeeeSpec
import Verif.Lemmas.TransferWorld
import Mathlib.Tactic.GCongr
/-!
# How far rounded penalties are from exact ones
-/
namespace SP
open FloatOps

theorem roundEven_half (q : ℚ) : |q - roundEven q| ≤ 1 / 2 := by
  have h1 : (⌊q⌋ : ℚ) ≤ q := Int.floor_le q
  have h2 : q < ⌊q⌋ + 1 := Int.lt_floor_add_one q
  unfold roundEven
  split_ifs with c1 c2 c3
  · rw [abs_of_nonneg (by linarith)]; linarith
  · push_cast; rw [abs_of_nonpos (by linarith)]; linarith
  · rw [abs_of_nonneg (by linarith)]; linarith
  · push_cast; rw [abs_of_nonpos (by linarith)]; linarith

namespace Format
variable {fmt : Format}

/-- The largest relative error. -/
def unit (fmt : Format) : ℚ := 1 / 2 ^ fmt.digits

theorem unit_nonneg : 0 ≤ fmt.unit := by unfold unit; positivity

/-- Numbers that are not too small have a small relative error. -/
theorem nearest_error {v : ℚ} (hv : 1 ≤ v) : |fmt.nearest v - v| ≤ fmt.unit * v := by
  have hpos : 0 < v := by linarith
  have hlog : 0 ≤ Int.log 2 v := by
    have := Int.log_mono_right (b := 2) (R := ℚ) one_pos hv
    rwa [Int.log_one_right] at this
  have hd : lastDigit fmt.digits fmt.least v = Int.log 2 v + 1 - fmt.digits := by
    have := fmt.least_le
    unfold lastDigit
    omega
  have e : fmt.nearest v = roundEven (v / 2 ^ lastDigit fmt.digits fmt.least v) * 2 ^ lastDigit fmt.digits fmt.least v := rfl
  rw [abs_sub_comm, e, scaled]
  calc _ ≤ 1 / 2 * (2 : ℚ) ^ lastDigit fmt.digits fmt.least v := mul_le_mul_of_nonneg_right (roundEven_half _) (two_zpow_pos _).le
    _ = fmt.unit * 2 ^ Int.log 2 v := by
        rw [hd, unit, zpow_sub₀ (by norm_num), zpow_add₀ (by norm_num), zpow_natCast, zpow_one]
        field_simp
    _ ≤ fmt.unit * v := mul_le_mul_of_nonneg_left (pow_log_le hpos) unit_nonneg

/-- Integers that do not overflow. -/
theorem round_error {k : ℕ} (hk : k < fmt.top) {n : ℤ} (hn : |n| ≤ 2 ^ k) :
    ∃ m : ℤ, (fmt.rounding.round n).1 = m ∧ |m| ≤ 2 ^ k ∧ |(m : ℚ) - n| ≤ fmt.unit * |(n : ℚ)| := by
  obtain ⟨-, m, hm, hmk⟩ := Ieee.rounded_int (.refl fmt hk) n hn le_rfl
  refine ⟨m, hm, hmk, ?_⟩
  rw [← hm]
  have hq : |(n : ℚ)| ≤ 2 ^ k := by rw [← Int.cast_abs]; exact_mod_cast hn
  have hval : (fmt.rounding.round n).1 = fmt.near n :=
    Format.toFinite_eq (by rw [fmt.abs_near]; exact (Format.nearest_le (abs_nonneg _) hq).trans (fmt.pow_le_largest hk))
  rw [hval]
  rcases eq_or_ne n 0 with rfl | h0
  · rw [Int.cast_zero, show fmt.near 0 = 0 by unfold near; rw [toNearest_nonneg le_rfl, nearest_zero]]
    simp
  have h1 : (1 : ℚ) ≤ |(n : ℚ)| := by
    rw [← Int.cast_abs]
    exact_mod_cast Int.one_le_abs h0
  have herr := nearest_error (fmt := fmt) h1
  rcases le_or_gt 0 (n : ℚ) with h | h
  · rw [abs_of_nonneg h] at herr ⊢
    rwa [show fmt.near (n : ℚ) = fmt.nearest n from toNearest_nonneg h]
  · rw [abs_of_neg h] at herr ⊢
    rw [show fmt.near (n : ℚ) = - fmt.nearest (-n) from toNearest_nonpos h.le, abs_sub_comm, sub_neg_eq_add, add_comm]
    rwa [sub_neg_eq_add] at herr

theorem sub_error {k : ℕ} (hk : k < fmt.top) {a b : fmt.Num} {m n : ℤ} (ha : a.1 = m) (hb : b.1 = n) (h : |m - n| ≤ 2 ^ k) :
    ∃ d : ℤ, (sub a b).1 = d ∧ |d| ≤ 2 ^ k ∧ |(d : ℚ) - (m - n)| ≤ fmt.unit * |(m : ℚ) - n| := by
  obtain ⟨d, h1, h2, h3⟩ := round_error hk h
  push_cast at h1 h3
  refine ⟨d, ?_, h2, h3⟩
  show (fmt.rounding.round (a.1 - b.1)).1 = d
  rw [ha, hb]
  exact h1

theorem mul_error {k : ℕ} (hk : k < fmt.top) {a b : fmt.Num} {m n : ℤ} (ha : a.1 = m) (hb : b.1 = n) (h : |m * n| ≤ 2 ^ k) :
    ∃ d : ℤ, (mul a b).1 = d ∧ |d| ≤ 2 ^ k ∧ |(d : ℚ) - m * n| ≤ fmt.unit * |(m : ℚ) * n| := by
  obtain ⟨d, h1, h2, h3⟩ := round_error hk h
  push_cast at h1 h3
  refine ⟨d, ?_, h2, h3⟩
  show (fmt.rounding.round (a.1 * b.1)).1 = d
  rw [ha, hb]
  exact h1

theorem ofNat_error {k : ℕ} (hk : k < fmt.top) {n : ℕ} (h : n ≤ 2 ^ k) :
    ∃ m : ℤ, (ofNat n : fmt.Num).1 = m ∧ 0 ≤ m ∧ m ≤ 2 ^ k ∧ |(m : ℚ) - n| ≤ fmt.unit * n := by
  obtain ⟨m, h1, h2, h3⟩ := round_error hk (n := n) (by rw [Nat.abs_cast]; exact_mod_cast h)
  push_cast at h1 h3
  rw [Nat.abs_cast] at h3
  refine ⟨m, h1, ?_, (abs_le.1 h2).2, h3⟩
  have : (0 : ℚ) ≤ m := h1 ▸ fmt.rounding.rnd_nonneg (Nat.cast_nonneg n)
  exact_mod_cast this

/-- Errors of each step. -/
theorem chain {ε U w x A B D S W p u v : ℚ} (h0 : 0 ≤ ε) (h1 : 16 * ε ≤ 1) (hU : 0 ≤ U) (hw : 0 ≤ w) (hx : x = u - v) (hxU : |x| ≤ U)
    (hA : |A - u| ≤ ε * U) (hB : |B - v| ≤ ε * U) (hD : |D - (A - B)| ≤ ε * |A - B|) (hS : |S - D * D| ≤ ε * |D * D|)
    (hW : |W - w| ≤ ε * w) (hp : |p - W * S| ≤ ε * |W * S|) : |p - w * x ^ 2| ≤ 15 * ε * (w * U ^ 2) := by
  have hε : ε ≤ 1 := by linarith
  have hεε : ε * ε ≤ ε / 16 := by nlinarith
  -- differences
  have a1 : |A - B| ≤ (1 + 2 * ε) * U := by
    calc |A - B| = |(A - u) + x - (B - v)| := by rw [hx]; congr 1; ring
      _ ≤ |A - u| + |x| + |B - v| := (abs_sub _ _).trans (add_le_add_left (abs_add_le _ _) _)
      _ ≤ (1 + 2 * ε) * U := by linarith
  have hU2 : 0 ≤ U ^ 2 := by positivity
  have hwU : 0 ≤ w * U ^ 2 := mul_nonneg hw hU2
  have bU : ε * ε * U ≤ ε / 16 * U := mul_le_mul_of_nonneg_right hεε hU
  have bU2 : ε * ε * U ^ 2 ≤ ε / 16 * U ^ 2 := mul_le_mul_of_nonneg_right hεε hU2
  have bw : ε * ε * (w * U ^ 2) ≤ ε / 16 * (w * U ^ 2) := mul_le_mul_of_nonneg_right hεε hwU
  have εU : 0 ≤ ε * U := mul_nonneg h0 hU
  have εU2 : 0 ≤ ε * U ^ 2 := mul_nonneg h0 hU2
  have εw : 0 ≤ ε * (w * U ^ 2) := mul_nonneg h0 hwU
  have a2 : |D - x| ≤ 4 * ε * U := by
    have hD' : |D - (A - B)| ≤ ε * ((1 + 2 * ε) * U) := hD.trans (mul_le_mul_of_nonneg_left a1 h0)
    calc |D - x| = |(D - (A - B)) + (A - u) - (B - v)| := by rw [hx]; congr 1; ring
      _ ≤ |D - (A - B)| + |A - u| + |B - v| := (abs_sub _ _).trans (add_le_add_left (abs_add_le _ _) _)
      _ ≤ 4 * ε * U := by linarith
  -- squares
  have hx2 : |x ^ 2| ≤ U ^ 2 := by
    rw [abs_pow]
    exact pow_le_pow_left₀ (abs_nonneg _) hxU 2
  have a3 : |D * D - x ^ 2| ≤ 9 * ε * U ^ 2 := by
    have hs : |D - x + 2 * x| ≤ 4 * ε * U + 2 * U := by
      refine (abs_add_le _ _).trans ?_
      rw [abs_mul, abs_two]
      linarith
    calc |D * D - x ^ 2| = |D - x| * |D - x + 2 * x| := by rw [← abs_mul]; congr 1; ring
      _ ≤ (4 * ε * U) * (4 * ε * U + 2 * U) := mul_le_mul a2 hs (abs_nonneg _) (by linarith)
      _ = 16 * (ε * ε * U ^ 2) + 8 * (ε * U ^ 2) := by ring
      _ ≤ 9 * ε * U ^ 2 := by linarith
  have a4 : |D * D| ≤ (1 + 9 * ε) * U ^ 2 := by
    calc |D * D| = |(D * D - x ^ 2) + x ^ 2| := by congr 1; ring
      _ ≤ |D * D - x ^ 2| + |x ^ 2| := abs_add_le _ _
      _ ≤ (1 + 9 * ε) * U ^ 2 := by linarith
  have a5 : |S - x ^ 2| ≤ 11 * ε * U ^ 2 := by
    have hS' : |S - D * D| ≤ ε * ((1 + 9 * ε) * U ^ 2) := hS.trans (mul_le_mul_of_nonneg_left a4 h0)
    calc |S - x ^ 2| = |(S - D * D) + (D * D - x ^ 2)| := by congr 1; ring
      _ ≤ |S - D * D| + |D * D - x ^ 2| := abs_add_le _ _
      _ ≤ 11 * ε * U ^ 2 := by linarith
  have a6 : |S| ≤ (1 + 11 * ε) * U ^ 2 := by
    calc |S| = |(S - x ^ 2) + x ^ 2| := by congr 1; ring
      _ ≤ |S - x ^ 2| + |x ^ 2| := abs_add_le _ _
      _ ≤ (1 + 11 * ε) * U ^ 2 := by linarith
  -- products
  have a7 : |W * S - w * x ^ 2| ≤ 13 * ε * (w * U ^ 2) := by
    calc |W * S - w * x ^ 2| = |(W - w) * S + w * (S - x ^ 2)| := by congr 1; ring
      _ ≤ |W - w| * |S| + w * |S - x ^ 2| := by
          refine (abs_add_le _ _).trans ?_
          rw [abs_mul, abs_mul, abs_of_nonneg hw]
      _ ≤ (ε * w) * ((1 + 11 * ε) * U ^ 2) + w * (11 * ε * U ^ 2) :=
          add_le_add (mul_le_mul hW a6 (abs_nonneg _) (mul_nonneg h0 hw)) (mul_le_mul_of_nonneg_left a5 hw)
      _ = 12 * (ε * (w * U ^ 2)) + 11 * (ε * ε * (w * U ^ 2)) := by ring
      _ ≤ 13 * ε * (w * U ^ 2) := by linarith
  have a8 : |W * S| ≤ (1 + 13 * ε) * (w * U ^ 2) := by
    have hwx : |w * x ^ 2| ≤ w * U ^ 2 := by
      rw [abs_mul, abs_of_nonneg hw]
      exact mul_le_mul_of_nonneg_left hx2 hw
    calc |W * S| = |(W * S - w * x ^ 2) + w * x ^ 2| := by congr 1; ring
      _ ≤ |W * S - w * x ^ 2| + |w * x ^ 2| := abs_add_le _ _
      _ ≤ (1 + 13 * ε) * (w * U ^ 2) := by linarith
  have hp' : |p - W * S| ≤ ε * ((1 + 13 * ε) * (w * U ^ 2)) := hp.trans (mul_le_mul_of_nonneg_left a8 h0)
  calc |p - w * x ^ 2| = |(p - W * S) + (W * S - w * x ^ 2)| := by congr 1; ring
    _ ≤ |p - W * S| + |W * S - w * x ^ 2| := abs_add_le _ _
    _ ≤ 15 * ε * (w * U ^ 2) := by linarith

/-- Computed penalties are integers and are close to exact ones. -/
theorem penalty_error {k : ℕ} (hk : k < fmt.top) (hd : 4 ≤ fmt.digits) {a b w u v U : ℕ} (hab : a + 2 * b ≤ k) (hw : w ≤ 2 ^ a) (hU : U ≤ 2 ^ b)
    (hu : u ≤ U) (hv : v ≤ U) :
    ∃ p : ℤ, (mul (ofNat w) (sqr (sub (ofNat u) (ofNat v))) : fmt.Num).1 = p ∧ 0 ≤ p ∧ p ≤ 2 ^ k ∧
      |(p : ℚ) - w * ((u : ℚ) - v) ^ 2| ≤ 15 * fmt.unit * (w * (U : ℚ) ^ 2) := by
  have hpow : ∀ {i j : ℕ}, i ≤ j → (2 : ℤ) ^ i ≤ 2 ^ j := fun h => pow_le_pow_right₀ (by norm_num) h
  obtain ⟨A, eA, A0, A1, hA⟩ := ofNat_error (fmt := fmt) (k := b) (by omega) (hu.trans hU)
  obtain ⟨B, eB, B0, B1, hB⟩ := ofNat_error (fmt := fmt) (k := b) (by omega) (hv.trans hU)
  obtain ⟨D, eD, D1, hD⟩ := sub_error (k := b) (by omega) eA eB (by rw [abs_le]; constructor <;> omega)
  have hDD : |D * D| ≤ 2 ^ (2 * b) := by
    rw [abs_mul, two_mul, pow_add]
    exact mul_le_mul D1 D1 (abs_nonneg _) (by positivity)
  obtain ⟨S, eS, S1, hS⟩ := mul_error (k := 2 * b) (by omega) eD eD hDD
  obtain ⟨W, eW, W0, W1, hW⟩ := ofNat_error (fmt := fmt) (k := a) (by omega) hw
  have hWS : |W * S| ≤ 2 ^ k := by
    refine le_trans ?_ (hpow hab)
    rw [abs_mul, pow_add, abs_of_nonneg W0]
    exact mul_le_mul W1 S1 (abs_nonneg _) (by positivity)
  obtain ⟨p, ep, p1, hp⟩ := mul_error hk eW eS hWS
  have hS0 : 0 ≤ S := by
    have : (0 : ℚ) ≤ S := by
      rw [← eS]
      exact fmt.rounding.rnd_nonneg (mul_self_nonneg _)
    exact_mod_cast this
  refine ⟨p, ep, ?_, (abs_le.1 p1).2, ?_⟩
  · have : (0 : ℚ) ≤ p := by
      rw [← ep]
      refine fmt.rounding.rnd_nonneg ?_
      refine mul_nonneg ?_ ?_
      · rw [eW]; exact_mod_cast W0
      · show 0 ≤ (mul _ _ : fmt.Num).1
        rw [eS]
        exact_mod_cast hS0
    exact_mod_cast this
  · have hu' : (u : ℚ) ≤ U := by exact_mod_cast hu
    have hv' : (v : ℚ) ≤ U := by exact_mod_cast hv
    have h16 : 16 * fmt.unit ≤ 1 := by
      have : (2 : ℚ) ^ 4 ≤ 2 ^ fmt.digits := pow_le_pow_right₀ (by norm_num) hd
      unfold unit
      rw [mul_one_div, div_le_one (by positivity)]
      linarith
    refine chain unit_nonneg h16 (Nat.cast_nonneg U) (Nat.cast_nonneg w) rfl ?_ (hA.trans (mul_le_mul_of_nonneg_left hu' unit_nonneg))
      (hB.trans (mul_le_mul_of_nonneg_left hv' unit_nonneg)) hD hS hW hp
    have := Nat.cast_nonneg (α := ℚ) u
    have := Nat.cast_nonneg (α := ℚ) v
    rw [abs_le]
    constructor <;> linarith

/-- Differences of computed penalties. -/
theorem difference_error {k : ℕ} (hk : k < fmt.top) (hd : 5 ≤ fmt.digits) {a b : fmt.Num} {p q : ℤ} {e f m : ℚ} (ha : a.1 = p) (hb : b.1 = q)
    (hp0 : 0 ≤ p) (hq0 : 0 ≤ q) (hp : p ≤ 2 ^ k) (hq : q ≤ 2 ^ k) (he0 : 0 ≤ e) (hf0 : 0 ≤ f) (he : e ≤ m) (hf : f ≤ m)
    (h1 : |(p : ℚ) - e| ≤ 15 * fmt.unit * m) (h2 : |(q : ℚ) - f| ≤ 15 * fmt.unit * m) :
    ∃ d : ℤ, (sub a b).1 = d ∧ |(d : ℚ) - (e - f)| ≤ 32 * fmt.unit * m := by
  obtain ⟨d, hd1, -, hd2⟩ := sub_error hk ha hb (by rw [abs_le]; constructor <;> omega)
  refine ⟨d, hd1, ?_⟩
  have h0 := unit_nonneg (fmt := fmt)
  have h32 : 32 * fmt.unit ≤ 1 := by
    have : (2 : ℚ) ^ 5 ≤ 2 ^ fmt.digits := pow_le_pow_right₀ (by norm_num) hd
    unfold unit
    rw [mul_one_div, div_le_one (by positivity)]
    linarith
  have hm : 0 ≤ m := he0.trans he
  have hef : |e - f| ≤ m := by rw [abs_le]; constructor <;> linarith
  have hpq : |(p : ℚ) - q| ≤ m + 30 * fmt.unit * m := by
    calc |(p : ℚ) - q| = |((p : ℚ) - e) + (e - f) - ((q : ℚ) - f)| := by congr 1; ring
      _ ≤ |(p : ℚ) - e| + |e - f| + |(q : ℚ) - f| := (abs_sub _ _).trans (add_le_add_left (abs_add_le _ _) _)
      _ ≤ m + 30 * fmt.unit * m := by linarith
  have hum : fmt.unit * m * (32 * fmt.unit) ≤ fmt.unit * m * 1 := mul_le_mul_of_nonneg_left h32 (mul_nonneg h0 hm)
  have hb : fmt.unit * |(p : ℚ) - q| ≤ 2 * fmt.unit * m := by
    have := mul_le_mul_of_nonneg_left hpq h0
    have h5 : 0 ≤ fmt.unit * m * fmt.unit := mul_nonneg (mul_nonneg h0 hm) h0
    linarith
  calc |(d : ℚ) - (e - f)| = |((d : ℚ) - (p - q)) + ((p : ℚ) - e) - ((q : ℚ) - f)| := by congr 1; ring
    _ ≤ |(d : ℚ) - (p - q)| + |(p : ℚ) - e| + |(q : ℚ) - f| := (abs_sub _ _).trans (add_le_add_left (abs_add_le _ _) _)
    _ ≤ 32 * fmt.unit * m := by linarith

end Format

/-! ## Labelings -/

section
variable {F : Type} [FloatOps F]

/-- What is compared with the threshold. -/
inductive DisparityGraph.Gap (g : DisparityGraph F) (L : Nat → Nat → Nat) : F → F → Prop
  | node (x y d : Nat) (hx : x < g.w) (hy : y < g.h) (hL : g.IsNode x y (L x y)) (hd : g.IsNode x y d) : Gap g L (g.nodeQ x y (L x y)) (g.nodeQ x y d)
  | edge (x y k d d' : Nat) (hx : x < g.w) (hy : y < g.h) (hk : HasNb g.w g.h x y k) (hL : g.IsEdge x y k (L x y) (L (nbx x k) (nby y k)))
    (hd : g.IsEdge x y k d d') : Gap g L (g.edgeQ x y k (L x y) (L (nbx x k) (nby y k))) (g.edgeQ x y k d d')

/-- Chosen nodes and edges exist. -/
def DisparityGraph.Placed (g : DisparityGraph F) (L : Nat → Nat → Nat) : Prop :=
  ∀ x y, x < g.w → y < g.h → g.IsNode x y (L x y) ∧ ∀ k, HasNb g.w g.h x y k → g.IsEdge x y k (L x y) (L (nbx x k) (nby y k))

theorem DisparityGraph.feasible_iff (g : DisparityGraph F) (t : F) (L : Nat → Nat → Nat) :
    g.FeasibleAt t L ↔ g.Placed L ∧ ∀ a b, g.Gap L a b → le (sub a b) t = true := by
  constructor
  · intro h
    refine ⟨fun x y hx hy => ⟨(h x y hx hy).1, fun k hk => ((h x y hx hy).2.2 k hk).1⟩, ?_⟩
    rintro _ _ (⟨x, y, d, hx, hy, hL, hd⟩ | ⟨x, y, k, d, d', hx, hy, hk, hL, hd⟩)
    · exact (h x y hx hy).2.1 d hd
    · exact ((h x y hx hy).2.2 k hk).2 d d' hd
  · rintro ⟨h1, h2⟩ x y hx hy
    obtain ⟨h3, h4⟩ := h1 x y hx hy
    exact ⟨h3, fun d hd => h2 _ _ (.node x y d hx hy h3 hd), fun k hk => ⟨h4 k hk, fun d d' hd => h2 _ _ (.edge x y k d d' hx hy hk (h4 k hk) hd)⟩⟩

variable {left right : Image} {levels : UInt64} {c s : F}

theorem fresh_phi (x y d k : Nat) : (freshGraph left right levels c s).phi x y d k = zero := by
  unfold DisparityGraph.phi freshGraph
  simp only [Array.getD_eq_getD_getElem?, Array.getElem?_replicate]
  split <;> rfl

theorem fresh_nodeQ [LawfulFloat F] (x y d : Nat) : (freshGraph left right levels c s).nodeQ x y d = mul c (sqr (sub (ofNat (right.at x y)) (ofNat (left.at (x + d) y)))) := by
  unfold DisparityGraph.nodeQ
  simp only [fresh_phi, LawfulFloat.add_zero]
  rfl

theorem fresh_edgeQ [LawfulFloat F] (x y k d d' : Nat) : (freshGraph left right levels c s).edgeQ x y k d d' = mul s (sqr (sub (ofNat d) (ofNat d'))) := by
  unfold DisparityGraph.edgeQ
  simp only [fresh_phi, LawfulFloat.sub_zero]
  rfl

end

section
variable {fmt : Format} {k : ℕ} {left right : Image} {levels : UInt64} {c s U : ℕ}

/-- The largest exact penalty is at most this. -/
def largestPenalty (U : ℕ) (levels : UInt64) (c s : ℕ) : ℚ := max (c * (U : ℚ) ^ 2) (s * (levels.toNat : ℚ) ^ 2)

/-- Differences of penalties in both arithmetics. -/
theorem differences_error (hk : k < fmt.top) (hd : 5 ≤ fmt.digits) {M : ℚ} {a i w V u v u' v' : ℕ} (hi : a + 2 * i ≤ k) (hw : w ≤ 2 ^ a) (hV : V ≤ 2 ^ i)
    (hu : u ≤ V) (hv : v ≤ V) (hu' : u' ≤ V) (hv' : v' ≤ V) (hM : (w : ℚ) * (V : ℚ) ^ 2 ≤ M) : ∃ d : ℤ,
      (sub (mul (ofNat w) (sqr (sub (ofNat u) (ofNat v)))) (mul (ofNat w) (sqr (sub (ofNat u') (ofNat v')))) : fmt.Num).1 = d ∧
      |(d : ℚ) - (mul (ofNat w) (sqr (sub (ofNat u) (ofNat v))) - mul (ofNat w) (sqr (sub (ofNat u') (ofNat v'))))| ≤ 32 * fmt.unit * M := by
  have hsq : ∀ {u v V : ℕ}, u ≤ V → v ≤ V → ((u : ℚ) - v) ^ 2 ≤ (V : ℚ) ^ 2 := by
    intro u v V hu hv
    have hu' : (u : ℚ) ≤ V := by exact_mod_cast hu
    have hv' : (v : ℚ) ≤ V := by exact_mod_cast hv
    have := Nat.cast_nonneg (α := ℚ) u
    have := Nat.cast_nonneg (α := ℚ) v
    rw [← sq_abs]
    refine pow_le_pow_left₀ (abs_nonneg _) ?_ 2
    rw [abs_le]
    constructor <;> linarith
  obtain ⟨p, p1, p2, p3, p4⟩ := Format.penalty_error hk (by omega) hi hw hV hu hv
  obtain ⟨q, q1, q2, q3, q4⟩ := Format.penalty_error hk (by omega) hi hw hV hu' hv'
  have hw0 : (0 : ℚ) ≤ w := Nat.cast_nonneg w
  have h15 : 15 * fmt.unit * (w * (V : ℚ) ^ 2) ≤ 15 * fmt.unit * M :=
    mul_le_mul_of_nonneg_left hM (mul_nonneg (by norm_num) Format.unit_nonneg)
  obtain ⟨d, d1, d2⟩ := Format.difference_error hk hd p1 q1 p2 q2 p3 q3 (e := w * ((u : ℚ) - v) ^ 2) (f := w * ((u' : ℚ) - v') ^ 2)
    (mul_nonneg hw0 (sq_nonneg _)) (mul_nonneg hw0 (sq_nonneg _)) ((mul_le_mul_of_nonneg_left (hsq hu hv) hw0).trans hM)
    ((mul_le_mul_of_nonneg_left (hsq hu' hv') hw0).trans hM) (p4.trans h15) (q4.trans h15)
  refine ⟨d, d1, ?_⟩
  rw [sq, sq] at d2
  exact d2

/-- Differences of penalties of nodes. -/
theorem node_error (hk : k < fmt.top) (hd : 5 ≤ fmt.digits) {a b : ℕ} (hab : a + 2 * b ≤ k) (hc : c ≤ 2 ^ a) (hU : U ≤ 2 ^ b)
    (hl : ∀ x y, left.at x y ≤ U) (hr : ∀ x y, right.at x y ≤ U) (x y d d' : ℕ) :
    ∃ D : ℤ, (sub ((freshGraph left right levels (ofNat c : fmt.Num) (ofNat s)).nodeQ x y d)
      ((freshGraph left right levels (ofNat c : fmt.Num) (ofNat s)).nodeQ x y d')).1 = D ∧
      |(D : ℚ) - ((freshGraph left right levels (ofNat c : ℚ) (ofNat s)).nodeQ x y d - (freshGraph left right levels (ofNat c : ℚ) (ofNat s)).nodeQ x y d')| ≤
        32 * fmt.unit * largestPenalty U levels c s := by
  simp only [fresh_nodeQ]
  exact differences_error hk hd hab hc hU (hr x y) (hl _ y) (hr x y) (hl _ y) (le_max_left _ _)

/-- What is compared with the threshold, in both arithmetics. -/
theorem gap_error (hk : k < fmt.top) (hd : 5 ≤ fmt.digits) {a b b' : ℕ} (hab : a + 2 * b ≤ k) (hab' : a + 2 * b' ≤ k) (hc : c ≤ 2 ^ a) (hs : s ≤ 2 ^ a)
    (hU : U ≤ 2 ^ b) (hlev : levels.toNat ≤ 2 ^ b') (hl : ∀ x y, left.at x y ≤ U) (hr : ∀ x y, right.at x y ≤ U) {L : Nat → Nat → Nat} :
    (∀ p q, (freshGraph left right levels (ofNat c : fmt.Num) (ofNat s)).Gap L p q → ∃ (d : ℤ) (e f : ℚ),
      (freshGraph left right levels (ofNat c : ℚ) (ofNat s)).Gap L e f ∧ (sub p q).1 = d ∧
      |(d : ℚ) - (e - f)| ≤ 32 * fmt.unit * largestPenalty U levels c s) ∧
    ∀ e f, (freshGraph left right levels (ofNat c : ℚ) (ofNat s)).Gap L e f → ∃ p q,
      (freshGraph left right levels (ofNat c : fmt.Num) (ofNat s)).Gap L p q ∧ ∃ d : ℤ, (sub p q).1 = d ∧
      |(d : ℚ) - (e - f)| ≤ 32 * fmt.unit * largestPenalty U levels c s := by
  have hnode := node_error (levels := levels) (s := s) hk hd hab hc hU hl hr
  have hedge : ∀ x y j d d' e e', d < levels.toNat → d' < levels.toNat → e < levels.toNat → e' < levels.toNat →
      ∃ D : ℤ, (sub ((freshGraph left right levels (ofNat c : fmt.Num) (ofNat s)).edgeQ x y j d d')
      ((freshGraph left right levels (ofNat c : fmt.Num) (ofNat s)).edgeQ x y j e e')).1 = D ∧
      |(D : ℚ) - ((freshGraph left right levels (ofNat c : ℚ) (ofNat s)).edgeQ x y j d d' - (freshGraph left right levels (ofNat c : ℚ) (ofNat s)).edgeQ x y j e e')| ≤
        32 * fmt.unit * largestPenalty U levels c s := by
    intro x y j d d' e e' h1 h2 h3 h4
    simp only [fresh_edgeQ]
    exact differences_error hk hd hab' hs hlev h1.le h2.le h3.le h4.le (le_max_right _ _)
  constructor
  · rintro _ _ (⟨x, y, d, hx, hy, hL, hd⟩ | ⟨x, y, j, d, d', hx, hy, hj, hL, hd⟩)
    · obtain ⟨D, h1, h2⟩ := hnode x y (L x y) d
      exact ⟨D, _, _, .node x y d hx hy hL hd, h1, h2⟩
    · obtain ⟨D, h1, h2⟩ := hedge x y j (L x y) (L (nbx x j) (nby y j)) d d' hL.2.1.2.2.1 hL.2.2.1.2.2.1 hd.2.1.2.2.1 hd.2.2.1.2.2.1
      exact ⟨D, _, _, .edge x y j d d' hx hy hj hL hd, h1, h2⟩
  · rintro _ _ (⟨x, y, d, hx, hy, hL, hd⟩ | ⟨x, y, j, d, d', hx, hy, hj, hL, hd⟩)
    · obtain ⟨D, h1, h2⟩ := hnode x y (L x y) d
      exact ⟨_, _, .node x y d hx hy hL hd, D, h1, h2⟩
    · obtain ⟨D, h1, h2⟩ := hedge x y j (L x y) (L (nbx x j) (nby y j)) d d' hL.2.1.2.2.1 hL.2.2.1.2.2.1 hd.2.1.2.2.1 hd.2.2.1.2.2.1
      exact ⟨_, _, .edge x y j d d' hx hy hj hL hd, D, h1, h2⟩

/-- Labelings that are feasible with rounding are almost feasible exactly. -/
theorem feasible_exact {g : DisparityGraph fmt.Num} {g' : DisparityGraph ℚ} {ε : ℚ} {L : Nat → Nat → Nat} (hplaced : g.Placed L ↔ g'.Placed L)
    (h : ∀ e f, g'.Gap L e f → ∃ p q, g.Gap L p q ∧ ∃ d : ℤ, (sub p q).1 = d ∧ |(d : ℚ) - (e - f)| ≤ ε) {t : fmt.Num} (ht : g.FeasibleAt t L) :
    g'.FeasibleAt (t.1 + ε) L := by
  rw [DisparityGraph.feasible_iff] at ht ⊢
  refine ⟨hplaced.1 ht.1, fun e f hef => ?_⟩
  obtain ⟨p, q, hpq, d, h1, h2⟩ := h e f hef
  have h3 : (sub p q).1 ≤ t.1 := of_decide_eq_true (ht.2 p q hpq)
  refine decide_eq_true ?_
  rw [abs_le] at h2
  show e - f ≤ t.1 + ε
  linarith [h2.1]

/-- Labelings that are feasible exactly are almost feasible with rounding. -/
theorem feasible_rounded {g : DisparityGraph fmt.Num} {g' : DisparityGraph ℚ} {ε : ℚ} {L : Nat → Nat → Nat} (hplaced : g.Placed L ↔ g'.Placed L)
    (hw : 0 < g.w) (hh : 0 < g.h)
    (h : ∀ p q, g.Gap L p q → ∃ (d : ℤ) (e f : ℚ), g'.Gap L e f ∧ (sub p q).1 = d ∧ |(d : ℚ) - (e - f)| ≤ ε) {t : ℚ} (ht : g'.FeasibleAt t L) :
    ∃ t' : fmt.Num, t'.1 ≤ t + ε ∧ g.FeasibleAt t' L := by
  rw [DisparityGraph.feasible_iff] at ht
  have hp := hplaced.2 ht.1
  have hbound : ∀ p q, g.Gap L p q → ∃ d : ℤ, (sub p q).1 = d ∧ (d : ℚ) ≤ t + ε := by
    intro p q hpq
    obtain ⟨d, e, f, h1, h2, h3⟩ := h p q hpq
    have h4 : e - f ≤ t := of_decide_eq_true (ht.2 e f h1)
    rw [abs_le] at h3
    exact ⟨d, h2, by linarith [h3.2]⟩
  obtain ⟨m, ⟨p, q, hpq, hm⟩, hmax⟩ := Int.exists_greatest_of_bdd (P := fun d : ℤ => ∃ p q, g.Gap L p q ∧ (sub p q).1 = (d : ℚ))
    ⟨⌊t + ε⌋, by
      rintro d ⟨p, q, hpq, hd⟩
      obtain ⟨d', h1, h2⟩ := hbound p q hpq
      have : d = d' := by exact_mod_cast hd.symm.trans h1
      exact Int.le_floor.2 (this ▸ h2)⟩
    (by
      have hg := DisparityGraph.Gap.node (g := g) (L := L) 0 0 (L 0 0) hw hh (hp 0 0 hw hh).1 (hp 0 0 hw hh).1
      obtain ⟨d, h1, -⟩ := hbound _ _ hg
      exact ⟨d, _, _, hg, h1⟩)
  obtain ⟨d, h1, h2⟩ := hbound p q hpq
  refine ⟨sub p q, h1 ▸ h2, (g.feasible_iff _ _).2 ⟨hp, fun p' q' hpq' => ?_⟩⟩
  obtain ⟨d', h1', -⟩ := hbound p' q' hpq'
  have := hmax d' ⟨p', q', hpq', h1'⟩
  refine decide_eq_true ?_
  show (sub p' q').1 ≤ (sub p q).1
  rw [h1', hm]
  exact_mod_cast this

/-- The best map with rounding is almost the best exactly. -/
theorem BestMap.near (hk : k < fmt.top) (hd : 5 ≤ fmt.digits) {a b b' : ℕ} (hab : a + 2 * b ≤ k) (hab' : a + 2 * b' ≤ k) (hc : c ≤ 2 ^ a) (hs : s ≤ 2 ^ a)
    (hU : U ≤ 2 ^ b) (hlev : levels.toNat ≤ 2 ^ b') (hl : ∀ x y, left.at x y ≤ U) (hr : ∀ x y, right.at x y ≤ U)
    (hw : 0 < right.width.toNat) (hh : 0 < right.height.toNat) {t : fmt.Num} {im : Image}
    (h : BestMap (freshGraph left right levels (ofNat c : fmt.Num) (ofNat s)) t im) {t' : ℚ} {L : Nat → Nat → Nat}
    (ht : (freshGraph left right levels (ofNat c : ℚ) (ofNat s)).FeasibleAt t' L) :
    (freshGraph left right levels (ofNat c : ℚ) (ofNat s)).FeasibleAt (t' + 64 * fmt.unit * largestPenalty U levels c s) (fun x y => im.at x y) := by
  obtain ⟨t₁, h1, h2⟩ := feasible_rounded (g := freshGraph left right levels (ofNat c : fmt.Num) (ofNat s)) Iff.rfl hw hh
    (gap_error hk hd hab hab' hc hs hU hlev hl hr).1 ht
  have h3 : t.1 ≤ t₁.1 := of_decide_eq_true (h.least _ _ h2)
  have h4 := feasible_exact Iff.rfl (gap_error hk hd hab hab' hc hs hU hlev hl hr).2 h.best.1
  rw [DisparityGraph.feasible_iff] at h4 ⊢
  refine ⟨h4.1, fun e f hef => decide_eq_true ?_⟩
  have h5 : e - f ≤ t.1 + 32 * fmt.unit * largestPenalty U levels c s := of_decide_eq_true (h4.2 e f hef)
  show e - f ≤ t' + _
  linarith

end
end SP
