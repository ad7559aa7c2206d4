import Verif.Model.Disparity
import Verif.Lemmas.Access
import Verif.Lemmas.Float
import Verif.Spec.Input
/-!
# Refinement of `image_valid` and of the constructor of `DisparityGraph`
-/
set_option linter.unusedSectionVars false

namespace SP
open FloatOps

theorem cfor_nonterm {ι σ : Type} (fuel : Nat) (i : ι) (cond : ι → Bool) (step : ι → ι)
    (body : ι → σ → M (σ × Bool)) (s : σ) (Inv : ι → Prop) (h0 : Inv i)
    (hstep : ∀ i, Inv i → Inv (step i)) (hc : ∀ i, Inv i → cond i = true)
    (hb : ∀ i s, Inv i → ∃ s', body i s = .ok (s', false)) :
    cfor fuel i cond step body s = .error .nonterm := by
  induction fuel generalizing i s with
  | zero => simp [cfor, hc i h0]
  | succ fuel ih =>
    obtain ⟨s', hs⟩ := hb i s h0
    simp only [cfor, hc i h0, if_true, hs]
    exact ih (step i) s' (hstep i h0)

theorem u32_toNat64 (k : Nat) : (UInt32.ofNat k).toUInt64.toNat = k % 4294967296 := by
  simp [UInt32.toNat_ofNat']

theorem imageValid_mk (image : Image)
    (hs : image.data.size = image.width.toNat * image.height.toNat)
    (hl : image.data.size < 4294967296) :
    Ok (imageValid image) fun b => b = true ↔
      0 < image.width.toNat ∧ 0 < image.height.toNat ∧ 0 < image.maxValue.toNat ∧
      ∀ v ∈ image.data, v.toNat ≤ image.maxValue.toNat := by
  have pos : ∀ a : UInt64, a = 0 ↔ a.toNat = 0 := fun a => by
    rw [← UInt64.toNat_inj]; simp
  unfold imageValid
  split
  · rename_i h
    refine Ok.pure ⟨fun h => by simp at h, fun h' => ?_⟩
    rw [pos, pos, pos] at h
    omega
  · rename_i h
    rw [pos, pos, pos] at h
    have hwh : (image.width * image.height).toNat = image.data.size := by
      rw [UInt64.toNat_mul, hs, Nat.mod_eq_of_lt (by omega)]
    rw [hwh]
    refine cfor_seq UInt32.ofNat 0 image.data.size
      (fun k s => s = true ∧ ∀ i (hi : i < image.data.size), i < k → image.data[i].toNat ≤ image.maxValue.toNat)
      rfl (Nat.zero_le _) (by omega) ?_ ?_ ?_ ?_ ?_
    · intro k _ hk
      rw [← UInt32.toNat_inj]
      simp [UInt32.toNat_ofNat']
    · intro k _ hk
      rw [decide_eq_decide, UInt64.lt_iff_toNat_lt, hwh, u32_toNat64, Nat.mod_eq_of_lt (by omega)]
    · exact ⟨rfl, fun i _ h => absurd h (Nat.not_lt_zero _)⟩
    · rintro k s _ hk ⟨rfl, hall⟩
      have e : rd image.data (UInt32.ofNat k).toUInt64 = .ok image.data[k] := by
        simp only [rd, u32_toNat64, Nat.mod_eq_of_lt (show k < 4294967296 by omega)]
        rw [Array.getElem?_eq_getElem hk]
      simp only [e]
      split
      · rename_i hv
        refine Ok.pure ?_
        simp only [if_true]
        refine ⟨fun h => by simp at h, fun h => ?_⟩
        have := h.2.2.2 image.data[k] (Array.getElem_mem hk)
        rw [gt_iff_lt, UInt64.lt_iff_toNat_lt] at hv
        omega
      · rename_i hv
        refine Ok.pure ?_
        simp only [Bool.false_eq_true, if_false]
        refine ⟨trivial, fun i hi hik => ?_⟩
        by_cases hk' : i < k
        · exact hall i hi hk'
        · have : i = k := by omega
          subst this
          rw [gt_iff_lt, UInt64.lt_iff_toNat_lt] at hv
          omega
    · rintro s ⟨rfl, hall⟩
      refine ⟨fun _ => ⟨by omega, by omega, by omega, fun v hv => ?_⟩, fun _ => rfl⟩
      obtain ⟨i, hi, rfl⟩ := Array.mem_iff_getElem.1 hv
      exact hall i hi hi

variable {F : Type} [FloatOps F]

theorem mkDisparityGraph_mk {left right : Image} {levels : UInt64} {cleanness smoothness : F}
    (hl : left.Sized) (hr : right.Sized) :
    (AcceptedInput left right levels cleanness smoothness →
      mkDisparityGraph left right levels cleanness smoothness = .ok
        { left := left, right := right, disparityLevels := levels, cleanness := cleanness,
          smoothness := smoothness,
          reparametrization :=
            Array.replicate (left.width * left.height * NEIGHBORS_COUNT * levels).toNat zero }) ∧
    (¬ AcceptedInput left right levels cleanness smoothness →
      ∃ what, mkDisparityGraph left right levels cleanness smoothness = .error (.exc (.invalidArgument what))) := by
  obtain ⟨bl, el, ql⟩ := imageValid_mk left hl.size hl.small
  obtain ⟨br, er, qr⟩ := imageValid_mk right hr.size hr.small
  change bl = true ↔ left.Meaningful at ql
  change br = true ↔ right.Meaningful at qr
  have a1 : levels ≤ 1 ↔ ¬ 1 < levels.toNat := by
    rw [UInt64.le_iff_toNat_le, show UInt64.toNat 1 = 1 from rfl]; omega
  have a2 : levels > left.width ↔ ¬ levels.toNat ≤ left.width.toNat := by
    rw [gt_iff_lt, UInt64.lt_iff_toNat_lt]; omega
  unfold AcceptedInput
  rw [← ql, ← qr]
  unfold mkDisparityGraph
  simp only [el, er, bind_ok, throw_eq_error, a1, a2, ne_eq]
  constructor
  · rintro ⟨h1, h2, h3, h4, h5, h6, h7, h8, h9, h10⟩
    have h11 : (lt cleanness epsilon && lt smoothness epsilon) = false := by
      rcases h10 with h | h <;> simp [h]
    have h4' := h5 ▸ h4
    simp [h1, h2, h3, h4', h5, h6, h7, h8, h9, h11]
  · intro hn
    by_cases h1 : bl = true
    rotate_left; · simp [h1]
    by_cases h2 : br = true
    rotate_left; · simp [h1, h2]
    by_cases h3 : 1 < levels.toNat
    rotate_left; · simp [h1, h2, h3]
    by_cases h4 : levels.toNat ≤ left.width.toNat
    rotate_left; · simp [h1, h2, h3, h4]
    by_cases h5 : left.width = right.width
    rotate_left; · simp [h1, h2, h3, h4, h5]
    have h4' := h5 ▸ h4
    by_cases h6 : left.height = right.height
    rotate_left; · simp [h1, h2, h3, h4', h5, h6]
    by_cases h7 : left.maxValue = right.maxValue
    rotate_left; · simp [h1, h2, h3, h4', h5, h6, h7]
    cases h8 : lt cleanness zero
    rotate_left; · simp [h1, h2, h3, h4', h5, h6, h7]
    cases h9 : lt smoothness zero
    rotate_left; · simp [h1, h2, h3, h4', h5, h6, h7]
    have h10 : (lt cleanness epsilon && lt smoothness epsilon) = true := by
      cases ha : lt cleanness epsilon <;> cases hb : lt smoothness epsilon <;> simp_all
    simp [h1, h2, h3, h4', h5, h6, h7, h10]

/-- The graph made by the constructor. -/
def freshGraph (left right : Image) (levels : UInt64) (cleanness smoothness : F) : DisparityGraph F :=
  { left := left, right := right, disparityLevels := levels, cleanness := cleanness,
    smoothness := smoothness,
    reparametrization :=
      Array.replicate (left.width * left.height * NEIGHBORS_COUNT * levels).toNat zero }

theorem freshGraph_valid {left right : Image} {levels : UInt64} {cleanness smoothness : F}
    (hl : left.Sized) (hr : right.Sized) (ha : AcceptedInput left right levels cleanness smoothness)
    (hfit : left.width.toNat * left.height.toNat * 4 * levels.toNat < 18446744073709551616) :
    (freshGraph left right levels cleanness smoothness).Valid ∧
    ∀ x y d k, (freshGraph left right levels cleanness smoothness).phi x y d k = zero := by
  obtain ⟨⟨h1, h2, h3, h4⟩, ⟨g1, g2, g3, g4⟩, h5, h6, h7, h8, h9, -⟩ := ha
  have hN : (left.width * left.height * NEIGHBORS_COUNT * levels).toNat
      = left.width.toNat * left.height.toNat * 4 * levels.toNat := by
    have e4 : NEIGHBORS_COUNT.toNat = 4 := rfl
    rw [UInt64.toNat_mul, UInt64.toNat_mul, UInt64.toNat_mul, e4]
    simp only [Nat.reducePow, Nat.mod_mul_mod]
    rw [Nat.mod_eq_of_lt hfit]
  refine ⟨⟨⟨h7, h8, g1, g2, by show 0 < levels.toNat; omega, by show levels.toNat ≤ right.width.toNat; rw [← h7]; exact h6⟩,
    ?_, hr.size, ?_, ?_⟩, ?_⟩
  · show left.data.size = right.width.toNat * right.height.toNat
    rw [← h7, ← h8]; exact hl.size
  · show (Array.replicate _ _).size = right.width.toNat * right.height.toNat * 4 * levels.toNat
    rw [Array.size_replicate, hN, h7, h8]
  · show right.width.toNat * right.height.toNat * 4 * levels.toNat < _
    rw [← h7, ← h8]; exact hfit
  · intro x y d k
    show (Array.replicate _ _).getD _ _ = _
    unfold Array.getD
    split
    · exact Array.getElem_replicate ..
    · rfl

theorem freshGraph_fresh [LawfulFloat F] {left right : Image} {levels : UInt64} {cleanness smoothness : F}
    (hl : left.Sized) (hr : right.Sized) (ha : AcceptedInput left right levels cleanness smoothness)
    (hfit : left.width.toNat * left.height.toNat * 4 * levels.toNat < 18446744073709551616) :
    (freshGraph left right levels cleanness smoothness).Fresh := by
  obtain ⟨hv, hp⟩ := freshGraph_valid hl hr ha hfit
  exact ⟨hv, LawfulFloat.not_lt_iff.1 ha.2.2.2.2.2.2.2.1, LawfulFloat.not_lt_iff.1 ha.2.2.2.2.2.2.2.2.1, hp⟩

end SP
