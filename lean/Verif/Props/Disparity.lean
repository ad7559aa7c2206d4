import Verif.Lemmas.Disparity
import Verif.Spec.FloatInstances
/-!
# Properties C09, C10: validation of images and of the input of the disparity graph
-/
namespace SP
open FloatOps

/-- **C09**. For an image whose data array has `width * height < 2^32` elements, `image_valid` returns, and it returns true
if and only if width, height and the maximal value are positive and no intensity exceeds the maximal value. -/
theorem C09_image_valid_exact (image : Image) (h : image.Sized) :
    Ok (imageValid image) fun b => b = true ↔ image.Meaningful :=
  imageValid_mk image h.size h.small

example : (img 3 2 5 [1, 2, 3, 4, 5, 0]).Sized := ⟨rfl, by decide⟩
example : imageValid (img 3 2 5 [1, 2, 3, 4, 5, 0]) = .ok true := by decide
example : imageValid (img 3 2 5 [1, 2, 3, 4, 5, 6]) = .ok false := by decide

/-- Without the bound `2^32` the statement is false: the counter of the loop has 32 bits while the bound has 64, so an image
with `2^32` or more pixels, all of them correct, makes the function run forever. -/
theorem C09_large_image_never_validated (image : Image) (hm : image.maxValue ≠ 0)
    (hn : 4294967296 ≤ (image.width * image.height).toNat)
    (hd : ∀ i, i < 4294967296 → ∃ h : i < image.data.size, image.data[i] ≤ image.maxValue) :
    imageValid image = .error .nonterm := by
  have h0 : ¬ (image.maxValue = 0 ∨ image.width = 0 ∨ image.height = 0) := by
    rintro (h | h | h)
    · exact hm h
    · rw [h] at hn; simp at hn
    · rw [h] at hn; simp at hn
  unfold imageValid
  rw [if_neg h0]
  refine cfor_nonterm _ _ _ _ _ _ (fun _ => True) trivial (fun _ _ => trivial) ?_ ?_
  · intro i _
    rw [decide_eq_true_iff, UInt64.lt_iff_toNat_lt]
    have := i.toNat_lt
    simp only [UInt32.toNat_toUInt64]
    omega
  · intro i s _
    obtain ⟨h, hv⟩ := hd i.toNat i.toNat_lt
    have e : rd image.data i.toUInt64 = .ok image.data[i.toNat] := by
      simp only [rd, UInt32.toNat_toUInt64]
      rw [Array.getElem?_eq_getElem h]
    refine ⟨true, ?_⟩
    simp only [e]
    rw [if_neg]
    rw [UInt64.le_iff_toNat_le] at hv
    rw [gt_iff_lt, UInt64.lt_iff_toNat_lt]
    omega

example : ∃ image : Image, image.maxValue ≠ 0 ∧ 4294967296 ≤ (image.width * image.height).toNat ∧
    ∀ i, i < 4294967296 → ∃ h : i < image.data.size, image.data[i] ≤ image.maxValue := by
  refine ⟨⟨65536, 65536, 1, Array.replicate 4294967296 0⟩, by decide, by decide, fun i hi => ?_⟩
  refine ⟨by simpa using hi, ?_⟩
  simp only [Array.getElem_replicate]
  decide

/-- The number of intensities is not validated: an image with fewer intensities than declared is read out of bounds. -/
theorem C09_short_data_read_out_of_bounds :
    imageValid (img 2 2 1 [0, 1, 0]) = .error .ub := by decide

variable {F : Type} [FloatOps F]

/-- **C10**, acceptance. The constructor returns the graph with the given fields and zero reparametrization. -/
theorem C10_constructor_accepts {left right : Image} {levels : UInt64} {cleanness smoothness : F}
    (hl : left.Sized) (hr : right.Sized) (ha : AcceptedInput left right levels cleanness smoothness) :
    Ok (mkDisparityGraph left right levels cleanness smoothness) fun g =>
      g.left = left ∧ g.right = right ∧ g.disparityLevels = levels ∧ g.cleanness = cleanness ∧
      g.smoothness = smoothness ∧ ∀ i (hi : i < g.reparametrization.size), g.reparametrization[i] = zero := by
  rw [(mkDisparityGraph_mk hl hr).1 ha]
  refine Ok.pure ⟨rfl, rfl, rfl, rfl, rfl, fun i hi => ?_⟩
  simp only [Array.getElem_replicate]

/-- **C10**, rejection. For any other arguments the constructor throws `std::invalid_argument`. -/
theorem C10_constructor_rejects {left right : Image} {levels : UInt64} {cleanness smoothness : F}
    (hl : left.Sized) (hr : right.Sized) (ha : ¬ AcceptedInput left right levels cleanness smoothness) :
    ∃ what, mkDisparityGraph left right levels cleanness smoothness = .error (.exc (.invalidArgument what)) :=
  (mkDisparityGraph_mk hl hr).2 ha

/-- **C10**, size of the reparametrization. If the number of (node, direction) pairs is representable, there is a slot for
each of them, and the graph satisfies all that the other functions rely on. -/
theorem C10_constructor_establishes_invariant {left right : Image} {levels : UInt64} {cleanness smoothness : F}
    (hl : left.Sized) (hr : right.Sized) (ha : AcceptedInput left right levels cleanness smoothness)
    (hfit : left.width.toNat * left.height.toNat * 4 * levels.toNat < 18446744073709551616) :
    Ok (mkDisparityGraph left right levels cleanness smoothness) fun g =>
      g.Valid ∧ ∀ x y d k, g.phi x y d k = zero := by
  rw [(mkDisparityGraph_mk hl hr).1 ha]
  exact Ok.pure (freshGraph_valid hl hr ha hfit)

/-- A meaningful input. -/
theorem exampleAccepted : AcceptedInput (img 3 1 3 [1, 0, 2]) (img 3 1 3 [0, 0, 3]) 2 (1 : Int) 0 := by
  have key : ∀ (a : Image) , (∀ v ∈ a.data.toList, v.toNat ≤ a.maxValue.toNat) →
      ∀ v ∈ a.data, v.toNat ≤ a.maxValue.toNat := fun a h v hv => h v (Array.mem_toList_iff.2 hv)
  refine ⟨⟨by decide, by decide, by decide, key _ (by decide)⟩, ⟨by decide, by decide, by decide, key _ (by decide)⟩,
    by decide, by decide, rfl, rfl, rfl, rfl, rfl, .inl rfl⟩

example : (mkDisparityGraph (img 3 1 3 [1, 0, 2]) (img 3 1 3 [0, 0, 3]) 2 (1 : Int) 0).isOk = true := by decide
example : mkDisparityGraph (img 3 1 3 [1, 0, 2]) (img 3 1 3 [0, 0, 4]) 2 (1 : Int) 0
    = .error (.exc (.invalidArgument "Right image is invalid.")) := by decide
example : mkDisparityGraph (img 3 1 3 [1, 0, 2]) (img 3 1 3 [0, 0, 3]) 4 (1 : Int) 0
    = .error (.exc (.invalidArgument
      "Number of disparity levels should not be greater than width of the left image.")) := by decide

/-- **C10** does not hold for large inputs: the size of the reparametrization is computed modulo `2^64`. For images of size
`2^31 × 1` with `2^31` levels, which are accepted, no slot at all is allocated. -/
theorem C10_reparametrization_size_wraps (left right : Image) (cleanness smoothness : F)
    (hl : left.Sized) (hr : right.Sized) (hw : left.width = 2147483648) (hh : left.height = 1)
    (ha : AcceptedInput left right 2147483648 cleanness smoothness) :
    Ok (mkDisparityGraph left right 2147483648 cleanness smoothness) fun g =>
      g.reparametrization.size = 0 := by
  rw [(mkDisparityGraph_mk hl hr).1 ha]
  refine Ok.pure ?_
  simp only [Array.size_replicate, hw, hh]
  decide

example : ∃ left right : Image, left.Sized ∧ right.Sized ∧ left.width = 2147483648 ∧ left.height = 1 ∧
    AcceptedInput left right 2147483648 (1 : Int) 1 := by
  have hm : Image.Meaningful ⟨2147483648, 1, 1, Array.replicate 2147483648 0⟩ := by
    refine ⟨by decide, by decide, by decide, fun v hv => ?_⟩
    rw [(Array.mem_replicate.1 hv).2]
    decide
  have hs : Image.Sized ⟨2147483648, 1, 1, Array.replicate 2147483648 0⟩ :=
    ⟨by simp only [Array.size_replicate]; rfl, by simp only [Array.size_replicate]; decide⟩
  exact ⟨_, _, hs, hs, rfl, rfl, hm, hm, by decide, by decide, rfl, rfl, rfl, rfl, rfl, .inl rfl⟩

/-- The check of the weights lets NaN through, though NaN is not a non-negative number. -/
theorem C10_nan_weights_accepted :
    (mkDisparityGraph (F := NanInt) (img 2 1 3 [1, 0]) (img 2 1 3 [0, 3]) 2 none none).isOk = true := by
  decide

end SP
