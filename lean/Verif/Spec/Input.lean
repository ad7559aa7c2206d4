import Verif.Spec.Penalty
/-!
# Specification of accepted inputs
-/
namespace SP
open FloatOps

/-- The image has as many intensities as declared, few enough for a 32-bit counter. -/
structure Image.Sized (image : Image) : Prop where
  size : image.data.size = image.width.toNat * image.height.toNat
  small : image.data.size < 4294967296

/-- The documented meaning of a valid image. -/
def Image.Meaningful (image : Image) : Prop :=
  0 < image.width.toNat ∧ 0 < image.height.toNat ∧ 0 < image.maxValue.toNat ∧
  ∀ v ∈ image.data, v.toNat ≤ image.maxValue.toNat

variable {F : Type} [FloatOps F]

/-- What the constructor of the disparity graph requires. -/
def AcceptedInput (left right : Image) (levels : UInt64) (cleanness smoothness : F) : Prop :=
  left.Meaningful ∧ right.Meaningful ∧ 1 < levels.toNat ∧ levels.toNat ≤ left.width.toNat ∧
  left.width = right.width ∧ left.height = right.height ∧ left.maxValue = right.maxValue ∧
  lt cleanness zero = false ∧ lt smoothness zero = false ∧
  (lt cleanness epsilon = false ∨ lt smoothness epsilon = false)

/-- A graph as the constructor leaves it: valid, weights not negative, reparametrization is zero. -/
structure DisparityGraph.Fresh (g : DisparityGraph F) : Prop extends g.Valid where
  cleanness_nonneg : le zero g.cleanness = true
  smoothness_nonneg : le zero g.smoothness = true
  phi_zero : ∀ x y d k, g.phi x y d k = zero

end SP
