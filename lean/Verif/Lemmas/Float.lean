import Verif.Spec.Float
/-!
# Consequences of the laws of `FLOAT`
-/
namespace SP
open FloatOps
namespace LawfulFloat
variable {F : Type} [FloatOps F] [LawfulFloat F]

theorem le_refl (a : F) : le a a = true := by
  rcases le_total a a with h | h <;> exact h

theorem not_lt_iff {a b : F} : lt a b = false ↔ le b a = true := by
  have := lt_iff a b
  cases h : lt a b <;> cases h' : le b a <;> simp_all

theorem le_of_not_le {a b : F} (h : le a b = false) : le b a = true := by
  rcases le_total a b with h' | h'
  · rw [h] at h'; simp at h'
  · exact h'

theorem lt_le {a b : F} (h : lt a b = true) : le a b = true := le_of_not_le ((lt_iff a b).1 h)

theorem lt_irrefl (a : F) : lt a a = false := not_lt_iff.2 (le_refl a)

theorem lt_of_lt_of_le {a b c : F} (h : lt a b = true) (h' : le b c = true) : lt a c = true := by
  rw [lt_iff] at h ⊢
  cases hc : le c a
  · rfl
  · rw [le_trans b c a h' hc] at h; exact h

theorem lt_of_le_of_lt {a b c : F} (h : le a b = true) (h' : lt b c = true) : lt a c = true := by
  rw [lt_iff] at h' ⊢
  cases hc : le c a
  · rfl
  · rw [le_trans c a b hc h] at h'; exact h'

theorem lt_trans {a b c : F} (h : lt a b = true) (h' : lt b c = true) : lt a c = true :=
  lt_of_lt_of_le h (lt_le h')

theorem lt_or_eq {a b : F} (h : le a b = true) : lt a b = true ∨ a = b := by
  cases hb : le b a
  · exact .inl ((lt_iff a b).2 hb)
  · exact .inr (le_antisymm a b h hb)

theorem lt_ne {a b : F} (h : lt a b = true) : a ≠ b := by
  rintro rfl
  rw [lt_irrefl] at h
  exact Bool.noConfusion h

theorem min'_le_left (a b : F) : le (min' a b) a = true := by
  unfold min'
  cases h : le a b
  · exact le_of_not_le h
  · exact le_refl a

theorem min'_le_right (a b : F) : le (min' a b) b = true := by
  unfold min'
  cases h : le a b
  · exact le_refl b
  · exact h

omit [LawfulFloat F] in
theorem min'_eq (a b : F) : min' a b = a ∨ min' a b = b := by
  unfold min'
  cases le a b
  · exact .inr rfl
  · exact .inl rfl

theorem mul_nonneg {a b : F} (ha : le zero a = true) (hb : le zero b = true) :
    le zero (mul a b) = true := by
  have := mul_mono a zero b ha hb
  rwa [mul_zero] at this

theorem add_nonneg {a b : F} (ha : le zero a = true) (hb : le zero b = true) :
    le zero (add a b) = true := by
  have := add_mono zero a zero b ha hb
  rwa [add_zero] at this

/-- A difference is not negative if the subtrahend is not greater. -/
theorem sub_nonneg {a b : F} (h : le b a = true) : le zero (sub a b) = true := by
  have := sub_mono b a b h
  rwa [sub_self] at this

theorem sqr_zero : sqr (zero : F) = zero := mul_zero zero

end LawfulFloat
end SP
