import Verif.Model.Finder
import Verif.Lemmas.Float
import Mathlib.Data.List.Pairwise
import Mathlib.Tactic.Tauto
/-!
# Sorting, removal of duplicates and merging
-/
namespace SP
open FloatOps
variable {F : Type} [FloatOps F]

/-- strictly ascending -/
def Ascending (l : List F) : Prop := l.Pairwise fun a b => lt a b = true

theorem mem_insertF {a b : F} {l : List F} : b ∈ insertF a l ↔ b = a ∨ b ∈ l := by
  induction l with
  | nil => simp [insertF]
  | cons c l ih =>
    unfold insertF
    split
    · simp
    · simp only [List.mem_cons, ih]
      constructor
      · rintro (h | h | h) <;> simp [h]
      · rintro (h | h | h) <;> simp [h]

theorem mem_sortF {b : F} {l : List F} : b ∈ sortF l ↔ b ∈ l := by
  induction l with
  | nil => rfl
  | cons a l ih =>
    unfold sortF
    rw [mem_insertF, ih, List.mem_cons]

theorem length_insertF (a : F) (l : List F) : (insertF a l).length = l.length + 1 := by
  induction l with
  | nil => rfl
  | cons c l ih =>
    unfold insertF
    split
    · rfl
    · simp [ih]

theorem length_sortF (l : List F) : (sortF l).length = l.length := by
  induction l with
  | nil => rfl
  | cons a l ih =>
    unfold sortF
    rw [length_insertF, ih, List.length_cons]

theorem uniqueF_nil {l : List F} : uniqueF l = [] ↔ l = [] := by
  cases l with
  | nil => simp [uniqueF]
  | cons a l =>
    unfold uniqueF
    cases uniqueF l with
    | nil => simp
    | cons b l' =>
      dsimp only
      split <;> simp

theorem mem_of_uniqueF {b : F} {l : List F} : b ∈ uniqueF l → b ∈ l := by
  induction l with
  | nil => simp [uniqueF]
  | cons a l ih =>
    unfold uniqueF
    cases hu : uniqueF l with
    | nil => simp; tauto
    | cons c l' =>
      rw [hu] at ih
      dsimp only
      split
      · rw [List.mem_cons, List.mem_cons]
        exact Or.imp_right fun h => ih (List.mem_cons_of_mem _ h)
      · rw [List.mem_cons, List.mem_cons (b := a)]
        exact Or.imp_right ih

theorem mem_mergeF {b : F} {l₁ l₂ : List F} : b ∈ mergeF l₁ l₂ ↔ b ∈ l₁ ∨ b ∈ l₂ := by
  induction l₁ generalizing l₂ with
  | nil => simp [mergeF]
  | cons a l₁ ih =>
    unfold mergeF
    have : ∀ l₂ : List F, b ∈ mergeAux a l₁ (mergeF l₁) l₂ ↔ b ∈ a :: l₁ ∨ b ∈ l₂ := by
      intro l₂
      induction l₂ with
      | nil => simp [mergeAux]
      | cons c l₂ ih₂ =>
        unfold mergeAux
        split
        · rw [List.mem_cons, ih₂, List.mem_cons (a := b) (b := c)]
          tauto
        · rw [List.mem_cons, ih, List.mem_cons (b := a)]
          tauto
    exact this l₂

section
variable [LawfulFloat F]

theorem mem_uniqueF {b : F} {l : List F} : b ∈ uniqueF l ↔ b ∈ l := by
  refine ⟨mem_of_uniqueF, ?_⟩
  induction l with
  | nil => simp
  | cons a l ih =>
    intro h
    unfold uniqueF
    cases hu : uniqueF l with
    | nil =>
      rw [uniqueF_nil] at hu
      rw [hu] at h
      exact h
    | cons c l' =>
      rw [hu] at ih
      dsimp only
      split
      · rename_i he
        rw [LawfulFloat.eq_iff] at he
        subst he
        rcases List.mem_cons.1 h with rfl | h
        · exact List.mem_cons_self ..
        · exact ih h
      · rcases List.mem_cons.1 h with rfl | h
        · exact List.mem_cons_self ..
        · exact List.mem_cons_of_mem _ (ih h)

theorem sortF_sorted (l : List F) : (sortF l).Pairwise fun a b => le a b = true := by
  have ins : ∀ (a : F) (l : List F), l.Pairwise (fun a b => le a b = true) →
      (insertF a l).Pairwise fun a b => le a b = true := by
    intro a l h
    induction l with
    | nil => simp [insertF]
    | cons b l ih =>
      rw [List.pairwise_cons] at h
      unfold insertF
      split
      · rename_i hab
        rw [List.pairwise_cons]
        refine ⟨?_, List.pairwise_cons.2 h⟩
        intro c hc
        rcases List.mem_cons.1 hc with rfl | hc
        · exact hab
        · exact LawfulFloat.le_trans _ _ _ hab (h.1 c hc)
      · rename_i hab
        rw [List.pairwise_cons]
        refine ⟨?_, ih h.2⟩
        intro c hc
        rw [mem_insertF] at hc
        rcases hc with rfl | hc
        · exact (LawfulFloat.le_total c b).resolve_left hab
        · exact h.1 c hc
  induction l with
  | nil => exact List.Pairwise.nil
  | cons a l ih => exact ins a _ ih

theorem uniqueF_ascending {l : List F} (h : l.Pairwise fun a b => le a b = true) : Ascending (uniqueF l) := by
  unfold Ascending
  induction l with
  | nil => exact List.Pairwise.nil
  | cons a l ih =>
    rw [List.pairwise_cons] at h
    have ih := ih h.2
    have hle : ∀ b ∈ uniqueF l, le a b = true := fun b hb => h.1 b (mem_of_uniqueF hb)
    unfold uniqueF
    cases hu : uniqueF l with
    | nil => simp
    | cons c l' =>
      rw [hu] at ih hle
      dsimp only
      split
      · rename_i he
        rw [LawfulFloat.eq_iff] at he
        subst he
        exact ih
      · rename_i he
        have hne : a ≠ c := fun h => he ((LawfulFloat.eq_iff _ _).2 h)
        have hac : lt a c = true := by
          rw [LawfulFloat.lt_iff]
          cases hca : le c a
          · rfl
          · exact absurd (LawfulFloat.le_antisymm _ _ (hle c (List.mem_cons_self ..)) hca) hne
        rw [List.pairwise_cons]
        refine ⟨?_, ih⟩
        intro b hb
        rcases List.mem_cons.1 hb with rfl | hb
        · exact hac
        · exact LawfulFloat.lt_trans hac ((List.pairwise_cons.1 ih).1 b hb)

theorem Ascending.nodup {l : List F} (h : Ascending l) : l.Nodup :=
  h.imp fun {a b} hab he => by
    subst he
    rw [LawfulFloat.lt_irrefl] at hab
    exact Bool.noConfusion hab

end
end SP
