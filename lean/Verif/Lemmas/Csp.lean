import Verif.Spec.Csp
/-!
# Facts about constraint satisfaction on a grid (independent of the code)
-/
namespace SP
variable {w h : Nat} {E E' : EdgeRel} {S S' T : NodeSet}

/-- `S ⊆ T` -/
def Sub (S T : NodeSet) : Prop := ∀ x y d, S x y d → T x y d

theorem Sub.refl (S : NodeSet) : Sub S S := fun _ _ _ h => h
theorem Sub.trans {S T U : NodeSet} (h : Sub S T) (h' : Sub T U) : Sub S U :=
  fun x y d hs => h' x y d (h x y d hs)
theorem Sub.antisymm {S T : NodeSet} (h : Sub S T) (h' : Sub T S) : S = T := by
  funext x y d; exact propext ⟨h x y d, h' x y d⟩

theorem Supported.mono (hE : ∀ x y k d d', E x y k d d' → E' x y k d d') (hS : Sub S S') {x y d : Nat}
    (hs : Supported w h E S x y d) : Supported w h E' S' x y d := by
  intro k hk
  obtain ⟨d', a, b⟩ := hs k hk
  exact ⟨d', hS _ _ _ a, hE _ _ _ _ _ b⟩

theorem removeUnsupported_sub (px py : Nat) : Sub (removeUnsupported w h E S px py) S :=
  fun _ _ _ hs => hs.1

theorem removeUnsupported_mono (hE : ∀ x y k d d', E x y k d d' → E' x y k d d') (hS : Sub S S')
    (px py : Nat) : Sub (removeUnsupported w h E S px py) (removeUnsupported w h E' S' px py) :=
  fun _ _ _ hs => ⟨hS _ _ _ hs.1, fun he => (hs.2 he).mono hE hS⟩

theorem removeUnsupported_other {px py x y d : Nat} (hne : ¬ (x = px ∧ y = py)) :
    removeUnsupported w h E S px py x y d ↔ S x y d :=
  ⟨fun hs => hs.1, fun hs => ⟨hs, fun he => absurd he hne⟩⟩

/-- An arc consistent subset survives the removal. -/
theorem sub_removeUnsupported (hT : ArcConsistent w h E T) (hTS : Sub T S) (px py : Nat) :
    Sub T (removeUnsupported w h E S px py) :=
  fun x y d ht => ⟨hTS _ _ _ ht, fun _ => (hT x y d ht).mono (fun _ _ _ _ _ h => h) hTS⟩

theorem sweep_nil : sweep w h E [] S = S := rfl

theorem sweep_append (ps qs : List (Nat × Nat)) :
    sweep w h E (ps ++ qs) S = sweep w h E qs (sweep w h E ps S) := by
  simp [sweep, List.foldl_append]

theorem sweep_snoc (ps : List (Nat × Nat)) (p : Nat × Nat) :
    sweep w h E (ps ++ [p]) S = removeUnsupported w h E (sweep w h E ps S) p.1 p.2 := by
  rw [sweep_append]; rfl

theorem sweep_cons (p : Nat × Nat) (ps : List (Nat × Nat)) :
    sweep w h E (p :: ps) S = sweep w h E ps (removeUnsupported w h E S p.1 p.2) := rfl

theorem sweep_sub (ps : List (Nat × Nat)) : Sub (sweep w h E ps S) S := by
  induction ps generalizing S with
  | nil => exact Sub.refl S
  | cons p ps ih => exact Sub.trans ih (removeUnsupported_sub _ _)

theorem sweep_mono (hE : ∀ x y k d d', E x y k d d' → E' x y k d d') (hS : Sub S S')
    (ps : List (Nat × Nat)) : Sub (sweep w h E ps S) (sweep w h E' ps S') := by
  induction ps generalizing S S' with
  | nil => exact hS
  | cons p ps ih => exact ih (removeUnsupported_mono hE hS _ _)

theorem sub_sweep (hT : ArcConsistent w h E T) (hTS : Sub T S) (ps : List (Nat × Nat)) :
    Sub T (sweep w h E ps S) := by
  induction ps generalizing S with
  | nil => exact hTS
  | cons p ps ih => exact ih (sub_removeUnsupported hT hTS _ _)

/-- The nodes of a labeling. -/
def labelingNodes (w h : Nat) (L : Nat → Nat → Nat) : NodeSet := fun x y d => x < w ∧ y < h ∧ d = L x y

theorem Consistent.arc {L : Nat → Nat → Nat} (hL : Consistent w h E S L)
    (hnb : ∀ x y k, HasNb w h x y k → nbx x k < w ∧ nby y k < h) :
    ArcConsistent w h E (labelingNodes w h L) := by
  rintro x y d ⟨hx, hy, rfl⟩ k hk
  obtain ⟨h1, h2⟩ := hnb x y k hk
  exact ⟨_, ⟨h1, h2, rfl⟩, (hL x y hx hy).2 k hk⟩

theorem Consistent.sub {L : Nat → Nat → Nat} (hL : Consistent w h E S L) : Sub (labelingNodes w h L) S := by
  rintro x y d ⟨hx, hy, rfl⟩
  exact (hL x y hx hy).1

/-- Consistency is monotone in the set and in the relation. -/
theorem Consistent.mono {L : Nat → Nat → Nat} (hL : Consistent w h E S L)
    (hE : ∀ x y k d d', E x y k d d' → E' x y k d d') (hS : Sub (labelingNodes w h L) S') :
    Consistent w h E' S' L :=
  fun x y hx hy => ⟨hS _ _ _ ⟨hx, hy, rfl⟩, fun k hk => hE _ _ _ _ _ ((hL x y hx hy).2 k hk)⟩

end SP
