import Verif.Props.Indexing
import Verif.Props.Constraint
import Verif.Props.Main
import Verif.Props.Program
/-!
# C02–C04, C25, C30, C55, C64: exact statements
Sizes of the allocated arrays, what an iteration and a call of `solve_csp` return, the exit status, and values of options.
-/
namespace SP

/-! ## C02–C04: the arrays are those allocated by constructors -/

section Allocated
variable {F : Type} [FloatOps F] {left right : Image} {levels : UInt64} {cleanness smoothness : F}

/-- **C03**, the array: the one allocated by the constructor of `DisparityGraph` has exactly one element for each node with a direction. -/
theorem C03_allocated (hl : left.Sized) (hr : right.Sized) (ha : AcceptedInput left right levels cleanness smoothness)
    (hfit : left.width.toNat * left.height.toNat * 4 * levels.toNat < 2 ^ 64) :
    Ok (mkDisparityGraph left right levels cleanness smoothness) fun g =>
      g.left = left ∧ g.right = right ∧ g.disparityLevels = levels ∧ g.reparametrization.size = g.w * g.h * 4 * g.levels := by
  refine ⟨_, (mkDisparityGraph_mk hl hr).1 ha, rfl, rfl, rfl, ?_⟩
  show (Array.replicate (left.width * left.height * NEIGHBORS_COUNT * levels).toNat (FloatOps.zero : F)).size =
    right.width.toNat * right.height.toNat * 4 * levels.toNat
  have e4 : NEIGHBORS_COUNT.toNat = 4 := rfl
  rw [Array.size_replicate, UInt64.toNat_mul, UInt64.toNat_mul, UInt64.toNat_mul, e4]
  simp only [Nat.mod_mul_mod]
  rw [Nat.mod_eq_of_lt hfit, ha.2.2.2.2.1, ha.2.2.2.2.2.1]

variable {g : DisparityGraph F} {p : LowestPenalties F}

/-- **C04**, the array: the one allocated by the constructor of `LowestPenalties` has exactly one element for each pixel with a direction. -/
theorem C04_allocated (hg : g.Valid) :
    Ok (mkLowestPenalties g) fun p => p.graph = g ∧ p.pixels.size = g.w * g.h ∧ p.neighborhoods.size = 4 * (g.h * g.w) := by
  refine (mkLowestPenalties_mk hg).mono ?_
  rintro p ⟨rfl, h, -⟩
  exact ⟨rfl, h.pixels_size, h.neighborhoods_size⟩

/-- **C02**, the array: the one allocated by the constructor of `ConstraintGraph` has exactly one flag for each node. -/
theorem C02_allocated (hg : g.Valid) (t : F) :
    Ok (do let p ← mkLowestPenalties g; mkConstraintGraph g p t : M (ConstraintGraph F)) fun c =>
      c.disparityGraph = g ∧ c.nodesAvailability.size = g.w * g.h * g.levels := by
  refine Ok.bind (mkLowestPenalties_mk hg) ?_
  rintro p ⟨h1, h2, -⟩
  refine (mkConstraintGraph_mk h2 h1 t).mono ?_
  rintro c ⟨rfl, -, -, h3, -⟩
  exact ⟨rfl, h3.size⟩

end Allocated

/-- The assumptions are met by some images. -/
example : let im := img 3 2 9 [0, 1, 2, 3, 4, 5]
    AcceptedInput im im 2 (1 : Int) 1 ∧ im.Sized ∧ im.width.toNat * im.height.toNat * 4 * (2 : UInt64).toNat < 2 ^ 64 := by
  refine ⟨?_, ⟨by decide, by decide⟩, by decide⟩
  unfold AcceptedInput Image.Meaningful
  decide +kernel

/-! ## C25, C30: what an iteration and a call of `solve_csp` do -/

section Iteration
variable {F : Type} [FloatOps F] {c : ConstraintGraph F}

/-- **C25**, exactly what the code does instead of the full statement (see `C25_iteration_result_partial`). An iteration takes the pixels of its
rows one after another. It returns true if and only if some pixel is left without nodes when it has been processed, while there are nodes
elsewhere. Then all the nodes are made unavailable; otherwise what is left is the result of processing each pixel of the job once. -/
theorem C25_iteration_exact_partial (hc : c.Valid) (hp : c.Proper) {jobs job : Nat}
    (hj : 0 < jobs) (hfit : c.h + jobs ≤ 18446744073709551616) (hjob : job < 18446744073709551616) :
    Ok (cspSolutionIteration c (UInt64.ofNat jobs) (UInt64.ofNat job)) fun r =>
      let ps := jobPixels c.w jobs job (jobRows c.h jobs job)
      (r.2 = true ↔ ∃ pre p post, ps = pre ++ p :: post ∧ (∀ d, ¬ sweep c.w c.h c.E (pre ++ [p]) c.Av p.1 p.2 d) ∧
        ∃ x y d, sweep c.w c.h c.E (pre ++ [p]) c.Av x y d) ∧
      (r.2 = true → ∀ x y d, ¬ r.1.Av x y d) ∧
      (r.2 = false → r.1.Av = sweep c.w c.h c.E ps c.Av) := by
  refine (cspSolutionIteration_mk hc hp hj hfit hjob).mono ?_
  rintro r ⟨h1, h2, h3⟩
  dsimp only at h3 ⊢
  rcases h3 with ⟨hf, hg⟩ | ⟨s, ⟨-, -, pre, p, post, e, hal, hav, hd⟩, he, hiff⟩
  · refine ⟨⟨fun h => absurd (hf ▸ h) (by simp), ?_⟩, fun h => absurd (hf ▸ h) (by simp), fun _ => hg.2.2.1⟩
    rintro ⟨pre, p, post, e, hd, -⟩
    obtain ⟨d, hd'⟩ := hg.2.2.2 p (by rw [e]; simp)
    rw [hg.2.2.1, e, show pre ++ p :: post = (pre ++ [p]) ++ post by simp, sweep_append] at hd'
    exact absurd (sweep_sub post _ _ _ hd') (hd d)
  · refine ⟨⟨fun h => ⟨pre, p, post, e, hav ▸ hd, hav ▸ hiff.1 h⟩, ?_⟩, fun _ => he, fun hf => ?_⟩
    · rintro ⟨pre', p', post', e', hd', x, y, d, hx⟩
      refine hiff.2 ⟨x, y, d, ?_⟩
      rw [hav]
      have e2 : pre ++ [p] ++ post = pre' ++ [p'] ++ post' := by simp only [List.append_assoc, List.singleton_append]; rw [← e, e']
      by_cases hlt : pre'.length < pre.length
      · exfalso
        have hpre : pre' ++ [p'] <+: pre := by
          refine List.prefix_of_prefix_length_le (l₃ := pre ++ ([p] ++ post)) ?_ (List.prefix_append _ _) (by rw [List.length_append]; exact hlt)
          rw [← List.append_assoc, e2]
          exact List.prefix_append _ _
        obtain ⟨q, rfl⟩ := hpre
        obtain ⟨d', hd''⟩ := hal p' (by simp)
        rw [sweep_append] at hd''
        exact hd' d' (sweep_sub q _ _ _ hd'')
      · have hpre : pre ++ [p] <+: pre' ++ [p'] := by
          refine List.prefix_of_prefix_length_le (l₃ := pre' ++ [p'] ++ post') ?_ (List.prefix_append _ _) (by simp; omega)
          rw [← e2]
          exact List.prefix_append _ _
        obtain ⟨q, hq⟩ := hpre
        rw [← hq, sweep_append] at hx
        exact sweep_sub q _ _ _ hx
    · have hne : ∀ x y d, ¬ s.Av x y d := fun x y d h => by
        have := hiff.2 ⟨x, y, d, h⟩
        rw [hf] at this
        cases this
      funext x y d
      refine propext ⟨fun h => absurd h (he x y d), fun h => absurd ?_ (hne x y d)⟩
      rw [hav]
      rw [e, show pre ++ p :: post = (pre ++ [p]) ++ post by simp, sweep_append] at h
      exact sweep_sub post _ _ _ h

/-- The order in which pixels are processed contains each pixel once. -/
theorem solveOrder_nodup {w h jobs : Nat} (hj : 0 < jobs) : (solveOrder w h jobs).Nodup := by
  have hrow : ∀ y : Nat, ((List.range w).map fun x => (x, y)).Nodup := fun y =>
    List.nodup_range.map fun a b h => (Prod.mk.inj h).1
  unfold solveOrder
  refine List.nodup_flatMap.2 ⟨fun i hi => ?_, ?_⟩
  · unfold jobPixels
    refine List.nodup_flatMap.2 ⟨fun k _ => hrow _, ?_⟩
    refine List.nodup_range.imp fun {a b} hab => ?_
    intro q hq hq'
    simp only [List.mem_map, List.mem_range] at hq hq'
    obtain ⟨x, -, rfl⟩ := hq
    obtain ⟨x', -, h'⟩ := hq'
    have := (Prod.mk.inj h').2
    exact hab (Nat.eq_of_mul_eq_mul_right hj (by omega))
  · refine (List.pairwise_lt_range (n := jobs)).imp_of_mem fun {a b} ha hb hab => ?_
    intro q hq hq'
    rw [List.mem_range] at ha hb
    obtain ⟨-, -, i, hi⟩ := (mem_jobPixels hj).1 hq
    obtain ⟨-, -, k, hk⟩ := (mem_jobPixels hj).1 hq'
    have h1 : q.2 % jobs = a := by rw [hi, Nat.add_mul_mod_self_right, Nat.mod_eq_of_lt ha]
    have h2 : q.2 % jobs = b := by rw [hk, Nat.add_mul_mod_self_right, Nat.mod_eq_of_lt hb]
    omega

/-- **C30**, exactly what the code does instead of the full statement (see `C30_arc_consistency_partial`), the jobs being executed one after another.
Let each pixel be processed once, in the order of jobs. `solve_csp` returns true if and only if each pixel has a node after that, and then these
nodes are what is left; otherwise nothing is left. -/
theorem C30_one_sweep_partial (hc : c.Valid) (hp : c.Proper) {jobs : Nat}
    (hj : 0 < jobs) (hfit : c.h + jobs ≤ 18446744073709551616) :
    Ok (solveCsp (UInt64.ofNat jobs) c) fun r =>
      ∃ order : List (Nat × Nat), order.Nodup ∧ (∀ q, q ∈ order ↔ q.1 < c.w ∧ q.2 < c.h) ∧
        (r.2 = true ↔ ∀ x y, x < c.w → y < c.h → ∃ d, sweep c.w c.h c.E order c.Av x y d) ∧
        (r.2 = true → r.1.Av = sweep c.w c.h c.E order c.Av) ∧ (r.2 = false → ∀ x y d, ¬ r.1.Av x y d) := by
  refine (solveCsp_mk hc hp hj hfit).mono ?_
  rintro r ⟨-, -, h3⟩
  refine ⟨solveOrder c.w c.h jobs, solveOrder_nodup hj, fun q => mem_solveOrder hj, ?_⟩
  rcases h3 with ⟨h4, h5, h6⟩ | ⟨h4, h5, h6⟩
  · exact ⟨⟨fun _ => h4, fun _ => h6⟩, fun _ => h5, fun h => absurd (h6 ▸ h) (by simp)⟩
  · exact ⟨⟨fun h => absurd (h6 ▸ h) (by simp), fun h => absurd h h4⟩, fun h => absurd (h6 ▸ h) (by simp), fun _ => h5⟩

end Iteration

/-- Both results of an iteration are possible. -/
example : ((cspSolutionIteration smallStart 1 0).toOption.map fun r => r.2) = some false ∧
    ((cspSolutionIteration (startOf smallGraph 0) 1 0).toOption.map fun r => r.2) = some true := by decide +kernel

/-! ## C55: the exit status -/

section Status
variable {F : Type} [FloatOps F]

/-- **C55**, exactly what the status is. Full statement: it is 0 if and only if a disparity map is written; it is false
(`C55_missing_images_refuted`, `C55_missing_file_refuted`). It is 1 if an option is repeated or an unexpected exception is reported, and 0 otherwise. -/
theorem C55_status_exact_partial (world : World F) (cl : CommandLine) (o : Outcome) (h : program world cl = .ok o) :
    (o.exit = 0 ∨ o.exit = 1) ∧ (o.exit = 1 ↔ .onlyOnce ∈ o.err ∨ ∃ what, .unexpected what ∈ o.err) := by
  cases cl with
  | repeated => cases h; simp
  | wrong => cases h; simp
  | parsed op =>
    have key : ∀ (out : List Message) (m : M (Option (Text × Text))), handle out m = .ok o →
        (o.exit = 0 ∨ o.exit = 1) ∧ (o.exit = 1 ↔ .onlyOnce ∈ o.err ∨ ∃ what, .unexpected what ∈ o.err) := by
      intro out m h
      rcases m with e | w
      · cases e with
        | ub => cases h
        | nonterm => cases h
        | exit => cases h; simp
        | exc e => cases e <;> cases h <;> simp
      · cases h; simp
    unfold program at h
    dsimp only at h
    cases hp : op.outputImage with
    | none =>
      rw [hp] at h
      by_cases hi : op.leftImage = none ∨ op.rightImage = none
      · simp only [if_pos hi] at h
        cases h; simp
      · simp only [if_neg hi, if_true] at h
        cases h; simp
    | some p =>
      cases hl : op.leftImage with
      | none =>
        rw [hp, hl] at h
        simp only [true_or, if_true] at h
        cases h; simp
      | some l =>
        cases hr : op.rightImage with
        | none =>
          rw [hp, hl, hr] at h
          simp only [or_true, if_true] at h
          cases h; simp
        | some r =>
          rw [hp, hl, hr] at h
          dsimp only at h
          split at h
          · cases h; simp
          · exact key _ _ h

end Status

/-! ## C64: values of options -/

/-- After spaces a text begins with this number. -/
def OptionNumber (t : Text) (v : UInt64) : Prop := ∃ sp u, t = sp ++ u ∧ (∀ c ∈ sp, isSpace c = true) ∧ NumberOf u v
/-- After spaces a text begins with a number that does not fit 64 bits. -/
def OptionTooLarge (t : Text) : Prop := ∃ sp u, t = sp ++ u ∧ (∀ c ∈ sp, isSpace c = true) ∧ TooLarge u

theorem dropWhile_spaces {sp u : Text} (hsp : ∀ c ∈ sp, isSpace c = true) (hu : ∀ c, u.head? = some c → isSpace c = false) :
    (sp ++ u).dropWhile isSpace = u := by
  induction sp with
  | nil =>
    cases u with
    | nil => rfl
    | cons a u => exact List.dropWhile_cons_of_neg (by simp [hu a rfl])
  | cons a sp ih =>
    rw [List.cons_append, List.dropWhile_cons_of_pos (hsp a (by simp))]
    exact ih fun c hc => hsp c (by simp [hc])

/-- `stoul_split` for texts with spaces. -/
theorem spaces_split {t sp sign ds r : Text} (hsp : ∀ c ∈ sp, isSpace c = true) (e : t = sp ++ (sign ++ ds ++ r))
    (hs : sign ∈ ([[], [43], [45]] : List Text)) (hne : ds ≠ []) (hd : ∀ d ∈ ds, isDigit d = true)
    (hr : ∀ d, r.head? = some d → isDigit d = false) :
    stoulDigits t = ds ∧ ((t.dropWhile isSpace).headD 0 == 45) = decide (sign = [45]) := by
  have hdrop : ∀ u : Text, (∀ c, u.head? = some c → isSpace c = false) → u.dropWhile isSpace = u := fun u hu => by
    have := dropWhile_spaces (sp := []) (u := u) (by simp) hu
    simpa using this
  have hhead : ∀ r : Text, ∀ c, (sign ++ ds ++ r).head? = some c → isSpace c = false := by
    intro r c hc
    simp only [List.mem_cons, List.not_mem_nil, or_false] at hs
    rcases hs with rfl | rfl | rfl
    · cases ds with
      | nil => exact absurd rfl hne
      | cons d ds =>
        simp only [List.nil_append, List.cons_append, List.head?_cons, Option.some.injEq] at hc
        exact hc ▸ digit_not_space (hd d (by simp))
    · simp only [List.cons_append, List.nil_append, List.head?_cons, Option.some.injEq] at hc
      subst hc; decide
    · simp only [List.cons_append, List.nil_append, List.head?_cons, Option.some.injEq] at hc
      subst hc; decide
  -- the rest does not matter
  have hns : ∀ c ∈ sign ++ ds ++ [], isSpace c = false := by
    intro c hc
    rw [List.append_nil, List.mem_append] at hc
    rcases hc with hc | hc
    · simp only [List.mem_cons, List.not_mem_nil, or_false] at hs
      rcases hs with rfl | rfl | rfl
      · cases hc
      · simp only [List.mem_singleton] at hc; subst hc; decide
      · simp only [List.mem_singleton] at hc; subst hc; decide
    · exact digit_not_space (hd c hc)
  obtain ⟨-, h2⟩ := stoul_split hns rfl hs hne hd (r := []) (by simp)
  rw [hdrop _ (hhead [])] at h2
  have hneu : sign ++ ds ≠ [] := by simp [hne]
  have ht : t.dropWhile isSpace = sign ++ ds ++ r := by rw [e]; exact dropWhile_spaces hsp (hhead r)
  have hh : (sign ++ ds ++ r).headD 0 = (sign ++ ds ++ []).headD 0 := by
    cases hc : sign ++ ds with
    | nil => exact absurd hc hneu
    | cons a l => rfl
  refine ⟨?_, by rw [ht, hh]; exact h2⟩
  unfold stoulDigits
  rw [ht]
  simp only [List.mem_cons, List.not_mem_nil, or_false] at hs
  rcases hs with rfl | rfl | rfl
  · cases ds with
    | nil => exact absurd rfl hne
    | cons d ds =>
      have hb : (d == 45 || d == 43) = false := by
        have h1 := hd d (by simp)
        cases hx : (d == 45 || d == 43)
        · rfl
        · rw [Bool.or_eq_true, beq_iff_eq, beq_iff_eq] at hx
          rcases hx with rfl | rfl <;> exact absurd h1 (by decide)
      simp only [List.nil_append, List.cons_append, List.headD_cons, hb, Bool.false_eq_true, if_false]
      exact takeWhile_digits hd hr
  · simp only [List.cons_append, List.nil_append, List.headD_cons, List.tail_cons]
    exact takeWhile_digits hd hr
  · simp only [List.cons_append, List.nil_append, List.headD_cons, List.tail_cons]
    exact takeWhile_digits hd hr

theorem spaces_split_exists {t : Text} (hne : stoulDigits t ≠ []) :
    ∃ sp sign ds r, t = sp ++ (sign ++ ds ++ r) ∧ (∀ c ∈ sp, isSpace c = true) ∧ sign ∈ ([[], [43], [45]] : List Text) ∧ ds ≠ [] ∧
      (∀ d ∈ ds, isDigit d = true) ∧ ∀ d, r.head? = some d → isDigit d = false := by
  unfold stoulDigits at hne
  have ht : t = t.takeWhile isSpace ++ t.dropWhile isSpace := (List.takeWhile_append_dropWhile).symm
  generalize t.dropWhile isSpace = u at hne ht
  refine ⟨t.takeWhile isSpace, ?_⟩
  cases u with
  | nil => exact absurd rfl hne
  | cons a u =>
    by_cases ha : a = 45 ∨ a = 43
    · have : (a == 45 || a == 43) = true := by
        rw [Bool.or_eq_true, beq_iff_eq, beq_iff_eq]; exact ha
      simp only [List.headD_cons, this, if_true, List.tail_cons] at hne
      refine ⟨[a], u.takeWhile isDigit, u.dropWhile isDigit, ?_, fun c hc => mem_takeWhile_imp' hc, ?_, hne,
        fun d hd => mem_takeWhile_imp' hd, dropWhile_head u⟩
      · rw [List.append_assoc, List.takeWhile_append_dropWhile]; exact ht
      · rcases ha with rfl | rfl <;> simp
    · have : (a == 45 || a == 43) = false := by simpa using ha
      simp only [List.headD_cons, this, Bool.false_eq_true, if_false] at hne
      refine ⟨[], (a :: u).takeWhile isDigit, (a :: u).dropWhile isDigit, ?_, fun c hc => mem_takeWhile_imp' hc, by simp, hne,
        fun d hd => mem_takeWhile_imp' hd, dropWhile_head _⟩
      rw [List.append_assoc, List.takeWhile_append_dropWhile]; exact ht

/-- What `std::stoul` does, for all texts. -/
theorem stoul_exact (t : Text) :
    (∀ v, stoul t = .ok v ↔ OptionNumber t v) ∧ (stoul t = .error (.exc .outOfRange) ↔ OptionTooLarge t) ∧
    (stoul t = .error (.exc (.invalidArgument "stoul")) ↔ ¬ (∃ v, OptionNumber t v) ∧ ¬ OptionTooLarge t) := by
  have h1 : ∀ v, stoul t = .ok v ↔ OptionNumber t v := by
    intro v
    rw [stoul_def]
    constructor
    · intro hv
      by_cases hne : (stoulDigits t).isEmpty = true
      · rw [if_pos hne] at hv; cases hv
      · rw [if_neg hne] at hv
        obtain ⟨sp, sign, ds, r, e, hsp, hs, hds, hd, hr⟩ := spaces_split_exists (t := t) (by simpa using hne)
        obtain ⟨h1, h2⟩ := spaces_split hsp e hs hds hd hr
        rw [h1, h2] at hv
        split at hv
        · cases hv
        · refine ⟨sp, _, e, hsp, sign, ds, r, rfl, hs, hds, hd, hr, by omega, ?_⟩
          cases hv
          simp
    · rintro ⟨sp, _, e, hsp, sign, ds, r, rfl, hs, hds, hd, hr, hlt, rfl⟩
      obtain ⟨h1, h2⟩ := spaces_split hsp e hs hds hd hr
      rw [h1, h2, if_neg (by simpa using hds), if_neg (by omega)]
      simp
  have h2 : stoul t = .error (.exc .outOfRange) ↔ OptionTooLarge t := by
    rw [stoul_def]
    constructor
    · intro hv
      by_cases hne : (stoulDigits t).isEmpty = true
      · rw [if_pos hne] at hv; cases hv
      · rw [if_neg hne] at hv
        obtain ⟨sp, sign, ds, r, e, hsp, hs, hds, hd, hr⟩ := spaces_split_exists (t := t) (by simpa using hne)
        obtain ⟨h1, h2⟩ := spaces_split hsp e hs hds hd hr
        rw [h1] at hv
        split at hv
        · rename_i hle
          exact ⟨sp, _, e, hsp, sign, ds, r, rfl, hs, hds, hd, hr, hle⟩
        · cases hv
    · rintro ⟨sp, _, e, hsp, sign, ds, r, rfl, hs, hds, hd, hr, hle⟩
      obtain ⟨h1, h2⟩ := spaces_split hsp e hs hds hd hr
      rw [h1, if_neg (by simpa using hds), if_pos hle]
  refine ⟨h1, h2, ?_⟩
  rw [← h2]
  simp only [← h1]
  rcases stoul_cases t with ⟨v, h⟩ | h | h <;> rw [h] <;> simp

/-- **C64**, exactly what values of options are. Full statement: weights and the number of levels given as options are used as given, and anything else
than a number is refused; it is false (`C64_number_options_refuted`). An option has a value exactly if it begins, after spaces, with an optional sign
and digits; the number with minus is subtracted from `2^64`; whatever follows is ignored. It is refused with `out_of_range` exactly if
this number does not fit 64 bits, and with `invalid_argument` exactly if there is none. A weight is the number of levels that would be given by
the same text, converted to `FLOAT`. -/
theorem C64_number_exact_partial {F : Type} [FloatOps F] (left : Image) (t : Text) :
    (∀ v, levelsOption left (some t) = .ok v ↔ OptionNumber t v) ∧
    (levelsOption left (some t) = .error (.exc .outOfRange) ↔ OptionTooLarge t) ∧
    (levelsOption left (some t) = .error (.exc (.invalidArgument "stoul")) ↔ ¬ (∃ v, OptionNumber t v) ∧ ¬ OptionTooLarge t) ∧
    (weightOption (some t) : M F) = (levelsOption left (some t)).map fun v => FloatOps.ofNat v.toNat := by
  obtain ⟨h1, h2, h3⟩ := stoul_exact t
  exact ⟨h1, h2, h3, rfl⟩

/-- The three kinds of texts. -/
example : OptionNumber (bytes " -1x") 18446744073709551615 ∧ OptionTooLarge (bytes "18446744073709551616") ∧
    ¬ (∃ v, OptionNumber (bytes "x1") v) ∧ ¬ OptionTooLarge (bytes "x1") := by
  refine ⟨((stoul_exact _).1 _).1 ?_, (stoul_exact _).2.1.1 ?_, (stoul_exact _).2.2.1 ?_⟩ <;> decide +kernel

end SP
