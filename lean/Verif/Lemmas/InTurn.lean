import Verif.Lemmas.RowCode
import Verif.Props.Threshold
/-!
# Threads that work in turn

With one thread, and also if threads work one after another, `solve_csp` decides correctly about each row of the image, as if there were no other ones.
-/
set_option linter.unusedSectionVars false

namespace SP
open FloatOps ConstraintGraph

/-! ## Rows in the order of processing -/

theorem range_split {i n : Nat} (hi : i < n) : List.range n = List.range i ++ i :: List.range' (i + 1) (n - i - 1) := by
  have e : n = i + (1 + (n - i - 1)) := by omega
  conv_lhs => rw [e]
  rw [List.range_eq_range', List.range_eq_range', ← List.range'_append_1, ← List.range'_append_1, Nat.zero_add]
  rfl

/-- Pixels of a row are processed from left to right, and pixels of the other rows are processed before them or after them. -/
theorem solveOrder_split {w h jobs y : Nat} (hj : 0 < jobs) (hy : y < h) :
    ∃ ps qs, solveOrder w h jobs = ps ++ (List.range w).map (fun x => (x, y)) ++ qs ∧ (∀ x, (x, y) ∉ ps) ∧ ∀ x, (x, y) ∉ qs := by
  have hm : y % jobs < jobs := Nat.mod_lt _ hj
  have he : y % jobs + y / jobs * jobs = y := by
    rw [Nat.mul_comm]
    exact Nat.mod_add_div y jobs
  have hn : y / jobs < jobRows h jobs (y % jobs) := (jobRows_lt hj).2 (by omega)
  have other : ∀ {i x : Nat}, i < jobs → (x, y) ∈ jobPixels w jobs i (jobRows h jobs i) → i = y % jobs := by
    intro i x hi hp
    obtain ⟨-, -, k, hk⟩ := (mem_jobPixels hj).1 hp
    simp only at hk
    rw [hk, Nat.add_mul_mod_self_right, Nat.mod_eq_of_lt hi]
  have same : ∀ {l : List Nat} {x : Nat}, (x, y) ∈ l.flatMap (fun i => (List.range w).map fun x => (x, y % jobs + i * jobs)) → y / jobs ∈ l := by
    intro l x hp
    simp only [List.mem_flatMap, List.mem_map, Prod.mk.injEq] at hp
    obtain ⟨i, hi, x', -, -, h2⟩ := hp
    have h3 : i * jobs = y / jobs * jobs := by omega
    rwa [Nat.eq_of_mul_eq_mul_right hj h3] at hi
  refine ⟨(List.range (y % jobs)).flatMap (fun i => jobPixels w jobs i (jobRows h jobs i)) ++
      (List.range (y / jobs)).flatMap (fun i => (List.range w).map fun x => (x, y % jobs + i * jobs)),
    (List.range' (y / jobs + 1) (jobRows h jobs (y % jobs) - y / jobs - 1)).flatMap (fun i => (List.range w).map fun x => (x, y % jobs + i * jobs)) ++
      (List.range' (y % jobs + 1) (jobs - y % jobs - 1)).flatMap (fun i => jobPixels w jobs i (jobRows h jobs i)), ?_, fun x hx => ?_, fun x hx => ?_⟩
  · unfold solveOrder
    rw [range_split hm, List.flatMap_append, List.flatMap_cons]
    conv_lhs => rw [show jobPixels w jobs (y % jobs) (jobRows h jobs (y % jobs)) =
      (List.range (jobRows h jobs (y % jobs))).flatMap (fun i => (List.range w).map fun x => (x, y % jobs + i * jobs)) from rfl, range_split hn,
      List.flatMap_append, List.flatMap_cons, he]
    simp only [List.append_assoc]
  · rcases List.mem_append.1 hx with hx | hx
    · obtain ⟨i, hi, hp⟩ := List.mem_flatMap.1 hx
      have hi := List.mem_range.1 hi
      have := other (by omega) hp
      omega
    · have := List.mem_range.1 (same hx)
      omega
  · rcases List.mem_append.1 hx with hx | hx
    · have := (List.mem_range'_1.1 (same hx)).1
      omega
    · obtain ⟨i, hi, hp⟩ := List.mem_flatMap.1 hx
      have hi := List.mem_range'_1.1 hi
      have := other (by omega) hp
      omega

variable {w h : Nat} {E : EdgeRel} {S : NodeSet}

/-- What is left of a row is connected to the left. -/
theorem sweep_left {m y : Nat} (hm : m ≤ w) (hy : y < h) : ∀ x d, x < m → sweep w h E ((List.range m).map fun x => (x, y)) S x y d →
    S x y d ∧ (0 < x → ∃ d', sweep w h E ((List.range m).map fun x => (x, y)) S (x - 1) y d' ∧ E x y 1 d d') := by
  induction m with
  | zero => exact fun x d hx => absurd hx x.not_lt_zero
  | succ m ih =>
    intro x d hx hT
    rw [List.range_succ, List.map_append, List.map_singleton, sweep_snoc] at hT ⊢
    have keep : ∀ {x d}, x ≠ m → (removeUnsupported w h E (sweep w h E ((List.range m).map fun x => (x, y)) S) m y x y d ↔
        sweep w h E ((List.range m).map fun x => (x, y)) S x y d) := fun hne => removeUnsupported_other fun he => hne he.1
    by_cases he : x = m
    · subst he
      refine ⟨sweep_sub _ _ _ _ hT.1, fun h0 => ?_⟩
      obtain ⟨d', h1, h2⟩ := hT.2 ⟨rfl, rfl⟩ 1 ⟨by omega, hy, .inr (.inl ⟨rfl, h0⟩)⟩
      exact ⟨d', (keep (by omega)).2 h1, h2⟩
    · obtain ⟨h1, h2⟩ := ih (by omega) x d (by omega) ((keep he).1 hT)
      refine ⟨h1, fun h0 => ?_⟩
      obtain ⟨d', h3, h4⟩ := h2 h0
      exact ⟨d', (keep (by omega)).2 h3, h4⟩

/-- If each pixel has a node after all the pixels have been processed, then there is a labeling of each row. -/
theorem sweep_rows {jobs : Nat} (hj : 0 < jobs) (hw : 0 < w) (hal : AllAlive w h (sweep w h E (solveOrder w h jobs) S)) {y : Nat} (hy : y < h) :
    ∃ R : Nat → Nat, ∀ x, x < w → S x y (R x) ∧ (0 < x → E x y 1 (R x) (R (x - 1))) := by
  obtain ⟨ps, qs, e, hps, hqs⟩ := solveOrder_split (w := w) hj hy
  have hT : ∀ x d, x < w → sweep w h E (solveOrder w h jobs) S x y d →
      S x y d ∧ (0 < x → ∃ d', sweep w h E (solveOrder w h jobs) S (x - 1) y d' ∧ E x y 1 d d') := by
    intro x d hx hd
    rw [e, sweep_append, sweep_append] at hd ⊢
    rw [sweep_other (hqs x)] at hd
    obtain ⟨h1, h2⟩ := sweep_left (Nat.le_refl w) hy x d hx hd
    refine ⟨(sweep_other (hps x) d).1 h1, fun h0 => ?_⟩
    obtain ⟨d', h3, h4⟩ := h2 h0
    exact ⟨d', (sweep_other (hqs (x - 1)) d').2 h3, h4⟩
  have key : ∀ x d, x < w → sweep w h E (solveOrder w h jobs) S x y d → ∃ R : Nat → Nat, R x = d ∧ ∀ x', x' ≤ x →
      S x' y (R x') ∧ (0 < x' → E x' y 1 (R x') (R (x' - 1))) := by
    intro x
    induction x with
    | zero =>
      intro d hx hd
      refine ⟨fun _ => d, rfl, fun x' hx' => ?_⟩
      obtain rfl : x' = 0 := by omega
      exact ⟨(hT 0 d hx hd).1, fun h => absurd h (by omega)⟩
    | succ x ih =>
      intro d hx hd
      obtain ⟨h1, h2⟩ := hT (x + 1) d hx hd
      obtain ⟨d', h3, h4⟩ := h2 (by omega)
      obtain ⟨R, h5, h6⟩ := ih d' (by omega) h3
      refine ⟨fun x' => if x' = x + 1 then d else R x', by simp, fun x' hx' => ?_⟩
      rcases Nat.lt_or_ge x x' with h | h
      · obtain rfl : x' = x + 1 := by omega
        simp only [if_true, Nat.add_sub_cancel]
        rw [if_neg (by omega), h5]
        exact ⟨h1, fun _ => h4⟩
      · simp only
        rw [if_neg (by omega), if_neg (by omega)]
        exact h6 x' h
  obtain ⟨d, hd⟩ := hal (w - 1) y (by omega) hy
  obtain ⟨R, -, hR⟩ := key (w - 1) d (by omega) hd
  exact ⟨R, fun x hx => hR x (by omega)⟩

/-! ## The same outcome as that of the sequential model -/

section
variable {F : Type} [FloatOps F] {c : ConstraintGraph F} {g : DisparityGraph F} {B : Nat} {jobs : UInt64} {solve : Solver F}

/-- Threads work in turn. -/
def Solver.InTurn (jobs : UInt64) (solve : Solver F) : Prop :=
  ∀ n c, c.Valid → c.Proper → c.h + jobs.toNat ≤ 18446744073709551616 → solve n c = solveCsp jobs c

theorem Solver.InTurn.seq (jobs : UInt64) : Solver.InTurn (F := F) jobs fun _ => solveCsp jobs := fun _ _ _ _ _ => rfl

/-- There is only one thread. -/
theorem Solver.Possible.inTurn (h : solve.Possible B 1) : solve.InTurn 1 := fun n c hc hp hfit => (SolveOutcome.one hc hp hfit).1 (h n c)

variable [LawfulFloat F]

theorem Solver.InTurn.keeps (hs : solve.InTurn jobs) (hj : 0 < jobs.toNat) (hfit : g.h + jobs.toNat ≤ 18446744073709551616) (h : RowGraph g c) (n : Nat) :
    solve n c = solveCsp jobs c ∧ ∀ r, solve n c = .ok r → RowGraph g r.1 := by
  obtain ⟨rfl, hc, hp⟩ := h
  have e := hs n c hc hp hfit
  refine ⟨e, fun r hr => ?_⟩
  obtain ⟨r', hr', a1, a2, a3⟩ := solveCsp_mk hc hp hj hfit
  rw [UInt64.ofNat_toNat] at hr'
  rw [e, hr'] at hr
  cases hr
  refine ⟨a1.1, a2, a1.proper hp ?_⟩
  rcases a3 with ⟨-, a3, -⟩ | ⟨-, a3, -⟩
  · rw [a3]
    exact sweep_sub _
  · exact fun x y d hd => absurd hd (a3 x y d)

theorem par_minimalThreshold_inTurn (hs : solve.InTurn jobs) (hg : g.Fresh) (hj : 0 < jobs.toNat) (hfit : g.h + jobs.toNat ≤ 18446744073709551616) :
    Par.minimalThreshold solve g = Par.minimalThreshold (fun _ => solveCsp jobs) g := by
  unfold Par.minimalThreshold
  obtain ⟨p, e, hp⟩ := tables_mk hg
  rw [e, bind_ok, bind_ok]
  refine bind_congr fun l => ?_
  unfold Par.calculateMinimalConsistentThreshold
  simp only
  rw [par_thresholdSearch_congr fun n t c hc => (hs.keeps hj hfit (RowGraph.start hg hp hc) n).1]

/-- What has been found is the same, and its flags are valid. -/
theorem par_solvedGraph_inTurn (hs : solve.InTurn jobs) (hg : g.Fresh) (hj : 0 < jobs.toNat) (hfit : g.h + jobs.toNat ≤ 18446744073709551616) :
    Par.solvedGraph solve g = Par.solvedGraph (fun _ => solveCsp jobs) g ∧ ∀ r, Par.solvedGraph solve g = .ok r → RowGraph g r.1 := by
  unfold Par.solvedGraph
  rw [← par_minimalThreshold_inTurn hs hg hj hfit]
  cases hm : Par.minimalThreshold solve g with
  | error e => exact ⟨rfl, fun r hr => by cases hr⟩
  | ok q =>
    have hp := par_minimalThreshold_tables hg hm
    obtain ⟨p, t, n⟩ := q
    simp only [bind_ok]
    cases hc : mkConstraintGraph g p t with
    | error e => exact ⟨rfl, fun r hr => by cases hr⟩
    | ok c =>
      simp only [bind_ok]
      obtain ⟨e, h2⟩ := hs.keeps hj hfit (RowGraph.start hg hp hc) n
      rw [← e]
      refine ⟨rfl, fun r hr => ?_⟩
      cases h3 : solve n c with
      | error e => rw [h3] at hr; cases hr
      | ok q =>
        have h4 := h2 q h3
        obtain ⟨c2, b⟩ := q
        rw [h3, bind_ok] at hr
        cases b
        · cases hr
        · cases hr; exact h4

theorem par_disparityMap_inTurn (hs : solve.InTurn jobs) (hg : g.Fresh) (hj : 0 < jobs.toNat) (hfit : g.h + jobs.toNat ≤ 18446744073709551616) :
    Par.disparityMap solve g = disparityMap jobs g := by
  rw [← par_disparityMap_seq]
  unfold Par.disparityMap
  obtain ⟨e, h2⟩ := par_solvedGraph_inTurn hs hg hj hfit
  rw [← e]
  cases hsol : Par.solvedGraph solve g with
  | error e => rfl
  | ok q =>
    obtain ⟨c, n⟩ := q
    simp only [bind_ok]
    have hr := h2 _ hsol
    have hcg := hr.1
    rw [par_findLabeling_congr (RowGraph g) (fun _ _ _ _ hI hx hy => hI.choose (hcg ▸ hx) (hcg ▸ hy)) (fun n g' hI => hs.keeps hj hfit hI n) n hr]

end
end SP
