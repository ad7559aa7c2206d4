import Verif.Lemmas.Row
import Verif.Lemmas.ParRow
import Verif.Lemmas.ParMap
import Verif.Lemmas.GpuSame
/-!
# The program for images of one row
-/
set_option linter.unusedSectionVars false

namespace SP
open FloatOps ConstraintGraph
section
variable {F : Type} [FloatOps F] {c c0 c' : ConstraintGraph F} {g : DisparityGraph F} {B : Nat} {jobs : UInt64} {solve solve' : Solver F}

/-- Exact outcome of `solve_csp` for one row. -/
theorem solveCsp_row (hc : c.Valid) (hp : c.Proper) (h1 : c.h = 1) (hj : 0 < jobs.toNat)
    (hfit : c.h + jobs.toNat ≤ 18446744073709551616) :
    Ok (solveCsp jobs c) fun r => c.Same r.1 ∧ r.1.Valid ∧ Sub r.1.Av c.Av ∧
      let S := sweep c.w 1 c.E (rowOrder c.w) c.Av
      ((AllAlive c.w 1 S ∧ r.1.Av = S ∧ r.2 = true) ∨ (¬ AllAlive c.w 1 S ∧ (∀ x y d, ¬ r.1.Av x y d) ∧ r.2 = false)) := by
  have h := solveCsp_mk hc hp hj hfit
  rw [UInt64.ofNat_toNat, h1, solveOrder_row hj] at h
  refine h.mono ?_
  rintro r ⟨q1, q2, q3⟩
  refine ⟨q1, q2, ?_, q3⟩
  rcases q3 with ⟨-, q3, -⟩ | ⟨-, q3, -⟩
  · rw [q3]; exact sweep_sub _
  · exact fun x y d hd => absurd hd (q3 x y d)

/-- The number of jobs does not matter. -/
theorem solveCsp_jobs (hc : c.Valid) (hp : c.Proper) (h1 : c.h = 1) (hj : 0 < jobs.toNat)
    (hfit : c.h + jobs.toNat ≤ 18446744073709551616) : solveCsp jobs c = solveCsp 1 c := by
  obtain ⟨r, e, a1, a2, -, a3⟩ := solveCsp_row hc hp h1 hj hfit
  obtain ⟨r', e', b1, b2, -, b3⟩ := solveCsp_row (jobs := 1) hc hp h1 (by decide) (by rw [h1]; decide)
  rw [e, e']
  have hav : r.1.Av = r'.1.Av ∧ r.2 = r'.2 := by
    rcases a3 with ⟨p1, p2, p3⟩ | ⟨p1, p2, p3⟩ <;> rcases b3 with ⟨q1, q2, q3⟩ | ⟨q1, q2, q3⟩
    · exact ⟨p2.trans q2.symm, p3.trans q3.symm⟩
    · exact absurd p1 q1
    · exact absurd q1 p1
    · refine ⟨?_, p3.trans q3.symm⟩
      funext x y d
      exact propext ⟨fun h => absurd h (p2 x y d), fun h => absurd h (q2 x y d)⟩
  rw [show r = r' from Prod.ext (graph_ext a1 b1 a2 b2 hav.1) hav.2]

/-! ## The same solver -/

theorem par_thresholdSearch_congr {p : LowestPenalties F} {arr : Array F}
    (h : ∀ n t c, mkConstraintGraph g p t = .ok c → solve n c = solve' n c) (fuel : Nat) (lo hi : UInt64) (calls : Nat) :
    Par.thresholdSearch solve p g arr fuel lo hi calls = Par.thresholdSearch solve' p g arr fuel lo hi calls := by
  induction fuel generalizing lo hi calls with
  | zero => rfl
  | succ fuel ih =>
    unfold Par.thresholdSearch
    simp only [ih]
    split
    · refine bind_congr fun t => ?_
      cases hc : mkConstraintGraph g p t with
      | error e => rfl
      | ok c => simp only [bind_ok, h calls t c hc]
    · rfl

theorem cfor_congr_inv {σ : Type} {body body' : UInt64 → σ → M (σ × Bool)} {cond : UInt64 → Bool} {step : UInt64 → UInt64} (I : σ → Prop)
    (h : ∀ i s, cond i = true → I s → body i s = body' i s ∧ ∀ r, body i s = .ok r → r.2 = false → I r.1) :
    ∀ (fuel : Nat) (i : UInt64) (s : σ), I s → cfor fuel i cond step body s = cfor fuel i cond step body' s := by
  intro fuel
  induction fuel with
  | zero => intro i s _; unfold cfor; rfl
  | succ fuel ih =>
    intro i s hs
    rw [cfor_succ, cfor_succ]
    split
    · rename_i hcond
      obtain ⟨h1, h2⟩ := h i s hcond hs
      rw [← h1]
      cases hb : body i s with
      | error e => rfl
      | ok r =>
        obtain ⟨s1, b⟩ := r
        cases b
        · exact ih _ _ (h2 _ hb rfl)
        · rfl
    · rfl

theorem cfor_keeps {σ : Type} {body : UInt64 → σ → M (σ × Bool)} {cond : UInt64 → Bool} {step : UInt64 → UInt64} (I : σ → Prop)
    (h : ∀ i s, cond i = true → I s → ∀ r, body i s = .ok r → I r.1) :
    ∀ (fuel : Nat) (i : UInt64) (s r : σ), I s → cfor fuel i cond step body s = .ok r → I r := by
  intro fuel
  induction fuel with
  | zero =>
    intro i s r hs hr
    unfold cfor at hr
    split at hr
    · cases hr
    · cases hr; exact hs
  | succ fuel ih =>
    intro i s r hs hr
    rw [cfor_succ] at hr
    split at hr
    · rename_i hcond
      cases hb : body i s with
      | error e => rw [hb] at hr; cases hr
      | ok q =>
        obtain ⟨s1, b⟩ := q
        have hI := h i s hcond hs _ hb
        rw [hb, bind_ok] at hr
        cases b
        · exact ih _ _ _ hI hr
        · cases hr; exact hI
    · cases hr; exact hs

/-- Solvers that do the same with graphs of the kind of `c` find the same labeling. -/
theorem par_findLabeling_congr (I : ConstraintGraph F → Prop)
    (hchoose : ∀ g g1 p b, I g → p.x < c.disparityGraph.left.width → p.y < c.disparityGraph.left.height →
      chooseBestNode g p = .ok (g1, b) → I g1)
    (hsolve : ∀ n g, I g → solve n g = solve' n g ∧ ∀ r, solve n g = .ok r → I r.1) (n : Nat) (hc : I c) :
    Par.findLabeling solve n c = Par.findLabeling solve' n c := by
  unfold Par.findLabeling
  have inner : ∀ (x y : UInt64) (s : ConstraintGraph F × Bool × Nat),
      x < c.disparityGraph.left.width → y < c.disparityGraph.left.height → I s.1 →
      ((do
          let (g, chosen) ← chooseBestNode s.1 { x := x, y := y }
          if !chosen then return ((g, false, s.2.2), true)
          let (g, solved) ← solve s.2.2 g
          if !solved then return ((g, false, s.2.2 + 1), true)
          return ((g, true, s.2.2 + 1), false) : M ((ConstraintGraph F × Bool × Nat) × Bool)) = (do
          let (g, chosen) ← chooseBestNode s.1 { x := x, y := y }
          if !chosen then return ((g, false, s.2.2), true)
          let (g, solved) ← solve' s.2.2 g
          if !solved then return ((g, false, s.2.2 + 1), true)
          return ((g, true, s.2.2 + 1), false))) ∧ ∀ r, ((do
          let (g, chosen) ← chooseBestNode s.1 { x := x, y := y }
          if !chosen then return ((g, false, s.2.2), true)
          let (g, solved) ← solve s.2.2 g
          if !solved then return ((g, false, s.2.2 + 1), true)
          return ((g, true, s.2.2 + 1), false) : M ((ConstraintGraph F × Bool × Nat) × Bool)) = .ok r) → I r.1.1 := by
    intro x y s hx hy hs
    cases h1 : chooseBestNode s.1 { x := x, y := y } with
    | error e => exact ⟨rfl, fun r hr => by cases hr⟩
    | ok q =>
      obtain ⟨g1, b1⟩ := q
      have hI1 := hchoose _ _ _ _ hs hx hy h1
      simp only [bind_ok]
      cases b1
      · exact ⟨rfl, fun r hr => by cases hr; exact hI1⟩
      · simp only [Bool.not_true, Bool.false_eq_true, if_false]
        obtain ⟨e, h2⟩ := hsolve s.2.2 g1 hI1
        rw [← e]
        refine ⟨rfl, fun r hr => ?_⟩
        cases h3 : solve s.2.2 g1 with
        | error e => rw [h3] at hr; cases hr
        | ok q =>
          have hI2 := h2 q h3
          obtain ⟨g2, b2⟩ := q
          rw [h3, bind_ok] at hr
          cases b2
          · cases hr; exact hI2
          · cases hr; exact hI2
  refine cfor_congr_inv (fun s => I s.1) (fun x s hx hs => ?_) _ _ _ hc
  have hx : x < c.disparityGraph.left.width := of_decide_eq_true hx
  have e1 := cfor_congr_inv (step := inc) (cond := fun y => decide (y < c.disparityGraph.left.height)) (fun s => I s.1)
    (fun y s hy hs => ⟨(inner x y s hx (of_decide_eq_true hy) hs).1, fun r hr _ => (inner x y s hx (of_decide_eq_true hy) hs).2 r hr⟩)
    c.disparityGraph.left.height.toNat 0 s hs
  refine ⟨by rw [e1], fun r hr _ => ?_⟩
  obtain ⟨s1, h1, h2⟩ := bind_eq_ok hr
  cases h2
  exact cfor_keeps (fun s => I s.1) (fun y s hy hs r hr => (inner x y s hx (of_decide_eq_true hy) hs).2 r hr) _ _ _ _ hs h1

section
variable [LawfulFloat F]

/-- Graphs of the computation for one row. -/
def RowGraph (g : DisparityGraph F) (c : ConstraintGraph F) : Prop := c.disparityGraph = g ∧ c.Valid ∧ c.Proper

theorem RowGraph.solved (h1 : g.h = 1) (hj : 0 < jobs.toNat) (hfit : g.h + jobs.toNat ≤ 18446744073709551616)
    (hs : ∀ n c, RowGraph g c → SolveOutcome B jobs c (solve n c)) (h : RowGraph g c) (n : Nat) :
    solve n c = solveCsp 1 c ∧ ∀ r, solve n c = .ok r → RowGraph g r.1 := by
  obtain ⟨rfl, hc, hp⟩ := h
  have h1' : c.h = 1 := h1
  have e := (SolveOutcome.oneRow hc hp h1' hj hfit).1 (hs n c ⟨rfl, hc, hp⟩)
  refine ⟨e.trans (solveCsp_jobs hc hp h1' hj hfit), fun r hr => ?_⟩
  obtain ⟨r', hr', a1, a2, a3, -⟩ := solveCsp_row hc hp h1' hj hfit
  rw [e, hr'] at hr
  cases hr
  exact ⟨a1.1, a2, a1.proper hp a3⟩

theorem RowGraph.start (hg : g.Fresh) {p : LowestPenalties F} (hp : Tables g p) {t : F} (h : mkConstraintGraph g p t = .ok c) :
    RowGraph g c := by
  obtain ⟨c', h', a1, a2, -, a4, -⟩ := start_mk hg hp t
  rw [h] at h'
  cases h'
  exact ⟨a4, a1, a2⟩

theorem RowGraph.choose (h : RowGraph g c) {p : Pixel} {b : Bool} (hx : p.x < g.left.width) (hy : p.y < g.left.height)
    (hr : chooseBestNode c p = .ok (c', b)) : RowGraph g c' := by
  obtain ⟨rfl, hc, hp⟩ := h
  have e : p = mkPixel p.x.toNat p.y.toNat := by
    unfold mkPixel
    rw [UInt64.ofNat_toNat, UInt64.ofNat_toNat]
  rw [e] at hr
  obtain ⟨r, hr', a1, a2, a3, -⟩ := chooseBestNode_mk hc hp (x := p.x.toNat) (y := p.y.toNat)
    (by have := UInt64.lt_iff_toNat_lt.1 hx; rw [hc.graph.width_eq] at this; exact this)
    (by have := UInt64.lt_iff_toNat_lt.1 hy; rw [hc.graph.height_eq] at this; exact this)
  rw [hr] at hr'
  cases hr'
  exact ⟨a1.1, a2, a1.proper hp fun x y d hd => ((a3 x y d).1 hd).1⟩

theorem par_minimalThreshold_row (hg : g.Fresh) (h1 : g.h = 1) (hj : 0 < jobs.toNat)
    (hfit : g.h + jobs.toNat ≤ 18446744073709551616) (hs : ∀ n c, RowGraph g c → SolveOutcome B jobs c (solve n c)) :
    Par.minimalThreshold solve g = Par.minimalThreshold (fun _ => solveCsp 1) g := by
  unfold Par.minimalThreshold
  obtain ⟨p, e, hp⟩ := tables_mk hg
  rw [e, bind_ok, bind_ok]
  refine bind_congr fun l => ?_
  unfold Par.calculateMinimalConsistentThreshold
  simp only
  rw [par_thresholdSearch_congr fun n t c hc => ((RowGraph.start hg hp hc).solved h1 hj hfit hs n).1]

/-- The tables of lowest penalties in the search. -/
theorem par_minimalThreshold_tables (hg : g.Fresh) {r : LowestPenalties F × F × Nat} (h : Par.minimalThreshold solve g = .ok r) :
    Tables g r.1 := by
  unfold Par.minimalThreshold at h
  obtain ⟨p, e, hp⟩ := tables_mk hg
  rw [e, bind_ok] at h
  obtain ⟨l, -, h⟩ := bind_eq_ok h
  obtain ⟨q, -, h⟩ := bind_eq_ok h
  cases h
  exact hp

theorem par_solvedGraph_row (hg : g.Fresh) (h1 : g.h = 1) (hj : 0 < jobs.toNat)
    (hfit : g.h + jobs.toNat ≤ 18446744073709551616) (hs : ∀ n c, RowGraph g c → SolveOutcome B jobs c (solve n c)) :
    Par.solvedGraph solve g = Par.solvedGraph (fun _ => solveCsp 1) g ∧ ∀ r, Par.solvedGraph solve g = .ok r → RowGraph g r.1 := by
  unfold Par.solvedGraph
  rw [← par_minimalThreshold_row hg h1 hj hfit hs]
  cases hm : Par.minimalThreshold solve g with
  | error e => exact ⟨rfl, fun r hr => by cases hr⟩
  | ok q =>
    have hp := par_minimalThreshold_tables hg hm
    obtain ⟨p, t, n⟩ := q
    simp only [bind_ok]
    cases hc : mkConstraintGraph g p t with
    | error e => exact ⟨rfl, fun r hr => by cases hr⟩
    | ok c =>
      simp only [bind_ok]
      obtain ⟨e, h2⟩ := (RowGraph.start hg hp hc).solved h1 hj hfit hs n
      rw [← e]
      refine ⟨rfl, fun r hr => ?_⟩
      cases h3 : solve n c with
      | error e => rw [h3] at hr; cases hr
      | ok q =>
        have h4 := h2 q h3
        obtain ⟨c2, b⟩ := q
        rw [h3, bind_ok] at hr
        cases b
        · cases hr
        · cases hr; exact h4

theorem par_findLabeling_row (h1 : g.h = 1) (hj : 0 < jobs.toNat)
    (hfit : g.h + jobs.toNat ≤ 18446744073709551616) (hs : ∀ n c, RowGraph g c → SolveOutcome B jobs c (solve n c)) (h : RowGraph g c) (n : Nat) :
    Par.findLabeling solve n c = Par.findLabeling (fun _ => solveCsp 1) n c := by
  have hcg := h.1
  exact par_findLabeling_congr (RowGraph g) (fun _ _ _ _ hI hx hy => hI.choose (hcg ▸ hx) (hcg ▸ hy))
    (fun n g' hI => hI.solved h1 hj hfit hs n) n h

/-- For images of one row the number of threads and their speed do not matter: the outcome is that of the sequential model. -/
theorem par_disparityMap_row (hg : g.Fresh) (h1 : g.h = 1) (hj : 0 < jobs.toNat)
    (hfit : g.h + jobs.toNat ≤ 18446744073709551616) (hs : ∀ n c, RowGraph g c → SolveOutcome B jobs c (solve n c)) :
    Par.disparityMap solve g = disparityMap 1 g := by
  rw [← par_disparityMap_seq]
  unfold Par.disparityMap
  obtain ⟨e, h2⟩ := par_solvedGraph_row hg h1 hj hfit hs
  rw [← e]
  cases hsol : Par.solvedGraph solve g with
  | error e => rfl
  | ok q =>
    obtain ⟨c, n⟩ := q
    simp only [bind_ok]
    rw [par_findLabeling_row h1 hj hfit hs (h2 _ hsol)]

/-! ## The choice of nodes -/

/-- Exact outcome of `find_labeling` for one row, after `solve_csp`. -/
theorem findLabeling_row (hc : c0.Valid) (hp : c0.Proper) (h1 : c0.h = 1) (hsym : EdgeSymm c0.w 1 c0.E)
    (hnn : ∀ x y d, le zero (c0.disparityGraph.nodeQ x y d) = true) (h : solveCsp 1 c0 = .ok (c, true)) :
    Ok (findLabeling 1 c) fun r =>
      (r.2 = true ∧ ∃ L, Consistent c0.w 1 c0.E c0.Av L ∧
        (∀ x, x < c0.w → RowBest c0.w c0.E c0.Av c0.disparityGraph.nodeQ L x) ∧ r.1.Av = labelingNodes c0.w 1 L) ∨
      (r.2 = false ∧ ¬ ∃ L, Consistent c0.w 1 c0.E c0.Av L ∧
        ∀ x, x < c0.w → RowBest c0.w c0.E c0.Av c0.disparityGraph.nodeQ L x) := by
  obtain ⟨r, hr, a1, a2, a3, a4⟩ := solveCsp_row (jobs := 1) hc hp h1 (by decide) (by rw [h1]; decide)
  rw [h] at hr
  cases hr
  simp only at a1 a2 a3 a4
  have hwe := a1.w_eq
  have hhe : c.h = 1 := a1.h_eq.trans h1
  rcases a4 with ⟨a4, a5, -⟩ | ⟨-, -, a5⟩
  rotate_left
  · cases a5
  let Good (L : Nat → Nat → Nat) : Prop := Consistent c0.w 1 c0.E c0.Av L ∧
    ∀ x, x < c0.w → RowBest c0.w c0.E c0.Av c0.disparityGraph.nodeQ L x
  have hnb : ∀ x y k, HasNb c0.w 1 x y k → nbx x k < c0.w ∧ nby y k < 1 := fun x y k hk => ⟨hk.nbx_lt, hk.nby_lt⟩
  refine findLabeling_rule a2 (fun x y g => c0.Same g ∧ g.Valid ∧ Sub g.Av c0.Av ∧ AllAlive c0.w 1 g.Av ∧
    (∃ L, RowState c0.w c0.E c0.Av L (x + y) g.Av ∧
      ∀ x', x' < x + y → RowBest c0.w c0.E c0.Av c0.disparityGraph.nodeQ L x') ∧
    ∀ L, Good L → Sub (labelingNodes c0.w 1 L) g.Av) _
    ⟨a1, a2, a3, by rw [a5]; exact a4, ⟨fun _ _ => 0, by rw [a5]; exact .start, fun x' hx' => by omega⟩, fun L hL => ?_⟩
    ?_ ?_ ?_
  · rw [a5]
    exact sub_sweep (hL.1.arc hnb) hL.1.sub _
  · rintro x y g hx hy ⟨b1, b2, b3, b4, ⟨L, b5, b6⟩, b7⟩
    rw [hwe] at hx
    obtain rfl : y = 0 := by omega
    rw [Nat.add_zero] at b5 b6
    have hge : g.h = 1 := b1.h_eq.trans h1
    have hpg := b1.proper hp b3
    have hls := labelStep_mk (jobs := 1) b2 hpg (by omega) (by rw [hge]; decide) (x := x) (y := 0) (by rw [b1.w_eq]; exact hx) (by omega)
    refine hls.mono ?_
    rintro ⟨g', b'⟩ ⟨d1, d2, d3, d4⟩
    simp only at d1 d2 d3 d4
    rw [hge, b1.w_eq, b1.E_eq, solveOrder_row (by omega)] at d4
    have hcand := fun d => b5.candidates b4 hx (d := d)
    -- a node that is kept is the best candidate
    have hkept : ∀ d, Kept g x 0 d ↔ RowCandidate c0.w c0.E c0.Av L x d ∧ ∀ d', RowCandidate c0.w c0.E c0.Av L x d' →
        le (c0.disparityGraph.nodeQ x 0 d) (c0.disparityGraph.nodeQ x 0 d') = true ∧
        (d' < d → lt (c0.disparityGraph.nodeQ x 0 d) (c0.disparityGraph.nodeQ x 0 d') = true) := by
      intro d
      rw [kept_iff_best hpg (by rw [b1.1]; exact fun d _ => hnn x 0 d), b1.1]
      simp only [hcand]
      constructor
      · rintro ⟨e1, e2, e3⟩
        exact ⟨e1, fun d' hd' => ⟨e2 d' hd', fun hlt => e3 d' hlt hd'⟩⟩
      · rintro ⟨e1, e2⟩
        exact ⟨e1, fun d' hd' => (e2 d' hd').1, fun d' hlt hd' => (e2 d' hd').2 hlt⟩
    -- labelings of the required kind survive
    have hkeep : ∀ L', Good L' → Kept g x 0 (L' x 0) ∧ Sub (labelingNodes c0.w 1 L') (keepBest g x 0) ∧
        Sub (labelingNodes c0.w 1 L') (sweep c0.w 1 c0.E (rowOrder c0.w) (keepBest g x 0)) := by
      intro L' hL'
      have hsame : ∀ x', x' < x → L' x' 0 = L x' 0 := by
        intro x' hx'
        exact b5.done x' hx' _ (b7 L' hL' _ _ _ ⟨by omega, by omega, rfl⟩)
      have hcong : ∀ d, RowCandidate c0.w c0.E c0.Av L x d ↔ RowCandidate c0.w c0.E c0.Av L' x d := by
        intro d
        unfold RowCandidate
        refine and_congr_right fun _ => forall_congr' fun h0 => ?_
        rw [hsame (x - 1) (by omega)]
      have hk : Kept g x 0 (L' x 0) := by
        rw [hkept]
        obtain ⟨e1, e2⟩ := hL'.2 x hx
        exact ⟨(hcong _).2 e1, fun d' hd' => e2 d' ((hcong _).1 hd')⟩
      have hsub : Sub (labelingNodes c0.w 1 L') (keepBest g x 0) := by
        rintro x' y' d ⟨hx', hy', rfl⟩
        refine ⟨b7 L' hL' _ _ _ ⟨hx', hy', rfl⟩, ?_⟩
        rintro ⟨rfl, rfl⟩
        exact hk
      exact ⟨hk, hsub, sub_sweep (hL'.1.arc hnb) hsub _⟩
    rcases d4 with ⟨e1, ⟨b, e2⟩, e3, rfl⟩ | ⟨e1, rfl⟩
    · left
      refine ⟨rfl, b1.trans d1, d2, d3.trans b3, by rw [e3]; exact e1, ⟨fun x' y' => if x' = x then b else L x' y', ?_, ?_⟩, ?_⟩
      · rw [e3]
        have hL : RowState c0.w c0.E c0.Av (fun x' y' => if x' = x then b else L x' y') x g.Av :=
          b5.congr fun y hy => if_neg (by omega)
        refine hL.step hsym (keepBest_sub g x 0) (fun d hd => ?_) (fun y d hne => ?_)
        · simp only [if_true]
          exact (hd.2 ⟨rfl, rfl⟩).unique e2
        · exact ⟨fun h => h.1, fun h => ⟨h, fun hh => absurd hh.1 hne⟩⟩
      · intro x' hx'
        rcases Nat.lt_or_ge x' x with hlt | hge'
        · exact (b6 x' hlt).congr fun y hy => if_neg (by omega)
        · obtain rfl : x' = x := by omega
          have hb := (hkept b).1 e2
          unfold RowBest
          have hcong : ∀ d, RowCandidate c0.w c0.E c0.Av (fun x'' y' => if x'' = x' then b else L x'' y') x' d ↔
              RowCandidate c0.w c0.E c0.Av L x' d := by
            intro d
            unfold RowCandidate
            refine and_congr_right fun _ => forall_congr' fun h0 => ?_
            simp only
            rw [if_neg (by omega)]
          simp only [hcong, if_true]
          exact hb
      · intro L' hL'
        rw [e3]
        exact (hkeep L' hL').2.2
    · right
      refine ⟨rfl, .inr ⟨rfl, ?_⟩⟩
      rintro ⟨L', hL'⟩
      obtain ⟨f1, -, f3⟩ := hkeep L' hL'
      rcases e1 with e1 | e1
      · exact e1 fun x' y' hx' hy' => ⟨L' x' y', f3 _ _ _ ⟨hx', hy', rfl⟩⟩
      · exact e1 ⟨_, f1⟩
  · rintro x g hx ⟨b1, b2, b3, b4, b5, b6⟩
    rw [hhe] at b5
    exact ⟨b1, b2, b3, b4, b5, b6⟩
  · rintro g ⟨b1, b2, b3, b4, ⟨L, b5, b6⟩, b7⟩
    rw [hwe, Nat.add_zero] at b5 b6
    left
    refine ⟨rfl, L, (consistent_row hsym).2 fun x hx => ⟨(b6 x hx).1.1.mem, (b6 x hx).1.2⟩, b6, ?_⟩
    funext x y d
    refine propext ⟨fun hd => ?_, ?_⟩
    · have hin := b3 _ _ _ hd
      have hy : y < 1 := by rw [← h1]; exact hin.2.1
      obtain rfl : y = 0 := by omega
      exact ⟨hin.1, hy, b5.done x hin.1 d hd⟩
    · rintro ⟨hx, hy, rfl⟩
      obtain rfl : y = 0 := by omega
      obtain ⟨d, hd⟩ := b4 x 0 hx (by omega)
      rwa [b5.done x hx d hd] at hd

end
end
end SP
