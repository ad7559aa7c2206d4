import Verif.Model.ParPipeline
import Verif.Lemmas.ParEnds
import Verif.Lemmas.Map
import Verif.Lemmas.Pipeline
/-!
# The whole computation with `solve_csp` executed concurrently
-/
set_option linter.unusedSectionVars false

namespace SP
open FloatOps ConstraintGraph

/-! ## Outcomes with allowed errors -/

/-- `m` returns a value that satisfies `Q`, or ends with an error that satisfies `E`. -/
def Res {α : Type} (E : Err → Prop) (m : M α) (Q : α → Prop) : Prop :=
  match m with
  | .ok a => Q a
  | .error e => E e

variable {E : Err → Prop}

theorem Res.bind {α β : Type} {m : M α} {f : α → M β} {P : α → Prop} {Q : β → Prop}
    (h : Res E m P) (hf : ∀ a, P a → Res E (f a) Q) : Res E (m >>= f) Q := by
  cases m with
  | error e => exact h
  | ok a => exact hf a h

theorem Res.mono {α : Type} {m : M α} {P Q : α → Prop} (h : Res E m P) (hpq : ∀ a, P a → Q a) : Res E m Q := by
  cases m with
  | error e => exact h
  | ok a => exact hpq a h

theorem Res.weaken {α : Type} {m : M α} {E' : Err → Prop} {Q : α → Prop} (h : Res E m Q) (hE : ∀ e, E e → E' e) :
    Res E' m Q := by
  cases m with
  | error e => exact hE e h
  | ok a => exact h

theorem Ok.res {α : Type} {m : M α} {Q : α → Prop} (h : Ok m Q) : Res E m Q := by
  obtain ⟨a, rfl, ha⟩ := h
  exact ha

theorem Res.of_ok {α : Type} {m : M α} {Q : α → Prop} {a : α} (h : Res E m Q) (hm : m = .ok a) : Q a := by
  subst hm; exact h

/-- Rule for loops counting up by one from `0`. -/
theorem cfor_res {σ : Type} {fuel : Nat} {cond : UInt64 → Bool} {body : UInt64 → σ → M (σ × Bool)} {s : σ}
    (n : Nat) (P : Nat → σ → Prop) {Q : σ → Prop} (hfuel : n ≤ fuel)
    (hcond : ∀ k, k ≤ n → cond (UInt64.ofNat k) = decide (k < n)) (h0 : P 0 s)
    (hstep : ∀ k s, k < n → P k s →
      Res E (body (UInt64.ofNat k) s) (fun r => if r.2 then Q r.1 else P (k + 1) r.1))
    (hend : ∀ s, P n s → Q s) : Res E (cfor fuel 0 cond inc body s) Q := by
  refine cfor_rule 0 n P (fun m => Res E m Q) rfl (by omega) (fun k _ h => hcond k (by omega)) h0 ?_ ?_
  · intro k s _ h2 h3
    have h := hstep k s h2 h3
    cases hb : body (UInt64.ofNat k) s with
    | error e => rw [hb] at h; exact .inl ⟨e, rfl, h⟩
    | ok r =>
      obtain ⟨s', b⟩ := r
      rw [hb] at h
      cases b
      · exact .inr (.inr ⟨s', rfl, by simpa [Res] using h⟩)
      · exact .inr (.inl ⟨s', rfl, by simpa [Res] using h⟩)
  · intro s h
    rw [Nat.max_eq_right (Nat.zero_le _)] at h
    exact hend s h

variable {F : Type} [FloatOps F] {c c' : ConstraintGraph F} {B : Nat} {jobs : UInt64} {solve : Solver F}

/-! ## Outcomes of calls -/

theorem RoundsTo.basic {n : Nat} (h : RoundsTo B n jobs c c') (hc : c.Valid) (hj : 0 < jobs.toNat)
    (hfit : c.h + jobs.toNat ≤ 18446744073709551616) (hn : n ≤ 18446744073709551616) :
    c.Same c' ∧ c'.Valid ∧ Sub c'.Av c.Av := by
  induction h with
  | refl => exact ⟨Same.refl c, hc, Sub.refl _⟩
  | again h h' ih =>
    obtain ⟨b1, b2, b3⟩ := ih
    obtain ⟨a1, a2, a3⟩ := h'.basic b2 hj (by rw [b1.h_eq]; exact hfit) hn
    exact ⟨b1.trans a1, a2, a3.trans b3⟩

/-- For a valid graph no worker fails: the outcome is a value, or the loop goes on forever. -/
theorem SolveOutcome.valid {m : M (ConstraintGraph F × Bool)} (h : SolveOutcome B jobs c m) (hc : c.Valid)
    (hj : 0 < jobs.toNat) (hfit : c.h + jobs.toNat ≤ 18446744073709551616) :
    Res (fun e => e = .nonterm ∧ Diverges B jobs.toNat jobs c) m fun r => SolveTo B jobs c r.1 r.2 := by
  have hn : jobs.toNat ≤ 18446744073709551616 := Nat.le_of_lt (toNat_lt' jobs)
  cases m with
  | ok r => exact h
  | error e =>
    rcases h with h | ⟨c', P, i, h1, h2, h3, h4⟩ | ⟨c', h1, h2⟩
    · exact h
    · obtain ⟨a1, a2, -⟩ := h1.basic hc hj hfit hn
      exact absurd h4 ((round_below a2 hj (by rw [a1.h_eq]; exact hfit) hn h2).2 i e h3)
    · obtain ⟨-, a2, -⟩ := h1.basic hc hj hfit hn
      obtain ⟨b, hb, -⟩ := checkNodesLeft_ok a2
      rw [hb] at h2
      cases h2

/-- Some call of `solve_csp` for a graph of right sizes goes on forever. -/
def Solver.HasEndless (solve : Solver F) (jobs : UInt64) : Prop :=
  ∃ n c, c.Valid ∧ c.Proper ∧ c.h + jobs.toNat ≤ 18446744073709551616 ∧ solve n c = .error .nonterm

/-- The error of executions that go on forever. It is possible only with several threads and several flags in a word, and
only if a call of `solve_csp` goes on forever. -/
def Hangs (solve : Solver F) (B : Nat) (jobs : UInt64) (e : Err) : Prop :=
  e = .nonterm ∧ (B ≠ 1 ∧ jobs ≠ 1) ∧ solve.HasEndless jobs

/-- What is known of a call of `solve_csp`. -/
theorem solver_res (hs : solve.Possible B jobs) (hj : 0 < jobs.toNat) (n : Nat) (hc : c.Valid) (hp : c.Proper)
    (hfit : c.h + jobs.toNat ≤ 18446744073709551616) :
    Res (Hangs solve B jobs) (solve n c) fun r => SolveTo B jobs c r.1 r.2 := by
  have h := (hs n c).valid hc hj hfit
  cases hm : solve n c with
  | ok r => rw [hm] at h; exact h
  | error e =>
    rw [hm] at h
    obtain ⟨rfl, h⟩ := h
    refine ⟨rfl, ⟨?_, ?_⟩, n, c, hc, hp, hfit, hm⟩
    · rintro rfl
      exact not_diverges hc hj hfit (Nat.le_of_lt (toNat_lt' jobs)) h
    · rintro rfl
      exact not_diverges_one hc hj hfit h

/-! ## The bisection -/
section
variable {g : DisparityGraph F} {p : LowestPenalties F}

/-- The bisection. `bad i` follows if `solve_csp` says no for the `i`-th candidate. -/
theorem par_thresholdSearch {arr : Array F} {bad : Nat → Prop}
    (hs : ∀ n i (hi : i < arr.size), Res (Hangs solve B jobs)
      (do let c ← mkConstraintGraph g p arr[i]; solve n c) fun r => r.2 = false → bad i)
    (hmono : ∀ i j, i ≤ j → bad j → bad i) (hsize : arr.size ≤ 9223372036854775808) :
    ∀ (fuel lo hi calls : Nat), lo ≤ hi → hi < arr.size → hi - lo ≤ fuel → (∀ i, i < lo → bad i) →
      Res (Hangs solve B jobs) (Par.thresholdSearch solve p g arr fuel (UInt64.ofNat lo) (UInt64.ofNat hi) calls) fun r =>
        ∃ k, r.1 = UInt64.ofNat k ∧ k ≤ hi ∧ (∀ i, i < k → bad i) ∧ ∀ c, hi - lo < 2 ^ c → r.2 ≤ calls + c := by
  intro fuel
  induction fuel with
  | zero =>
    intro lo hi calls h1 h2 h3 hbad
    obtain rfl : lo = hi := by omega
    have e : ¬ (UInt64.ofNat lo < UInt64.ofNat lo) := by rw [UInt64.lt_iff_toNat_lt]; omega
    unfold Par.thresholdSearch
    rw [if_neg e, mid_ofNat (by omega), show (lo + lo) / 2 = lo by omega]
    exact ⟨lo, rfl, Nat.le_refl _, hbad, fun c _ => Nat.le_add_right _ _⟩
  | succ fuel ih =>
    intro lo hi calls h1 h2 h3 hbad
    unfold Par.thresholdSearch
    rw [mid_ofNat (by omega)]
    by_cases hlt : lo < hi
    · have e : UInt64.ofNat lo < UInt64.ofNat hi := by
        rw [UInt64.lt_iff_toNat_lt, toNat_ofNat_lt (by omega), toNat_ofNat_lt (by omega)]; exact hlt
      dsimp only
      rw [if_pos e, rd_ofNat (by omega) (by omega), bind_ok]
      have hm := hs calls ((lo + hi) / 2) (by omega)
      cases hc : mkConstraintGraph g p arr[(lo + hi) / 2] with
      | error err => rw [hc] at hm; exact hm
      | ok c =>
        rw [hc, bind_ok] at hm
        rw [bind_ok]
        refine hm.bind ?_
        rintro ⟨r1, r2⟩ hr
        simp only at hr ⊢
        cases r2
        · rw [if_neg (by simp)]
          have e1 : UInt64.ofNat ((lo + hi) / 2) + 1 = UInt64.ofNat ((lo + hi) / 2 + 1) := inc_ofNat _
          rw [e1]
          refine (ih ((lo + hi) / 2 + 1) hi (calls + 1) (by omega) h2 (by omega)
            (fun i hi => hmono i _ (by omega) (hr rfl))).mono ?_
          rintro r ⟨k, a1, a3, a4, a6⟩
          refine ⟨k, a1, a3, a4, ?_⟩
          intro c hc
          cases c with
          | zero => simp at hc; omega
          | succ c =>
            rw [Nat.pow_succ] at hc
            have := a6 c (by omega)
            omega
        · rw [if_pos rfl]
          refine (ih lo ((lo + hi) / 2) (calls + 1) (by omega) (by omega) (by omega) hbad).mono ?_
          rintro r ⟨k, a1, a3, a4, a6⟩
          refine ⟨k, a1, by omega, a4, ?_⟩
          intro c hc
          cases c with
          | zero => simp at hc; omega
          | succ c =>
            rw [Nat.pow_succ] at hc
            have := a6 c (by omega)
            omega
    · obtain rfl : lo = hi := by omega
      have e : ¬ (UInt64.ofNat lo < UInt64.ofNat lo) := by rw [UInt64.lt_iff_toNat_lt]; omega
      dsimp only
      rw [if_neg e, show (lo + lo) / 2 = lo by omega]
      exact ⟨lo, rfl, Nat.le_refl _, hbad, fun c _ => Nat.le_add_right _ _⟩

theorem par_calculateMinimalConsistentThreshold {arr : Array F} {bad : Nat → Prop}
    (hs : ∀ n i (hi : i < arr.size), Res (Hangs solve B jobs)
      (do let c ← mkConstraintGraph g p arr[i]; solve n c) fun r => r.2 = false → bad i)
    (hmono : ∀ i j, i ≤ j → bad j → bad i) (hpos : 0 < arr.size) (hsize : arr.size ≤ 9223372036854775808) :
    Res (Hangs solve B jobs) (Par.calculateMinimalConsistentThreshold solve p g arr) fun r =>
      ∃ k, ∃ hk : k < arr.size, r.1 = arr[k] ∧ (∀ i, i < k → bad i) ∧ ∀ c, arr.size ≤ 2 ^ c → r.2 ≤ c := by
  unfold Par.calculateMinimalConsistentThreshold
  have e : UInt64.ofNat arr.size - 1 = UInt64.ofNat (arr.size - 1) := ofNat_pred hpos
  dsimp only
  rw [e, toNat_ofNat_lt (by omega)]
  refine Res.bind (par_thresholdSearch hs hmono hsize _ 0 (arr.size - 1) 0 (by omega) (by omega) (by omega)
    (by omega)) ?_
  rintro ⟨i, calls⟩ ⟨k, a1, a3, a5, a6⟩
  dsimp only at a1 a6 ⊢
  rw [a1, rd_ofNat (by omega) (by omega), bind_ok]
  refine ⟨k, by omega, rfl, a5, fun c hc => ?_⟩
  have := a6 c (by omega)
  omega

end

/-! ## `find_labeling` -/

/-- One step of `find_labeling`. -/
def Par.labelStep (solve : Solver F) (n : Nat) (g : ConstraintGraph F) (pixel : Pixel) :
    M (ConstraintGraph F × Bool × Nat) := do
  let (g, chosen) ← chooseBestNode g pixel
  if !chosen then return (g, false, n)
  let (g, solved) ← solve n g
  return (g, solved, n + 1)

theorem par_findLabeling_rule (hc : c.Valid) (I : Nat → Nat → ConstraintGraph F → Prop)
    (Q : ConstraintGraph F × Bool × Nat → Prop) (h0 : I 0 0 c)
    (hstep : ∀ x y g n, x < c.w → y < c.h → I x y g →
      Res E (Par.labelStep solve n g (mkPixel x y)) fun r => (r.2.1 = true ∧ I x (y + 1) r.1) ∨ (r.2.1 = false ∧ Q r))
    (hrow : ∀ x g, x < c.w → I x c.h g → I (x + 1) 0 g)
    (hend : ∀ g n, I c.w 0 g → Q (g, true, n)) (n : Nat) : Res E (Par.findLabeling solve n c) Q := by
  have hwl : c.disparityGraph.left.width.toNat = c.w := by rw [hc.graph.width_eq]; rfl
  have hhl : c.disparityGraph.left.height.toNat = c.h := by rw [hc.graph.height_eq]; rfl
  have hb := hc.bounds
  unfold Par.findLabeling
  refine cfor_res c.w (fun x (s : ConstraintGraph F × Bool × Nat) => s.2.1 = true ∧ I x 0 s.1) (by omega) ?_
    ⟨rfl, h0⟩ ?_ ?_
  · intro k hk
    rw [cond_lt _ _ (by omega), hwl]
  · rintro x ⟨s, b, n⟩ hx ⟨hb, hI⟩
    simp only at hb hI
    subst hb
    refine Res.bind (P := fun (r : ConstraintGraph F × Bool × Nat) =>
      (r.2.1 = true ∧ I x c.h r.1) ∨ (r.2.1 = false ∧ Q r)) ?_ ?_
    · refine cfor_res c.h (fun y (s : ConstraintGraph F × Bool × Nat) => s.2.1 = true ∧ I x y s.1) (by omega) ?_
        ⟨rfl, hI⟩ ?_ ?_
      · intro k hk
        rw [cond_lt _ _ (by omega), hhl]
      · rintro y ⟨s, b, n⟩ hy ⟨hb, hI⟩
        simp only at hb hI
        subst hb
        have hr := hstep x y s n hx hy hI
        unfold Par.labelStep at hr
        change Res E (chooseBestNode s (mkPixel x y) >>= _) _
        cases h1 : chooseBestNode s (mkPixel x y) with
        | error e => rw [h1] at hr; exact hr
        | ok r1 =>
          obtain ⟨g1, b1⟩ := r1
          rw [h1, bind_ok] at hr
          rw [bind_ok]
          cases b1
          · simp only [Bool.not_false, if_true, pure_eq_ok] at hr ⊢
            simpa [Res] using hr
          · simp only [Bool.not_true, Bool.false_eq_true, if_false] at hr ⊢
            cases h2 : solve n g1 with
            | error e => rw [h2] at hr; exact hr
            | ok r2 =>
              obtain ⟨g2, b2⟩ := r2
              rw [h2, bind_ok] at hr
              rw [bind_ok]
              cases b2
              · simp only [Bool.not_false, if_true, pure_eq_ok] at hr ⊢
                simpa [Res] using hr
              · simp only [Bool.not_true, Bool.false_eq_true, if_false, pure_eq_ok] at hr ⊢
                simpa [Res] using hr
      · intro s hs
        exact .inl hs
    · rintro ⟨s, b, n⟩ h
      rcases h with ⟨h1, h2⟩ | ⟨h1, h2⟩
      · simp only at h1
        subst h1
        simpa [Res] using hrow x s hx h2
      · simp only at h1
        subst h1
        simpa [Res] using h2
  · rintro ⟨s, b, n⟩ ⟨h1, h2⟩
    simp only at h1
    subst h1
    exact hend s n h2

/-- What `find_labeling` guarantees on success. -/
theorem par_findLabeling (hs : solve.Possible B jobs) (hc : c.Valid) (hp : c.Proper) (hj : 0 < jobs.toNat)
    (hfit : c.h + jobs.toNat ≤ 18446744073709551616) (n : Nat) :
    Res (Hangs solve B jobs) (Par.findLabeling solve n c) fun r => c.Same r.1 ∧ r.1.Valid ∧ Sub r.1.Av c.Av ∧
      (r.2.1 = true → AllAlive c.w c.h r.1.Av ∧ ArcConsistent c.w c.h c.E r.1.Av ∧ r.1.Single) := by
  have hwp : 0 < c.w := hc.graph.width_pos
  have hhp : 0 < c.h := hc.graph.height_pos
  refine par_findLabeling_rule hc (fun X Y g => c.Same g ∧ g.Valid ∧ Sub g.Av c.Av ∧
    (∀ x y d d', x < c.w → y < c.h → Before X Y x y → g.Av x y d → g.Av x y d' → d = d') ∧
    ((∀ x y, x < c.w → y < c.h → Before X Y x y) →
      AllAlive c.w c.h g.Av ∧ ArcConsistent c.w c.h c.E g.Av)) _
    ⟨Same.refl c, hc, Sub.refl _, ?_, ?_⟩ ?_ ?_ ?_ n
  · rintro x y d d' - - (h | ⟨-, h⟩) <;> omega
  · intro h
    rcases h 0 0 hwp hhp with h | ⟨-, h⟩ <;> omega
  · rintro x y g n hx hy ⟨h1, h2, h3, h4, -⟩
    unfold Par.labelStep
    have hpg := h1.proper hp h3
    refine Res.bind (chooseBestNode_mk h2 hpg (by rw [h1.w_eq]; exact hx) (by rw [h1.h_eq]; exact hy)).res ?_
    rintro ⟨g1, b1⟩ ⟨k1, k2, k3, k4⟩
    simp only at k1 k2 k3 k4
    have hav : g1.Av = keepBest g x y := by
      funext x' y' d
      exact propext (k3 x' y' d)
    have hsub1 : Sub g1.Av g.Av := by rw [hav]; exact keepBest_sub g x y
    cases b1
    · exact .inr ⟨rfl, h1.trans k1, k2, hsub1.trans h3, fun h => Bool.noConfusion h⟩
    · simp only [Bool.not_true, Bool.false_eq_true, if_false]
      have hs1 := h1.trans k1
      have hfit1 : g1.h + jobs.toNat ≤ 18446744073709551616 := by rw [hs1.h_eq]; exact hfit
      refine Res.bind (solver_res hs hj n k2 (hs1.proper hp (hsub1.trans h3)) hfit1) ?_
      rintro ⟨g2, b2⟩ hto
      simp only at hto
      obtain ⟨m1, m2, m3⟩ := hto.basic k2 hj hfit1
      have hsub2 : Sub g2.Av c.Av := m3.trans (hsub1.trans h3)
      cases b2
      · exact .inr ⟨rfl, hs1.trans m1, m2, hsub2, fun h => Bool.noConfusion h⟩
      · have huniq : ∀ x' y' d d', x' < c.w → y' < c.h → Before x (y + 1) x' y' →
            keepBest g x y x' y' d → keepBest g x y x' y' d' → d = d' := by
          intro x' y' d d' hx' hy' hbef hd hd'
          by_cases e : x' = x ∧ y' = y
          · exact (hd.2 e).unique (hd'.2 e)
          · refine h4 x' y' d d' hx' hy' ?_ hd.1 hd'.1
            rcases hbef with h | ⟨rfl, h⟩
            · exact .inl h
            · exact .inr ⟨rfl, by have : y' ≠ y := fun e' => e ⟨rfl, e'⟩; omega⟩
        refine .inl ⟨rfl, hs1.trans m1, m2, hsub2, ?_, ?_⟩
        · intro x' y' d d' hx' hy' hbef hd hd'
          have hd1 := m3 _ _ _ hd
          have hd2 := m3 _ _ _ hd'
          rw [hav] at hd1 hd2
          exact huniq x' y' d d' hx' hy' hbef hd1 hd2
        · intro hall
          have hsg : g1.Single := by
            intro x' y' d d' hd hd'
            have h0 := h3 _ _ _ (hsub1 _ _ _ hd)
            rw [hav] at hd hd'
            exact huniq x' y' d d' h0.1 h0.2.1 (hall x' y' h0.1 h0.2.1) hd hd'
          have := hto.single k2 hj hfit1 (hs1.proper hp (hsub1.trans h3)) hsg rfl
          rwa [hs1.w_eq, hs1.h_eq, hs1.E_eq] at this
  · rintro x g hx ⟨h1, h2, h3, h4, h5⟩
    have hb : ∀ x' y', y' < c.h → (Before (x + 1) 0 x' y' ↔ Before x c.h x' y') := by
      intro x' y' hy'
      unfold Before
      constructor
      · rintro (h | ⟨-, h⟩)
        · rcases Nat.lt_or_eq_of_le (Nat.le_of_lt_succ h) with h | h
          · exact .inl h
          · exact .inr ⟨h, hy'⟩
        · omega
      · rintro (h | ⟨h, -⟩) <;> left <;> omega
    refine ⟨h1, h2, h3, fun x' y' d d' hx' hy' hbef => ?_, fun hall => ?_⟩
    · rw [hb x' y' hy'] at hbef
      exact h4 x' y' d d' hx' hy' hbef
    · refine h5 fun x' y' hx' hy' => ?_
      rw [← hb x' y' hy']
      exact hall x' y' hx' hy'
  · rintro g n ⟨h1, h2, h3, h4, h5⟩
    refine ⟨h1, h2, h3, fun _ => ?_⟩
    obtain ⟨h6, h7⟩ := h5 fun x y hx hy => .inl hx
    refine ⟨h6, h7, fun x y d d' hd hd' => ?_⟩
    have hd0 := h3 _ _ _ hd
    exact h4 x y d d' hd0.1 hd0.2.1 (.inl hd0.1) hd hd'

end SP
