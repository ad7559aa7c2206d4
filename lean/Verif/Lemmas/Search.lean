import Verif.Lemmas.Fetch
import Verif.Lemmas.SolveCsp
/-!
# Refinement of the search of the threshold
-/
namespace SP
open FloatOps
variable {F : Type} [FloatOps F] {g : DisparityGraph F} {p : LowestPenalties F}

theorem mid_ofNat {lo hi : Nat} (h : lo + hi < 18446744073709551616) :
    (UInt64.ofNat lo + UInt64.ofNat hi) / 2 = UInt64.ofNat ((lo + hi) / 2) := by
  rw [← UInt64.toNat_inj, UInt64.toNat_div, ← UInt64.ofNat_add, toNat_ofNat_lt h, toNat_ofNat_lt (by omega)]
  rfl

/-- The bisection. `sol i` is what `solve_csp` says for the `i`-th candidate. -/
theorem thresholdSearch_mk {jobs : UInt64} {arr : Array F} {sol : Nat → Bool}
    (hs : ∀ i (hi : i < arr.size), Ok (do let c ← mkConstraintGraph g p arr[i]; solveCsp jobs c) fun r => r.2 = sol i)
    (hsize : arr.size ≤ 9223372036854775808) :
    ∀ (fuel lo hi calls : Nat), lo ≤ hi → hi < arr.size → hi - lo ≤ fuel →
      Ok (thresholdSearch jobs p g arr fuel (UInt64.ofNat lo) (UInt64.ofNat hi) calls) fun r =>
        ∃ k, r.1 = UInt64.ofNat k ∧ lo ≤ k ∧ k ≤ hi ∧ (k = hi ∨ sol k = true) ∧ (k = lo ∨ sol (k - 1) = false) ∧
          ∀ c, hi - lo < 2 ^ c → r.2 ≤ calls + c := by
  intro fuel
  induction fuel with
  | zero =>
    intro lo hi calls h1 h2 h3
    obtain rfl : lo = hi := by omega
    have e : ¬ (UInt64.ofNat lo < UInt64.ofNat lo) := by rw [UInt64.lt_iff_toNat_lt]; omega
    unfold thresholdSearch
    rw [if_neg e, mid_ofNat (by omega)]
    refine Ok.pure ⟨lo, ?_, Nat.le_refl _, Nat.le_refl _, .inl rfl, .inl rfl, fun c _ => Nat.le_add_right _ _⟩
    rw [show (lo + lo) / 2 = lo by omega]
  | succ fuel ih =>
    intro lo hi calls h1 h2 h3
    unfold thresholdSearch
    rw [mid_ofNat (by omega)]
    by_cases hlt : lo < hi
    · have e : UInt64.ofNat lo < UInt64.ofNat hi := by
        rw [UInt64.lt_iff_toNat_lt, toNat_ofNat_lt (by omega), toNat_ofNat_lt (by omega)]; exact hlt
      dsimp only
      rw [if_pos e, rd_ofNat (by omega) (by omega), bind_ok]
      have hm := hs ((lo + hi) / 2) (by omega)
      obtain ⟨r, hr, hrs⟩ := hm
      cases hc : mkConstraintGraph g p arr[(lo + hi) / 2] with
      | error err => rw [hc] at hr; simp at hr
      | ok c =>
        rw [hc, bind_ok] at hr
        rw [bind_ok, hr, bind_ok]
        obtain ⟨r1, r2⟩ := r
        dsimp only at hrs ⊢
        rw [hrs]
        cases hsol : sol ((lo + hi) / 2)
        · rw [if_neg (by simp)]
          have e1 : UInt64.ofNat ((lo + hi) / 2) + 1 = UInt64.ofNat ((lo + hi) / 2 + 1) := inc_ofNat _
          rw [e1]
          refine (ih ((lo + hi) / 2 + 1) hi (calls + 1) (by omega) h2 (by omega)).mono ?_
          rintro r ⟨k, a1, a2, a3, a4, a5, a6⟩
          refine ⟨k, a1, by omega, a3, a4, .inr ?_, ?_⟩
          · rcases a5 with rfl | a5
            · exact hsol
            · exact a5
          · intro c hc
            cases c with
            | zero => simp at hc; omega
            | succ c =>
              rw [Nat.pow_succ] at hc
              have := a6 c (by omega)
              omega
        · rw [if_pos rfl]
          refine (ih lo ((lo + hi) / 2) (calls + 1) (by omega) (by omega) (by omega)).mono ?_
          rintro r ⟨k, a1, a2, a3, a4, a5, a6⟩
          refine ⟨k, a1, a2, by omega, .inr ?_, a5, ?_⟩
          · rcases a4 with rfl | a4
            · exact hsol
            · exact a4
          · intro c hc
            cases c with
            | zero => simp at hc; omega
            | succ c =>
              rw [Nat.pow_succ] at hc
              have := a6 c (by omega)
              omega
    · obtain rfl : lo = hi := by omega
      have e : ¬ (UInt64.ofNat lo < UInt64.ofNat lo) := by rw [UInt64.lt_iff_toNat_lt]; omega
      dsimp only
      rw [if_neg e]
      refine Ok.pure ⟨lo, ?_, Nat.le_refl _, Nat.le_refl _, .inl rfl, .inl rfl, fun c _ => Nat.le_add_right _ _⟩
      rw [show (lo + lo) / 2 = lo by omega]

theorem calculateMinimalConsistentThreshold_mk {jobs : UInt64} {arr : Array F} {sol : Nat → Bool}
    (hs : ∀ i (hi : i < arr.size), Ok (do let c ← mkConstraintGraph g p arr[i]; solveCsp jobs c) fun r => r.2 = sol i)
    (hpos : 0 < arr.size) (hsize : arr.size ≤ 9223372036854775808) :
    Ok (calculateMinimalConsistentThreshold jobs p g arr) fun r =>
      ∃ k, ∃ hk : k < arr.size, r.1 = arr[k] ∧ (k + 1 = arr.size ∨ sol k = true) ∧ (k = 0 ∨ sol (k - 1) = false) ∧
        ∀ c, arr.size ≤ 2 ^ c → r.2 ≤ c := by
  unfold calculateMinimalConsistentThreshold
  have e : UInt64.ofNat arr.size - 1 = UInt64.ofNat (arr.size - 1) := ofNat_pred hpos
  dsimp only
  rw [e, toNat_ofNat_lt (by omega)]
  refine Ok.bind (thresholdSearch_mk hs hsize _ 0 (arr.size - 1) 0 (by omega) (by omega) (by omega)) ?_
  rintro ⟨i, calls⟩ ⟨k, a1, a2, a3, a4, a5, a6⟩
  dsimp only at a1 a6 ⊢
  rw [a1, rd_ofNat (by omega) (by omega), bind_ok]
  refine Ok.pure ⟨k, by omega, rfl, ?_, a5, fun c hc => ?_⟩
  · rcases a4 with h | h
    · left; omega
    · exact .inr h
  · have := a6 c (by omega)
    omega

/-- What `solve_csp` says for a threshold. -/
noncomputable def solvable (jobs : UInt64) (p : LowestPenalties F) (g : DisparityGraph F) (t : F) : Bool :=
  match (do let c ← mkConstraintGraph g p t; solveCsp jobs c) with
  | .ok r => r.2
  | .error _ => false

end SP
