import Verif.Lemmas.Pgm
import Mathlib.Tactic.Ring
/-!
# Exact outcome of reading a PGM image
-/
namespace SP

/-- The result of `numbers` with `vs` in front. -/
def prep (vs : List UInt64) (m : M (Option (List UInt64 × List Text))) : M (Option (List UInt64 × List Text)) :=
  match m with
  | .error e => .error e
  | .ok none => .ok none
  | .ok (some (us, ts)) => .ok (some (vs ++ us, ts))

theorem prep_nil (m : M (Option (List UInt64 × List Text))) : prep [] m = m := by
  rcases m with e | _ | ⟨us, ts⟩ <;> rfl

theorem numbers_stop {n : Nat} {ts : List Text}
    (h : ts = [] ∨ ∃ t ts', ts = t :: ts' ∧ IsInstruction t ∧ ¬ LikeNumber t) : numbers (n + 1) ts = .ok none := by
  rcases h with rfl | ⟨t, ts', rfl, h1, h2⟩
  · rfl
  · unfold numbers
    rw [(stoul_invalid h1.2.1).2 h2]
    rfl

theorem numbers_range {n : Nat} {t : Text} {ts : List Text} (h : stoul t = .error (.exc .outOfRange)) :
    numbers (n + 1) (t :: ts) = .error (.exc .outOfRange) := by
  unfold numbers
  rw [h]
  rfl

theorem numbers_cons {n : Nat} {t : Text} {ts : List Text} {v : UInt64} (h : stoul t = .ok v) :
    numbers (n + 1) (t :: ts) = prep [v] (numbers n ts) := by
  rw [numbers, h]
  simp only [catchInvalid]
  rcases numbers n ts with e | _ | ⟨us, ts⟩ <;> rfl

theorem prep_prep (vs : List UInt64) (v : UInt64) (m : M (Option (List UInt64 × List Text))) :
    prep vs (prep [v] m) = prep (vs ++ [v]) m := by
  rcases m with e | _ | ⟨us, ts⟩ <;> simp [prep]

theorem prep_none (vs : List UInt64) : prep vs (.ok none) = .ok none := rfl
theorem prep_error (vs : List UInt64) (e : Err) : prep vs (.error e) = .error e := rfl

/-! ## The header -/

theorem readHeader_mk {s : IStream} {ts : List Text} (h : Ahead s ts) :
    Sim (fun r q => match q with
      | none => r.2 = none ∧ r.1.fail = true
      | some (vs, ts') => ∃ a b c, vs = [a, b, c] ∧ r.2 = some (a, b, c) ∧ AheadNow r.1 ts')
      (readHeader s) (numbers 3 ts) := by
  unfold readHeader
  rcases readNumber_mk h with ⟨a1, r, a2, a3, a4⟩ | ⟨t, ts', rfl, a1, a2, a3⟩ | ⟨t, ts', v, rfl, a1, a2, r, a3, a4, a5⟩
  · rw [a2, numbers_stop a1, bind_ok]
    obtain ⟨s1, o⟩ := r
    simp only at a3 a4
    subst a3
    exact Sim.ok ⟨rfl, a4⟩
  · rw [a3, numbers_range a2]
    exact Sim.error _
  · rw [a3, numbers_cons a2, bind_ok]
    obtain ⟨s1, o⟩ := r
    simp only at a4 a5
    subst a4
    simp only
    rcases readNumber_mk a5.toAhead with
      ⟨b1, r, b2, b3, b4⟩ | ⟨t, ts', rfl, b1, b2, b3⟩ | ⟨t, ts', v, rfl, b1, b2, r, b3, b4, b5⟩
    · rw [b2, numbers_stop b1, bind_ok]
      obtain ⟨s1, o⟩ := r
      simp only at b3 b4
      subst b3
      exact Sim.ok ⟨rfl, b4⟩
    · rw [b3, numbers_range b2]
      exact Sim.error _
    · rw [b3, numbers_cons b2, bind_ok]
      obtain ⟨s1, o⟩ := r
      simp only at b4 b5
      subst b4
      simp only
      rcases readNumber_mk b5.toAhead with
        ⟨c1, r, c2, c3, c4⟩ | ⟨t, ts', rfl, c1, c2, c3⟩ | ⟨t, ts', v, rfl, c1, c2, r, c3, c4, c5⟩
      · rw [c2, numbers_stop c1, bind_ok]
        obtain ⟨s1, o⟩ := r
        simp only at c3 c4
        subst c3
        exact Sim.ok ⟨rfl, c4⟩
      · rw [c3, numbers_range c2]
        exact Sim.error _
      · rw [c3, numbers_cons c2, bind_ok]
        obtain ⟨s1, o⟩ := r
        simp only at c4 c5
        subst c4
        exact Sim.ok ⟨_, _, _, rfl, rfl, c5⟩

/-! ## Intensities -/

/-- How the outcome of the loops is related to the list of numbers. -/
def DataRel (r : ReadState) (q : Option (List UInt64 × List Text)) : Prop :=
  match q with
  | none => r.2.2 = true ∧ r.1.fail = true
  | some (vs, ts') => r.2.2 = false ∧ r.2.1 = vs.toArray ∧ AheadNow r.1 ts'

/-- `k` of `N` numbers are read into an array of `n` elements. -/
def ReadSome (N n : Nat) (ts : List Text) (k : Nat) (st : ReadState) : Prop :=
  k ≤ n ∧ st.2.2 = false ∧ ∃ vs ts', vs.length = k ∧ AheadNow st.1 ts' ∧
    st.2.1 = (vs ++ List.replicate (n - k) 0).toArray ∧ numbers N ts = prep vs (numbers (N - k) ts')

/-- One iteration of the inner loop. -/
theorem readPixel_mk {image : Image} {N n : Nat} {ts : List Text} (hfit : n < 18446744073709551616) {x y K : Nat}
    (hK : image.width.toNat * y + x = K) (hKN : K < N) {st : ReadState} (hst : ReadSome N n ts K st) :
    (∃ e, readPixel image (UInt64.ofNat y) (UInt64.ofNat x) st = .error e ∧ numbers N ts = .error e) ∨
    (∃ st', readPixel image (UInt64.ofNat y) (UInt64.ofNat x) st = .ok (st', true) ∧ st'.2.2 = true ∧
      st'.1.fail = true ∧ numbers N ts = .ok none) ∨
    (K < n ∧ ∃ st', readPixel image (UInt64.ofNat y) (UInt64.ofNat x) st = .ok (st', false) ∧
      ReadSome N n ts (K + 1) st') ∨
    (K = n ∧ readPixel image (UInt64.ofNat y) (UInt64.ofNat x) st = .error .ub ∧
      ∃ vs ts', vs.length = K + 1 ∧ numbers N ts = prep vs (numbers (N - (K + 1)) ts')) := by
  obtain ⟨s, d, b⟩ := st
  obtain ⟨h0, h1, vs, ts', h2, h3, h4, h5⟩ := hst
  simp only at h1 h3 h4
  subst h1
  have hpi : pixelIndex image ⟨UInt64.ofNat x, UInt64.ofNat y⟩ = UInt64.ofNat K := by
    rw [← hK]
    have := pixelIndex_mk (img := image) (x := x) (y := y)
    unfold mkPixel at this
    rw [this]
    unfold pidx
    rw [Nat.add_comm]
  obtain ⟨j, hj⟩ : ∃ j, N - K = j + 1 := ⟨N - K - 1, by omega⟩
  have e1 : N - (K + 1) = j := by omega
  unfold readPixel
  simp only
  rw [hj] at h5
  rcases readNumber_mk h3.toAhead with ⟨a1, r, a2, a3, a4⟩ | ⟨t, ts'', rfl, a1, a2, a3⟩ | ⟨t, ts'', v, rfl, a1, a2, r, a3, a4, a5⟩
  · right; left
    rw [numbers_stop a1, prep_none] at h5
    obtain ⟨s1, o⟩ := r
    simp only at a3 a4
    subst a3
    exact ⟨(s1, d, true), by rw [a2]; rfl, rfl, a4, h5⟩
  · left
    rw [numbers_range a2, prep_error] at h5
    exact ⟨.exc .outOfRange, by rw [a3]; rfl, h5⟩
  · right; right
    obtain ⟨s1, o⟩ := r
    simp only at a4 a5
    subst a4
    rw [numbers_cons a2, prep_prep] at h5
    rw [a3, bind_ok]
    simp only
    rw [hpi]
    by_cases hKn : K < n
    · left
      rw [wr_ofNat (by omega) (by rw [h4]; simp; omega)]
      refine ⟨hKn, _, rfl, by omega, rfl, vs ++ [v], ts'', by simp [h2], a5, ?_, by rw [e1]; exact h5⟩
      simp only
      obtain ⟨i, hi⟩ : ∃ i, n - K = i + 1 := ⟨n - K - 1, by omega⟩
      have e2 : n - (K + 1) = i := by omega
      rw [h4, e2, hi, ← h2]
      simp [List.replicate_succ]
    · right
      refine ⟨by omega, ?_, vs ++ [v], ts'', by simp [h2], by rw [e1]; exact h5⟩
      have hwr : wr d (UInt64.ofNat K) v = .error .ub := by
        unfold wr
        rw [if_neg]
        rw [toNat_ofNat_lt (by omega), h4]
        simp
        omega
      rw [hwr]
      rfl

/-- The loops, when the number of pixels does not wrap around. -/
theorem readData_mk {s : IStream} {ts : List Text} (h : AheadNow s ts) {image : Image} {n : Nat}
    (hn : image.width.toNat * image.height.toNat = n) (hfit : n < 18446744073709551616)
    (hd : image.data = Array.replicate n 0) :
    Sim DataRel (readData s image) (numbers n ts) := by
  have hrow : ∀ y st, y < image.height.toNat → ReadSome n n ts (image.width.toNat * y) st →
      (∃ e, readRow image (UInt64.ofNat y) st = .error e ∧ Sim DataRel (.error e) (numbers n ts)) ∨
      (∃ st', readRow image (UInt64.ofNat y) st = .ok st' ∧ st'.2.2 = true ∧ Sim DataRel (.ok st') (numbers n ts)) ∨
      (∃ st', readRow image (UInt64.ofNat y) st = .ok st' ∧ ReadSome n n ts (image.width.toNat * (y + 1)) st') := by
    intro y st hy hst
    unfold readRow
    refine cfor_rule 0 image.width.toNat (fun x => ReadSome n n ts (image.width.toNat * y + x))
      (fun m => (∃ e, m = .error e ∧ Sim DataRel (.error e) (numbers n ts)) ∨
        (∃ st', m = .ok st' ∧ st'.2.2 = true ∧ Sim DataRel (.ok st') (numbers n ts)) ∨
        (∃ st', m = .ok st' ∧ ReadSome n n ts (image.width.toNat * (y + 1)) st')) rfl (by omega)
      (fun k _ hk => cond_lt _ _ (by omega)) hst ?_ ?_
    · intro x st _ hx hst
      have hk : image.width.toNat * y + x < n := by
        calc image.width.toNat * y + x < image.width.toNat * y + image.width.toNat := by omega
          _ = image.width.toNat * (y + 1) := by rw [Nat.mul_add, Nat.mul_one]
          _ ≤ image.width.toNat * image.height.toNat := Nat.mul_le_mul_left _ hy
          _ = n := hn
      rcases readPixel_mk hfit rfl hk hst with ⟨e, h1, h2⟩ | ⟨st', h1, h2, h3, h4⟩ | ⟨-, st', h1, h2⟩ | ⟨h1, -⟩
      · exact .inl ⟨e, h1, .inl ⟨e, rfl, by rw [h2]; exact Sim.error _⟩⟩
      · exact .inr (.inl ⟨st', h1, .inr (.inl ⟨st', rfl, h2, by rw [h4]; exact Sim.ok ⟨h2, h3⟩⟩)⟩)
      · exact .inr (.inr ⟨st', h1, h2⟩)
      · omega
    · intro st hst
      refine .inr (.inr ⟨st, rfl, ?_⟩)
      rw [Nat.zero_max] at hst
      rw [Nat.mul_add, Nat.mul_one]
      exact hst
  unfold readData
  refine cfor_rule 0 image.height.toNat (fun y => ReadSome n n ts (image.width.toNat * y))
    (fun m => Sim DataRel m (numbers n ts)) rfl (by omega) (fun k _ hk => cond_lt _ _ (by omega)) ?_ ?_ ?_
  · refine ⟨by omega, rfl, [], ts, rfl, h, ?_, ?_⟩
    · simp [hd]
    · simp [prep_nil]
  · intro y st _ hy hst
    rcases hrow y st hy hst with ⟨e, h1, h2⟩ | ⟨st', h1, h2, h3⟩ | ⟨st', h1, h2⟩
    · exact .inl ⟨e, by rw [h1], h2⟩
    · exact .inr (.inl ⟨st', by simp only [h1, h2], h3⟩)
    · exact .inr (.inr ⟨st', by simp only [h1, h2.2.1], h2⟩)
  · rintro ⟨s, d, b⟩ hst
    rw [Nat.zero_max, hn] at hst
    obtain ⟨-, h1, vs, ts', h2, h3, h4, h5⟩ := hst
    rw [Nat.sub_self] at h4 h5
    rw [h5]
    simp only [numbers, prep, List.append_nil]
    refine Sim.ok ⟨h1, ?_, h3⟩
    simpa using h4

/-- What happens when the number of pixels wraps around to `n`: undefined behaviour after `n + 1` numbers. -/
def overflowSpec (n : Nat) (ts : List Text) : M (Option (List UInt64 × List Text)) :=
  match numbers (n + 1) ts with
  | .error e => .error e
  | .ok none => .ok none
  | .ok (some _) => .error .ub

theorem numbers_zero (ts : List Text) : numbers 0 ts = .ok (some ([], ts)) := rfl

/-- The loops, when the number of pixels wraps around. -/
theorem readData_wrap {s : IStream} {ts : List Text} (h : AheadNow s ts) {image : Image} {n : Nat}
    (hn : n < image.width.toNat * image.height.toNat) (hfit : n < 18446744073709551616)
    (hd : image.data = Array.replicate n 0) :
    Sim DataRel (readData s image) (overflowSpec n ts) := by
  have hrow : ∀ y st, y < image.height.toNat → ReadSome (n + 1) n ts (image.width.toNat * y) st →
      (∃ e, readRow image (UInt64.ofNat y) st = .error e ∧ Sim DataRel (.error e) (overflowSpec n ts)) ∨
      (∃ st', readRow image (UInt64.ofNat y) st = .ok st' ∧ st'.2.2 = true ∧ Sim DataRel (.ok st') (overflowSpec n ts)) ∨
      (∃ st', readRow image (UInt64.ofNat y) st = .ok st' ∧ ReadSome (n + 1) n ts (image.width.toNat * (y + 1)) st') := by
    intro y st hy hst
    unfold readRow
    refine cfor_rule 0 image.width.toNat (fun x => ReadSome (n + 1) n ts (image.width.toNat * y + x))
      (fun m => (∃ e, m = .error e ∧ Sim DataRel (.error e) (overflowSpec n ts)) ∨
        (∃ st', m = .ok st' ∧ st'.2.2 = true ∧ Sim DataRel (.ok st') (overflowSpec n ts)) ∨
        (∃ st', m = .ok st' ∧ ReadSome (n + 1) n ts (image.width.toNat * (y + 1)) st')) rfl (by omega)
      (fun k _ hk => cond_lt _ _ (by omega)) hst ?_ ?_
    · intro x st _ hx hst
      have hk : image.width.toNat * y + x < n + 1 := by have := hst.1; omega
      rcases readPixel_mk hfit rfl hk hst with ⟨e, h1, h2⟩ | ⟨st', h1, h2, h3, h4⟩ | ⟨-, st', h1, h2⟩ |
        ⟨h1, h2, vs, ts', -, h3⟩
      · exact .inl ⟨e, h1, .inl ⟨e, rfl, by unfold overflowSpec; rw [h2]; exact Sim.error _⟩⟩
      · exact .inr (.inl ⟨st', h1, .inr (.inl ⟨st', rfl, h2, by unfold overflowSpec; rw [h4]; exact Sim.ok ⟨h2, h3⟩⟩)⟩)
      · exact .inr (.inr ⟨st', h1, h2⟩)
      · refine .inl ⟨_, h2, .inl ⟨_, rfl, ?_⟩⟩
        unfold overflowSpec
        rw [h3, h1, Nat.sub_self, numbers_zero]
        exact Sim.error _
    · intro st hst
      refine .inr (.inr ⟨st, rfl, ?_⟩)
      rw [Nat.zero_max] at hst
      rw [Nat.mul_add, Nat.mul_one]
      exact hst
  unfold readData
  refine cfor_rule 0 image.height.toNat (fun y => ReadSome (n + 1) n ts (image.width.toNat * y))
    (fun m => Sim DataRel m (overflowSpec n ts)) rfl (by omega) (fun k _ hk => cond_lt _ _ (by omega)) ?_ ?_ ?_
  · refine ⟨by omega, rfl, [], ts, rfl, h, ?_, ?_⟩
    · simp [hd]
    · simp [prep_nil]
  · intro y st _ hy hst
    rcases hrow y st hy hst with ⟨e, h1, h2⟩ | ⟨st', h1, h2, h3⟩ | ⟨st', h1, h2⟩
    · exact .inl ⟨e, by rw [h1], h2⟩
    · exact .inr (.inl ⟨st', by simp only [h1, h2], h3⟩)
    · exact .inr (.inr ⟨st', by simp only [h1, h2.2.1], h2⟩)
  · intro st hst
    rw [Nat.zero_max] at hst
    have := hst.1
    omega

/-! ## The whole -/

/-- The intensities in terms of instructions. -/
def dataSpec (w h : UInt64) (ts : List Text) : M (Option (List UInt64 × List Text)) :=
  if w.toNat * h.toNat < 18446744073709551616 then numbers (w.toNat * h.toNat) ts
  else overflowSpec (w * h).toNat ts

/-- The outcome of reading, in terms of instructions: `failbit` and the image held afterwards. -/
def readSpec (limit : Nat) (held : Option Image) (ts : List Text) : M (Bool × Option Image) :=
  match ts with
  | [] => .ok (true, held)
  | t :: ts =>
    if t ≠ FORMAT_CODE then .ok (true, held)
    else
      match numbers 3 ts with
      | .error e => .error e
      | .ok (some ([w, h, m], ts)) =>
        if m > MAX_VALUE_LIMIT then .ok (true, held)
        else
          match resizeEmpty limit (w * h) with
          | .error e => .error e
          | .ok _ =>
            match dataSpec w h ts with
            | .error e => .error e
            | .ok none => .ok (true, held)
            | .ok (some (vs, [])) => .ok (false, some ⟨w, h, m, vs.toArray⟩)
            | .ok (some (vs, t :: _)) =>
              if 128 ≤ t.headD 0 ∧ t.headD 0 < 255 then .error .ub else .ok (true, some ⟨w, h, m, vs.toArray⟩)
      | .ok _ => .ok (true, held)

theorem mul_toNat {a b : UInt64} (h : a.toNat * b.toNat < 18446744073709551616) : (a * b).toNat = a.toNat * b.toNat := by
  rw [UInt64.toNat_mul, Nat.mod_eq_of_lt h]

theorem resizeEmpty_ok {limit : Nat} {n : UInt64} {d : Array UInt64} (h : resizeEmpty limit n = .ok d) :
    d = Array.replicate n.toNat 0 := by
  unfold resizeEmpty at h
  split at h
  · cases h
  · split at h
    · cases h
    · cases h; rfl

/-- Exact outcome of `operator>>`. -/
theorem readPgm_mk (limit : Nat) (held : Option Image) {s : IStream} {ts : List Text} (h : Ahead s ts) :
    Sim (fun r q => r.1.fail = q.1 ∧ r.2 = q.2) (readPgm limit held s) (readSpec limit held ts) := by
  unfold readPgm
  obtain ⟨⟨s1, t⟩, e1, h1⟩ := readPgmInstruction_mk h
  rw [e1, bind_ok]
  simp only at h1 ⊢
  rcases h1 with ⟨rfl, rfl⟩ | ⟨hi, ts', rfl, h2⟩
  · exact Sim.ok ⟨rfl, rfl⟩
  · unfold readSpec
    by_cases ht : t = FORMAT_CODE
    · subst ht
      simp only [ne_eq, not_true_eq_false, if_false]
      have hh := readHeader_mk h2.toAhead
      cases hn : numbers 3 ts' with
      | error e =>
        rw [hn] at hh
        rw [hh.error_right]
        exact Sim.error _
      | ok q =>
        rw [hn] at hh
        obtain ⟨⟨s2, o⟩, e2, h3⟩ := hh.ok_right
        rw [e2, bind_ok]
        cases q with
        | none =>
          simp only at h3
          obtain ⟨rfl, h4⟩ := h3
          exact Sim.ok ⟨h4, rfl⟩
        | some q =>
          obtain ⟨vs, ts''⟩ := q
          simp only at h3
          obtain ⟨w, ht', m, rfl, rfl, h4⟩ := h3
          simp only
          by_cases hm : m > MAX_VALUE_LIMIT
          · rw [if_pos hm, if_pos hm]
            exact Sim.ok ⟨rfl, rfl⟩
          · rw [if_neg hm, if_neg hm]
            cases hr : resizeEmpty limit (w * ht') with
            | error e => exact Sim.error _
            | ok d =>
              rw [bind_ok]
              simp only
              have hd := resizeEmpty_ok hr
              have hdata : Sim DataRel (readData s2 ⟨w, ht', m, d⟩) (dataSpec w ht' ts'') := by
                unfold dataSpec
                split
                · rename_i hfit
                  rw [mul_toNat hfit] at hd
                  exact readData_mk h4 (image := ⟨w, ht', m, d⟩) rfl hfit hd
                · rename_i hfit
                  have := toNat_lt' (w * ht')
                  exact readData_wrap h4 (image := ⟨w, ht', m, d⟩) (by simp only; omega) this hd
              cases hnn : dataSpec w ht' ts'' with
              | error e =>
                rw [hnn] at hdata
                rw [hdata.error_right]
                exact Sim.error _
              | ok q =>
                rw [hnn] at hdata
                obtain ⟨⟨s3, d', b⟩, e3, h5⟩ := hdata.ok_right
                rw [e3, bind_ok]
                cases q with
                | none =>
                  obtain ⟨h6, h7⟩ := h5
                  simp only at h6 h7
                  subst h6
                  exact Sim.ok ⟨h7, rfl⟩
                | some q =>
                  obtain ⟨vs, ts3⟩ := q
                  obtain ⟨h6, h7, h8⟩ := h5
                  simp only at h6 h7 h8
                  subst h6
                  subst h7
                  simp only [Bool.false_eq_true, if_false]
                  rcases checkFileEnd_mk h8 with ⟨rfl, a, ea, ha⟩ | ⟨c, u, ts4, rfl, hc, ea⟩ | ⟨c, u, ts4, rfl, hc, a, ea, ha⟩
                  · rw [ea, bind_ok]
                    exact Sim.ok ⟨ha, rfl⟩
                  · rw [ea]
                    simp only
                    rw [if_pos (show 128 ≤ (c :: u).headD 0 ∧ (c :: u).headD 0 < 255 from hc)]
                    exact Sim.error _
                  · rw [ea, bind_ok]
                    simp only
                    rw [if_neg (show ¬ (128 ≤ (c :: u).headD 0 ∧ (c :: u).headD 0 < 255) from hc)]
                    exact Sim.ok ⟨ha, rfl⟩
    · simp only [ne_eq, ht, not_false_eq_true, if_true]
      exact Sim.ok ⟨rfl, rfl⟩

theorem opened_ahead (text : Text) : Ahead (.opened text) (instructions text) := ⟨rfl, by simp [IStream.opened], rfl⟩

end SP
