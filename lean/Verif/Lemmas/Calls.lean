import Verif.Lemmas.RowCode
import Verif.Lemmas.CudaKernel
import Verif.Lemmas.Sort
/-!
# The number of calls of `solve_csp`

Lemmas on loops that count, for any arithmetic of `FLOAT` and any results of `solve_csp`.
-/
namespace SP
open FloatOps
variable {F : Type} [FloatOps F]

/-- A loop with at most `fuel` iterations, each of which adds at most `K`. -/
theorem cfor_measure {ι σ : Type} {cond : ι → Bool} {step : ι → ι} {body : ι → σ → M (σ × Bool)} (μ : σ → Nat) (K : Nat)
    (h : ∀ i s r, cond i = true → body i s = .ok r → μ r.1 ≤ μ s + K) (fuel : Nat) {i : ι} {s r : σ}
    (hr : cfor fuel i cond step body s = .ok r) : μ r ≤ μ s + fuel * K := by
  induction fuel generalizing i s with
  | zero =>
    unfold cfor at hr
    split at hr
    · cases hr
    · cases hr; omega
  | succ fuel ih =>
    rw [Nat.succ_mul]
    unfold cfor at hr
    split at hr
    · rename_i hc
      split at hr
      · cases hr
      · rename_i s' hb
        cases hr
        have := h _ _ _ hc hb
        dsimp only at this
        omega
      · rename_i s' hb
        have h1 := h _ _ _ hc hb
        have h2 := ih hr
        dsimp only at h1
        omega
    · cases hr; omega

/-- Loops with equal bodies while a relation of the counter and the state holds. -/
theorem cfor_congr_index {ι σ : Type} {cond : ι → Bool} {step : ι → ι} {body body' : ι → σ → M (σ × Bool)} (I : ι → σ → Prop)
    (hbody : ∀ i s, I i s → cond i = true → body i s = body' i s)
    (hnext : ∀ i s r, I i s → cond i = true → body i s = .ok (r, false) → I (step i) r)
    (fuel : Nat) (i : ι) (s : σ) (h : I i s) : cfor fuel i cond step body s = cfor fuel i cond step body' s :=
  (cfor_index (cond := cond) (cond' := cond) (step := step) (step' := step) id I (fun _ _ _ => rfl)
    (fun i s h1 h2 => (hbody i s h1 h2).symm) (fun _ _ _ _ => rfl) hnext fuel i s h).symm

/-! ## Candidates -/

theorem length_uniqueF_le (l : List F) : (uniqueF l).length ≤ l.length := by
  induction l with
  | nil => exact Nat.le_refl _
  | cons a l ih =>
    unfold uniqueF
    split
    · simp
    · rename_i b l' hb
      rw [hb] at ih
      split
      · simp only [List.length_cons] at ih ⊢; omega
      · simp only [List.length_cons] at ih ⊢; omega

theorem length_mergeAux {a : F} {l₁ : List F} {rest : List F → List F} (h : ∀ l, (rest l).length = l₁.length + l.length) (l₂ : List F) :
    (mergeAux a l₁ rest l₂).length = l₁.length + 1 + l₂.length := by
  induction l₂ with
  | nil => simp [mergeAux]
  | cons b l₂ ih =>
    unfold mergeAux
    split
    · simp only [List.length_cons, ih]; omega
    · simp only [List.length_cons, h]; omega

theorem length_mergeF_eq (l₁ l₂ : List F) : (mergeF l₁ l₂).length = l₁.length + l₂.length := by
  induction l₁ generalizing l₂ with
  | nil => simp [mergeF]
  | cons a l₁ ih =>
    unfold mergeF
    rw [length_mergeAux ih, List.length_cons]

theorem length_added (l₁ l₂ : List F) : (uniqueF (sortF (mergeF l₁ l₂))).length ≤ l₁.length + l₂.length := by
  refine Nat.le_trans (length_uniqueF_le _) ?_
  rw [length_sortF, length_mergeF_eq]

theorem length_sorted (l : List F) : (uniqueF (sortF l)).length ≤ l.length := by
  refine Nat.le_trans (length_uniqueF_le _) ?_
  rw [length_sortF]

variable {g : DisparityGraph F}

theorem fetchPixel_length {pixel : Pixel} {m : F} {l : List F} (hx : pixel.x.toNat < g.left.width.toNat)
    (hw : g.left.width.toNat + 1 < 18446744073709551616) (h : fetchPixelAvailablePenalties g pixel m = .ok l) :
    l.length ≤ g.disparityLevels.toNat := by
  unfold fetchPixelAvailablePenalties at h
  obtain ⟨r, hr, h⟩ := bind_eq_ok h
  cases h
  refine Nat.le_trans (length_sorted r) ?_
  have hsize : (if pixel.x + g.disparityLevels < g.left.width + 1 then g.disparityLevels
      else g.left.width - pixel.x).toNat ≤ g.disparityLevels.toNat := by
    split
    · exact Nat.le_refl _
    · rename_i hn
      rw [UInt64.lt_iff_toNat_lt, UInt64.toNat_add, UInt64.toNat_add] at hn
      have h1 : (1 : UInt64).toNat = 1 := rfl
      rw [h1] at hn
      rw [UInt64.toNat_sub_of_le _ _ (UInt64.le_iff_toNat_le.2 (Nat.le_of_lt hx))]
      have := g.disparityLevels.toNat_lt
      omega
  refine Nat.le_trans ?_ hsize
  have := cfor_measure List.length 1 (fun d' s q _ hq => ?_) _ hr
  · simpa using this
  · obtain ⟨v, _, hq⟩ := bind_eq_ok hq
    cases hq
    simp

theorem fetchEdge_length {edge : Edge} {m : F} {l : List F} (h : fetchEdgeAvailablePenalties g edge m = .ok l) :
    l.length ≤ g.disparityLevels.toNat * g.disparityLevels.toNat := by
  unfold fetchEdgeAvailablePenalties at h
  obtain ⟨r, hr, h⟩ := bind_eq_ok h
  cases h
  refine Nat.le_trans (length_sorted r) ?_
  have := cfor_measure List.length g.disparityLevels.toNat (fun d s q _ hq => ?_) _ hr
  · simpa using this
  · obtain ⟨s', hs', hq⟩ := bind_eq_ok hq
    cases hq
    have := cfor_measure List.length 1 (fun d' s q _ hq => ?_) _ hs'
    · simpa using this
    · obtain ⟨v, _, hq⟩ := bind_eq_ok hq
      cases hq
      simp

/-- At most `levels + 4 * levels * levels` candidates are added for a pixel. -/
theorem fetch_length_le {p : LowestPenalties F} {l : List F} (hw : p.graph.right.width = p.graph.left.width)
    (hw' : p.graph.left.width.toNat + 1 < 18446744073709551616) (h : fetchAvailablePenalties p = .ok l) :
    l.length ≤ p.graph.right.width.toNat * (p.graph.right.height.toNat *
      (p.graph.disparityLevels.toNat + 4 * (p.graph.disparityLevels.toNat * p.graph.disparityLevels.toNat))) := by
  unfold fetchAvailablePenalties at h
  have := cfor_measure List.length (p.graph.right.height.toNat *
      (p.graph.disparityLevels.toNat + 4 * (p.graph.disparityLevels.toNat * p.graph.disparityLevels.toNat)))
    (fun x s q hx hq => ?_) _ h
  · simpa using this
  obtain ⟨s', hs', hq⟩ := bind_eq_ok hq
  cases hq
  have hx' : x.toNat < p.graph.left.width.toNat := by
    rw [← hw]; exact UInt64.lt_iff_toNat_lt.1 (of_decide_eq_true hx)
  refine cfor_measure List.length _ (fun y s q _ hq => ?_) _ hs'
  obtain ⟨m, _, hq⟩ := bind_eq_ok hq
  obtain ⟨l1, h1, hq⟩ := bind_eq_ok hq
  obtain ⟨l2, h2, hq⟩ := bind_eq_ok hq
  cases hq
  have k1 := fetchPixel_length hx' hw' h1
  have k2 := cfor_measure List.length (p.graph.disparityLevels.toNat * p.graph.disparityLevels.toNat)
    (fun n s q _ hq => ?_) _ h2
  · have := length_added s l1
    dsimp only
    omega
  · split at hq
    · cases hq; simp
    · obtain ⟨m, _, hq⟩ := bind_eq_ok hq
      obtain ⟨l3, h3, hq⟩ := bind_eq_ok hq
      cases hq
      have := fetchEdge_length h3
      have := length_added s l3
      dsimp only
      omega

/-! ## The search -/

variable {solve solve' : Solver F} {K : Nat}

/-- With at most `2 ^ c` indices the search makes at most `c` calls. -/
theorem thresholdSearch_calls {p : LowestPenalties F} {arr : Array F} (h : ∀ n c, n < K → solve n c = solve' n c) :
    ∀ (fuel : Nat) (lo hi : UInt64) (calls c : Nat), lo.toNat ≤ hi.toNat → hi.toNat < 9223372036854775808 →
      hi.toNat - lo.toNat < 2 ^ c → calls + c ≤ K →
      Par.thresholdSearch solve p g arr fuel lo hi calls = Par.thresholdSearch solve' p g arr fuel lo hi calls ∧
      ∀ r, Par.thresholdSearch solve p g arr fuel lo hi calls = .ok r → r.2 ≤ calls + c := by
  intro fuel
  induction fuel with
  | zero =>
    intro lo hi calls c h1 h2 h3 h4
    refine ⟨rfl, fun r hr => ?_⟩
    unfold Par.thresholdSearch at hr
    split at hr
    · cases hr
    · cases hr; exact Nat.le_add_right _ _
  | succ fuel ih =>
    intro lo hi calls c h1 h2 h3 h4
    unfold Par.thresholdSearch
    dsimp only
    split
    · rename_i hlt
      have hlt' := UInt64.lt_iff_toNat_lt.1 hlt
      have hmid : ((lo + hi) / 2).toNat = (lo.toNat + hi.toNat) / 2 := by
        rw [UInt64.toNat_div, UInt64.toNat_add, Nat.mod_eq_of_lt (by omega)]
        rfl
      have hmid1 : ((lo + hi) / 2 + 1).toNat = (lo.toNat + hi.toNat) / 2 + 1 := by
        rw [UInt64.toNat_add, hmid]
        have : (1 : UInt64).toNat = 1 := rfl
        rw [this, Nat.mod_eq_of_lt (by omega)]
      obtain ⟨c', rfl⟩ : ∃ c', c = c' + 1 := by
        cases c with
        | zero => rw [Nat.pow_zero] at h3; omega
        | succ c' => exact ⟨c', rfl⟩
      rw [Nat.pow_succ] at h3
      have k1 := ih lo ((lo + hi) / 2) (calls + 1) c' (by omega) (by omega) (by omega) (by omega)
      have k2 := ih ((lo + hi) / 2 + 1) hi (calls + 1) c' (by omega) h2 (by omega) (by omega)
      constructor
      · refine bind_congr fun t => bind_congr fun d => ?_
        rw [h calls d (by omega)]
        refine bind_congr fun q => ?_
        obtain ⟨_, b⟩ := q
        cases b
        · exact k2.1
        · exact k1.1
      · intro r hr
        obtain ⟨t, _, hr⟩ := bind_eq_ok hr
        obtain ⟨d, _, hr⟩ := bind_eq_ok hr
        obtain ⟨⟨_, b⟩, _, hr⟩ := bind_eq_ok hr
        cases b
        · have := k2.2 r hr; omega
        · have := k1.2 r hr; omega
    · exact ⟨rfl, fun r hr => by cases hr; exact Nat.le_add_right _ _⟩

/-- The search over a list of at most `2 ^ c` candidates. -/
theorem minimal_calls {p : LowestPenalties F} {arr : Array F} {c : Nat} (h : ∀ n d, n < K → solve n d = solve' n d)
    (hs : arr.size ≤ 2 ^ c) (hs' : arr.size ≤ 9223372036854775808) (hK : c ≤ K) :
    Par.calculateMinimalConsistentThreshold solve p g arr = Par.calculateMinimalConsistentThreshold solve' p g arr ∧
    ∀ r, Par.calculateMinimalConsistentThreshold solve p g arr = .ok r → r.2 ≤ c := by
  unfold Par.calculateMinimalConsistentThreshold
  dsimp only
  by_cases h0 : arr.size = 0
  · have hrd : ∀ i, rd arr i = (.error .ub : M F) := fun i => by
      unfold rd
      rw [Array.getElem?_eq_none (by omega)]
    have hub : ∀ s : Solver F, Par.thresholdSearch s p g arr (UInt64.ofNat arr.size - 1).toNat 0 (UInt64.ofNat arr.size - 1) 0 =
        .error .ub := fun s => by
      rw [h0]
      have : (UInt64.ofNat 0 - 1).toNat = 18446744073709551614 + 1 := rfl
      rw [this]
      unfold Par.thresholdSearch
      dsimp only
      rw [if_pos (by decide), hrd]
      rfl
    rw [hub, hub]
    exact ⟨rfl, fun r hr => by cases hr⟩
  · have hsz : (UInt64.ofNat arr.size - 1).toNat = arr.size - 1 := by
      have : (UInt64.ofNat arr.size).toNat = arr.size := UInt64.toNat_ofNat_of_lt' (by
        show arr.size < 18446744073709551616; omega)
      rw [UInt64.toNat_sub_of_le _ _ (UInt64.le_iff_toNat_le.2 (by rw [this]; show 1 ≤ _; omega)), this]
      rfl
    have k := thresholdSearch_calls (g := g) (p := p) (arr := arr) h (UInt64.ofNat arr.size - 1).toNat 0 (UInt64.ofNat arr.size - 1) 0 c
      (Nat.zero_le _) (by omega) (by rw [hsz]; show arr.size - 1 - 0 < _; omega) (by omega)
    rw [← k.1]
    refine ⟨rfl, fun r hr => ?_⟩
    obtain ⟨⟨i, n⟩, h1, hr⟩ := bind_eq_ok hr
    obtain ⟨t, h2, hr⟩ := bind_eq_ok hr
    cases hr
    have := k.2 _ h1
    dsimp only at this ⊢
    omega

/-! ## The labeling -/

/-- A loop over `0 … n - 1` that was not left adds `K` in each iteration. -/
theorem cfor_exact {σ : Type} {n : UInt64} {body : UInt64 → σ → M (σ × Bool)} (μ : σ → Nat) (K : Nat) (P : σ → Prop)
    (h : ∀ i s q, body i s = .ok q → (q.2 = false → μ q.1 = μ s + K) ∧ (q.2 = true → P q.1)) (fuel : Nat) {i : UInt64} {s r : σ}
    (hi : i.toNat ≤ n.toNat) (hr : cfor fuel i (fun i => decide (i < n)) inc body s = .ok r) :
    P r ∨ μ r = μ s + (n.toNat - i.toNat) * K := by
  induction fuel generalizing i s with
  | zero =>
    unfold cfor at hr
    split at hr
    · cases hr
    · rename_i hc
      cases hr
      rw [decide_eq_true_eq, UInt64.lt_iff_toNat_lt] at hc
      have : n.toNat - i.toNat = 0 := by omega
      rw [this, Nat.zero_mul]
      exact .inr rfl
  | succ fuel ih =>
    unfold cfor at hr
    split at hr
    · rename_i hc
      rw [decide_eq_true_eq, UInt64.lt_iff_toNat_lt] at hc
      split at hr
      · cases hr
      · rename_i s' hb
        cases hr
        exact .inl ((h _ _ _ hb).2 rfl)
      · rename_i s' hb
        have h1 := (h _ _ _ hb).1 rfl
        have hinc : (inc i).toNat = i.toNat + 1 := by
          unfold inc
          have := n.toNat_lt
          rw [UInt64.toNat_add]
          show (i.toNat + 1) % _ = _
          rw [Nat.mod_eq_of_lt (by omega)]
        rcases ih (by omega) hr with h2 | h2
        · exact .inl h2
        · refine .inr ?_
          dsimp only at h1
          have : n.toNat - i.toNat = (n.toNat - (inc i).toNat) + 1 := by omega
          rw [h2, h1, this, Nat.succ_mul]
          omega
    · rename_i hc
      cases hr
      rw [decide_eq_true_eq, UInt64.lt_iff_toNat_lt] at hc
      have : n.toNat - i.toNat = 0 := by omega
      rw [this, Nat.zero_mul]
      exact .inr rfl

/-- Each pixel takes at most one call. -/
theorem findLabeling_calls {calls : Nat} {c : ConstraintGraph F} {r : ConstraintGraph F × Bool × Nat}
    (h : Par.findLabeling solve calls c = .ok r) :
    r.2.2 ≤ calls + c.disparityGraph.left.width.toNat * c.disparityGraph.left.height.toNat := by
  unfold Par.findLabeling at h
  refine cfor_measure (fun s : ConstraintGraph F × Bool × Nat => s.2.2) c.disparityGraph.left.height.toNat (fun x s q _ hq => ?_) _ h
  obtain ⟨s', hs', hq⟩ := bind_eq_ok hq
  cases hq
  have := cfor_measure (fun s : ConstraintGraph F × Bool × Nat => s.2.2) 1 (fun y s q _ hq => ?_) _ hs'
  · rw [Nat.mul_one] at this; exact this
  · obtain ⟨⟨d, chosen⟩, _, hq⟩ := bind_eq_ok hq
    dsimp only at hq
    split at hq
    · cases hq; exact Nat.le_succ _
    · obtain ⟨⟨d, solved⟩, _, hq⟩ := bind_eq_ok hq
      dsimp only at hq
      split at hq <;> (cases hq; exact Nat.le_refl _)

/-- If a labeling is found, each pixel took one call. -/
theorem findLabeling_exact {calls : Nat} {c : ConstraintGraph F} {r : ConstraintGraph F × Bool × Nat}
    (h : Par.findLabeling solve calls c = .ok r) (hr : r.2.1 = true) :
    r.2.2 = calls + c.disparityGraph.left.width.toNat * c.disparityGraph.left.height.toNat := by
  unfold Par.findLabeling at h
  have key := cfor_exact (fun s : ConstraintGraph F × Bool × Nat => s.2.2) c.disparityGraph.left.height.toNat (fun s : ConstraintGraph F × Bool × Nat => s.2.1 = false) (fun x s q hq => ?_) _
    (Nat.zero_le _) h
  · rcases key with h1 | h1
    · rw [hr] at h1; cases h1
    · exact h1
  · obtain ⟨s', hs', hq⟩ := bind_eq_ok hq
    cases hq
    refine ⟨fun h1 => ?_, fun h1 => by simpa using h1⟩
    have key := cfor_exact (fun s : ConstraintGraph F × Bool × Nat => s.2.2) 1 (fun s : ConstraintGraph F × Bool × Nat => s.2.1 = false) (fun y s q hq => ?_) _ (Nat.zero_le _) hs'
    · rcases key with h2 | h2
      · rw [h2] at h1; cases h1
      · rw [Nat.mul_one] at h2; exact h2
    · obtain ⟨⟨d, chosen⟩, _, hq⟩ := bind_eq_ok hq
      dsimp only at hq
      split at hq
      · cases hq; exact ⟨fun h' => (by cases h'), fun _ => rfl⟩
      · obtain ⟨⟨d, solved⟩, _, hq⟩ := bind_eq_ok hq
        dsimp only at hq
        split at hq
        · cases hq; exact ⟨fun h' => (by cases h'), fun _ => rfl⟩
        · cases hq; exact ⟨fun _ => rfl, fun h' => (by cases h')⟩

/-- Later calls do not matter for `find_labeling`. -/
theorem findLabeling_firstCalls (h : ∀ n d, n < K → solve n d = solve' n d) {calls : Nat} {c : ConstraintGraph F}
    (hK : calls + c.disparityGraph.left.width.toNat * c.disparityGraph.left.height.toNat ≤ K) :
    Par.findLabeling solve calls c = Par.findLabeling solve' calls c := by
  unfold Par.findLabeling
  have hinc : ∀ {n i : UInt64}, i.toNat < n.toNat → (inc i).toNat = i.toNat + 1 := fun {n i} hc => by
    unfold inc
    have := n.toNat_lt
    rw [UInt64.toNat_add]
    show (i.toNat + 1) % _ = _
    rw [Nat.mod_eq_of_lt (by omega)]
  have hone : ∀ (f : Solver F) (x : UInt64) (y : UInt64) (s : ConstraintGraph F × Bool × Nat) q,
      (do
        let (g, chosen) ← chooseBestNode s.1 { x := x, y := y }
        if !chosen then return ((g, false, s.2.2), true)
        let (g, solved) ← f s.2.2 g
        if !solved then return ((g, false, s.2.2 + 1), true)
        return ((g, true, s.2.2 + 1), false) : M ((ConstraintGraph F × Bool × Nat) × Bool)) = .ok q →
      q.1.2.2 ≤ s.2.2 + 1 := by
    intro f x y s q hq
    obtain ⟨⟨d, chosen⟩, _, hq⟩ := bind_eq_ok hq
    dsimp only at hq
    split at hq
    · cases hq; exact Nat.le_succ _
    · obtain ⟨⟨d, solved⟩, _, hq⟩ := bind_eq_ok hq
      dsimp only at hq
      split at hq <;> (cases hq; exact Nat.le_refl _)
  refine (cfor_congr_index (fun (x : UInt64) (s : ConstraintGraph F × Bool × Nat) => x.toNat ≤ c.disparityGraph.left.width.toNat ∧
    s.2.2 + (c.disparityGraph.left.width.toNat - x.toNat) * c.disparityGraph.left.height.toNat ≤ K)
    (fun x s hs hx => ?_) (fun x s r hs hx hr => ?_) _ 0 (c, true, calls) (And.intro (Nat.zero_le _) hK))
  · dsimp only
    have hx' := UInt64.lt_iff_toNat_lt.1 (of_decide_eq_true hx)
    have hs2 : s.2.2 + c.disparityGraph.left.height.toNat ≤ K := by
      have : c.disparityGraph.left.width.toNat - x.toNat = (c.disparityGraph.left.width.toNat - x.toNat - 1) + 1 := by omega
      have h2 := hs.2
      rw [this, Nat.succ_mul] at h2
      omega
    refine congrArg (· >>= _) ?_
    refine (cfor_congr_index (fun (y : UInt64) (s : ConstraintGraph F × Bool × Nat) => y.toNat ≤ c.disparityGraph.left.height.toNat ∧
      s.2.2 + (c.disparityGraph.left.height.toNat - y.toNat) ≤ K)
      (fun y s hs hy => ?_) (fun y s r hs hy hr => ?_) _ 0 s (And.intro (Nat.zero_le _) hs2))
    · have hy' := UInt64.lt_iff_toNat_lt.1 (of_decide_eq_true hy)
      refine bind_congr fun q => ?_
      rw [h s.2.2 q.1 (by omega)]
    · have hy' := UInt64.lt_iff_toNat_lt.1 (of_decide_eq_true hy)
      have := hone _ _ _ _ _ hr
      rw [hinc hy']
      dsimp only at this
      exact ⟨hy', by omega⟩
  · have hx' := UInt64.lt_iff_toNat_lt.1 (of_decide_eq_true hx)
    obtain ⟨s', hs', hq⟩ := bind_eq_ok hr
    obtain ⟨rfl, -⟩ := Prod.mk.inj (Except.ok.inj hq)
    rw [hinc hx']
    refine ⟨hx', ?_⟩
    have := cfor_measure (fun s : ConstraintGraph F × Bool × Nat => s.2.2) 1 (fun y s q _ hq => hone _ _ _ _ _ hq) _ hs'
    have h3 : c.disparityGraph.left.width.toNat - x.toNat = (c.disparityGraph.left.width.toNat - (x.toNat + 1)) + 1 := by omega
    have h2 := hs.2
    rw [h3, Nat.succ_mul] at h2
    omega

end SP
