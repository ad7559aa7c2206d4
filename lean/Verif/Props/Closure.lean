import Verif.Props.Constraint
/-!
# Properties C29, C31, C32: arc consistency and existence of labelings
-/
namespace SP
open FloatOps ConstraintGraph

section
variable {F : Type} [FloatOps F] {c : ConstraintGraph F}

/-! ## C29 is false -/

/-- Calls `solve_csp` the given number of times and returns the last result. -/
def solveTimes (jobs : UInt64) : Nat → ConstraintGraph F → M Bool
  | 0, _ => .ok true
  | n + 1, c => do
    let (c, b) ← solveCsp jobs c
    if b then solveTimes jobs n c else return false

/-- If `solve_csp` called several times says "no" then there is no consistent labeling. -/
theorem solveTimes_false {jobs : Nat} (hj : 0 < jobs) :
    ∀ (n : Nat) {c : ConstraintGraph F}, c.Valid → c.Proper → c.h + jobs ≤ 18446744073709551616 →
      solveTimes (UInt64.ofNat jobs) n c = .ok false → ¬ ∃ L, Consistent c.w c.h c.E c.Av L
  | 0, c, _, _, _, h => by simp [solveTimes] at h
  | n + 1, c, hc, hp, hfit, h => by
    obtain ⟨r, hr, h1, h2, h3⟩ := solveCsp_mk hc hp hj hfit
    obtain ⟨r', hr', hs⟩ := C27_solve_sound hc hp hj hfit
    rw [hr] at hr'
    cases hr'
    rintro ⟨L, hL⟩
    have hsub : Sub r.1.Av c.Av := by
      rcases h3 with ⟨-, h4, -⟩ | ⟨-, h4, -⟩
      · rw [h4]; exact sweep_sub _
      · exact fun x y d h => absurd h (h4 x y d)
    have hL' : Consistent r.1.w r.1.h r.1.E r.1.Av L := by
      rw [h1.w_eq, h1.h_eq, h1.E_eq]
      exact fun x y hx hy => ⟨hs L hL x y hx hy, (hL x y hx hy).2⟩
    unfold solveTimes at h
    rw [hr] at h
    simp only [bind_ok] at h
    cases hb : r.2
    · rcases h3 with ⟨-, -, h4⟩ | ⟨-, h4, -⟩
      · rw [hb] at h4; simp at h4
      · exact h4 _ _ _ (hs L hL 0 0 hc.graph.width_pos hc.graph.height_pos)
    · rw [hb] at h
      simp only [if_true] at h
      exact solveTimes_false hj n h2 (h1.proper hp hsub) (by rw [h1.h_eq]; exact hfit) h ⟨L, hL'⟩

end

/-- Images of size 4 × 2 with four disparity levels. -/
def hardGraph : DisparityGraph Int :=
  freshGraph (img 4 2 5 [3, 1, 5, 1, 5, 3, 0, 5]) (img 4 2 5 [0, 3, 4, 5, 5, 5, 4, 1]) 4 2 2

theorem hardGraph_fresh : hardGraph.Fresh := by
  refine freshGraph_fresh ⟨rfl, by decide⟩ ⟨rfl, by decide⟩ (accepted_of ?_ ?_ ?_ ?_ ?_ ?_ ?_ rfl rfl rfl ?_ ?_ ?_)
    ?_ <;> decide

/-- The constraint graph at threshold `2`. -/
def hardStart : ConstraintGraph Int := startOf hardGraph 2

theorem hardStart_ok : hardStart.Valid ∧ hardStart.Proper ∧ hardStart.Plain :=
  have h := (pipeline_start hardGraph_fresh 2).okD (noGraph hardGraph)
  ⟨h.1, h.2.1, h.2.2.1⟩

theorem hardStart_no_labeling : ¬ ∃ L, Consistent hardStart.w hardStart.h hardStart.E hardStart.Av L :=
  solveTimes_false (jobs := 1) (by decide) 4 hardStart_ok.1 hardStart_ok.2.1 (by decide +kernel) (by decide +kernel)

/-- The second half of **C29** is false: on the constraint graph built for an accepted pair of images `solve_csp` returns true
although there is no consistent labeling. -/
theorem C29_labeling_exists_refuted :
    hardStart.Valid ∧ hardStart.Proper ∧
    (Ok (solveCsp 1 hardStart) fun r => r.2 = true) ∧
    ¬ ∃ L, Consistent hardStart.w hardStart.h hardStart.E hardStart.Av L := by
  refine ⟨hardStart_ok.1, hardStart_ok.2.1, ?_, hardStart_no_labeling⟩
  have h : (solveCsp 1 hardStart).toOption.map (·.2) = some true := by decide +kernel
  cases hr : solveCsp 1 hardStart with
  | error e => rw [hr] at h; simp [Except.toOption] at h
  | ok r => rw [hr] at h; exact Ok.pure (by simpa [Except.toOption] using h)

/-! ## C31: the order does not matter -/
section
variable {F : Type} [FloatOps F] {c : ConstraintGraph F}

/-- Calls `csp_process_pixel` for the given pixels one after another. -/
def processAll (c : ConstraintGraph F) (ps : List (Nat × Nat)) : M (ConstraintGraph F) :=
  ps.foldlM (fun c p => do
    let (c, _) ← cspProcessPixel c (mkPixel p.1 p.2)
    return c) c

theorem processAll_mk {ps : List (Nat × Nat)} : ∀ {c : ConstraintGraph F}, c.Valid → c.Proper →
    (∀ p ∈ ps, p.1 < c.w ∧ p.2 < c.h) →
    Ok (processAll c ps) fun c' => c.Same c' ∧ c'.Valid ∧ c'.Proper ∧ c'.Av = sweep c.w c.h c.E ps c.Av := by
  induction ps with
  | nil => exact fun {c} hc hp _ => Ok.pure ⟨Same.refl c, hc, hp, rfl⟩
  | cons p ps ih =>
    intro c hc hp hps
    unfold processAll
    rw [List.foldlM_cons]
    have hpx := hps p (List.mem_cons_self ..)
    refine Ok.bind (P := fun c' : ConstraintGraph F => c.Same c' ∧ c'.Valid ∧
      c'.Av = removeUnsupported c.w c.h c.E c.Av p.1 p.2) ?_ ?_
    · refine Ok.bind (cspProcessPixel_mk hc hp hpx.1 hpx.2) ?_
      rintro r ⟨h1, h2, h3, -⟩
      exact Ok.pure ⟨h1, h2, h3⟩
    · rintro c' ⟨h1, h2, h3⟩
      have hp' : c'.Proper := h1.proper hp (by rw [h3]; exact removeUnsupported_sub _ _)
      refine (ih h2 hp' ?_).mono ?_
      · intro q hq
        rw [h1.w_eq, h1.h_eq]
        exact hps q (List.mem_cons_of_mem _ hq)
      · rintro c'' ⟨g1, g2, g3, g4⟩
        refine ⟨h1.trans g1, g2, g3, ?_⟩
        rw [g4, h1.w_eq, h1.h_eq, h1.E_eq, h3, sweep_cons]

/-- **C31**, uniqueness. Whatever pixels were processed in whatever order, if processing any pixel changes nothing more then
the available nodes are the largest arc consistent subset of those given. In particular any two such results are equal. -/
theorem C31_fixpoint_unique (hc : c.Valid) (hp : c.Proper) {ps : List (Nat × Nat)}
    (hps : ∀ p ∈ ps, p.1 < c.w ∧ p.2 < c.h) :
    Ok (processAll c ps) fun c' =>
      (∀ x y, x < c.w → y < c.h → Ok (cspProcessPixel c' (mkPixel x y)) fun r => r.2 = false) →
      ∀ x y d, c'.Av x y d ↔ arcClosure c.w c.h c.E c.Av x y d := by
  refine (processAll_mk hc hp hps).mono ?_
  rintro c' ⟨h1, h2, h3, h4⟩ hst x y d
  have harc : ArcConsistent c.w c.h c.E c'.Av := by
    intro x y d hav
    have hn := h3 x y d hav
    have hx : x < c'.w := hn.1
    have hy : y < c'.h := hn.2.1
    obtain ⟨r, hr, g1, g2, g3, g4⟩ := cspProcessPixel_mk h2 h3 hx hy
    obtain ⟨r', hr', hf⟩ := hst x y (by rw [← h1.w_eq]; exact hx) (by rw [← h1.h_eq]; exact hy)
    rw [hr] at hr'
    cases hr'
    by_contra hns
    rw [← h1.w_eq, ← h1.h_eq, ← h1.E_eq] at hns
    rw [g4.2 ⟨d, hav, hns⟩] at hf
    exact absurd hf (by simp)
  have hsub : Sub c'.Av c.Av := by rw [h4]; exact sweep_sub _
  have hcl : Sub (arcClosure c.w c.h c.E c.Av) c'.Av := by rw [h4]; exact arcClosure_sub_sweep _
  exact ⟨fun h => sub_arcClosure hsub harc _ _ _ h, hcl x y d⟩

/-- **C31**, the fixed point is reached: for any infinite sequence of pixels in which each pixel occurs again and again, after
finitely many steps the available nodes are the largest arc consistent subset and stay so. -/
theorem C31_fixpoint_reached (hc : c.Valid) (hp : c.Proper) (p : Nat → Nat × Nat)
    (hin : ∀ n, (p n).1 < c.w ∧ (p n).2 < c.h)
    (hfair : ∀ x y, x < c.w → y < c.h → ∀ n, ∃ m, n ≤ m ∧ p m = (x, y)) :
    ∃ N, ∀ m, N ≤ m → Ok (processAll c ((List.range m).map p)) fun c' =>
      ∀ x y d, c'.Av x y d ↔ arcClosure c.w c.h c.E c.Av x y d := by
  obtain ⟨N, hN⟩ := sweep_reaches (w := c.w) (h := c.h) (E := c.E) (S := c.Av) (l := c.levels)
    (fun x y d h => ⟨(hp x y d h).1, (hp x y d h).2.1, (hp x y d h).2.2.1⟩) p hfair
  refine ⟨N, fun m hm => (processAll_mk hc hp ?_).mono ?_⟩
  · intro q hq
    obtain ⟨n, -, rfl⟩ := List.mem_map.1 hq
    exact hin n
  · rintro c' ⟨-, -, -, h4⟩ x y d
    rw [h4, show ((List.range m).map p) = firstPixels p m from rfl, hN m hm]

/-- Non-vacuity: going round the pixels of `smallStart` is such a sequence. -/
example : (∀ n, ((n % 3, 0) : Nat × Nat).1 < smallStart.w ∧ ((n % 3, 0) : Nat × Nat).2 < smallStart.h) ∧
    ∀ x y, x < smallStart.w → y < smallStart.h → ∀ n, ∃ m, n ≤ m ∧ ((m % 3, 0) : Nat × Nat) = (x, y) := by
  have hw : smallStart.w = 3 := by decide +kernel
  have hh : smallStart.h = 1 := by decide +kernel
  rw [hw, hh]
  refine ⟨fun n => ⟨Nat.mod_lt _ (by omega), Nat.one_pos⟩, fun x y hx hy n => ⟨3 * n + x, by omega, ?_⟩⟩
  rw [Prod.mk.injEq]
  omega

/-- The fixed point on `smallStart`: the node `(0, 0, 1)` that `solve_csp` leaves is removed. -/
example : ((processAll smallStart [(0, 0), (1, 0), (2, 0), (0, 0)]).toOption.map fun c => c.nodesAvailability)
    = some #[true, false, true, false, true, false] := by decide +kernel

/-! ## C32: arc consistency decides solvability -/

/-- **C32**. For the constraint graph of a fresh disparity graph there is a consistent labeling if and only if the largest arc
consistent subset has a node in each pixel, and in that case the lowest disparities of the subset form one. -/
theorem C32_arc_consistency_decides [LawfulFloat F] (hc : c.Plain) :
    ((∃ L, Consistent c.w c.h c.E c.Av L) ↔ AllAlive c.w c.h (arcClosure c.w c.h c.E c.Av)) ∧
    ∀ L : Nat → Nat → Nat, (∀ x y, x < c.w → y < c.h → arcClosure c.w c.h c.E c.Av x y (L x y) ∧
        ∀ d, arcClosure c.w c.h c.E c.Av x y d → L x y ≤ d) → Consistent c.w c.h c.E c.Av L := by
  have key : ∀ L : Nat → Nat → Nat, (∀ x y, x < c.w → y < c.h → arcClosure c.w c.h c.E c.Av x y (L x y) ∧
        ∀ d, arcClosure c.w c.h c.E c.Av x y d → L x y ≤ d) → Consistent c.w c.h c.E c.Av L := by
    intro L hL
    have := min_labeling hc.symm hc.minClosed arcClosure_arc hL
    exact fun x y hx hy => ⟨arcClosure_sub _ _ _ (this x y hx hy).1, (this x y hx hy).2⟩
  refine ⟨⟨?_, fun hal => ?_⟩, key⟩
  · rintro ⟨L, hL⟩ x y hx hy
    exact ⟨L x y, sub_arcClosure hL.sub (consistent_arc hL) _ _ _ ⟨hx, hy, rfl⟩⟩
  · classical
    have hex : ∀ x y, ∃ l, x < c.w → y < c.h → arcClosure c.w c.h c.E c.Av x y l ∧
        ∀ d, arcClosure c.w c.h c.E c.Av x y d → l ≤ d := by
      intro x y
      by_cases hxy : x < c.w ∧ y < c.h
      · have := hal x y hxy.1 hxy.2
        exact ⟨Nat.find this, fun _ _ => ⟨Nat.find_spec this, fun d hd => Nat.find_min' this hd⟩⟩
      · exact ⟨0, fun h1 h2 => absurd ⟨h1, h2⟩ hxy⟩
    choose L hL using hex
    exact ⟨L, key L hL⟩

/-- **C32** for the code: if nothing more can be removed from what any processing of pixels left, then there is a consistent
labeling if and only if each pixel has an available node. -/
theorem C32_fixpoint_decides [LawfulFloat F] (hc : c.Valid) (hp : c.Proper) (hpl : c.Plain) {ps : List (Nat × Nat)}
    (hps : ∀ p ∈ ps, p.1 < c.w ∧ p.2 < c.h) :
    Ok (processAll c ps) fun c' =>
      (∀ x y, x < c.w → y < c.h → Ok (cspProcessPixel c' (mkPixel x y)) fun r => r.2 = false) →
      ((∃ L, Consistent c.w c.h c.E c.Av L) ↔ ∀ x y, x < c.w → y < c.h → ∃ d, c'.Av x y d) := by
  refine (C31_fixpoint_unique hc hp hps).mono ?_
  intro c' h hst
  rw [(C32_arc_consistency_decides hpl).1]
  unfold AllAlive
  simp only [h hst]

example : smallStart.Plain ∧ hardStart.Plain := ⟨smallStart_ok.2.2, hardStart_ok.2.2⟩

/-- Non-vacuity: such a fixed point exists. -/
example : ((do
    let c ← processAll smallStart [(0, 0), (1, 0), (2, 0), (0, 0)]
    let (_, a) ← cspProcessPixel c (mkPixel 0 0)
    let (_, b) ← cspProcessPixel c (mkPixel 1 0)
    let (_, d) ← cspProcessPixel c (mkPixel 2 0)
    return (a, b, d)) : M _) = .ok (false, false, false) := by decide +kernel

end
end SP
