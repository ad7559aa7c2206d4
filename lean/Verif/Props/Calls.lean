import Verif.Lemmas.Calls
import Verif.Props.Program
import Verif.Props.CudaKernel
/-!
# Property C103: how many times `solve_csp` is called

The bisection halves the array of candidates, `find_labeling` calls `solve_csp` once for each pixel: whatever the arithmetic of `FLOAT` and
the results of the calls are, the program makes at most `log2(candidates) + 1 + width * height` of them.
-/
namespace SP
open FloatOps
variable {F : Type} [FloatOps F] {solve solve' : Solver F} {g : DisparityGraph F}

/-- How many candidates for the threshold a graph of this size may have: `levels` for a pixel and `levels * levels` for
each of its four neighbors. -/
def DisparityGraph.candidates (g : DisparityGraph F) : Nat :=
  g.w * (g.h * (g.levels + 4 * (g.levels * g.levels)))

/-- The number of candidates. -/
theorem C103_candidates {p : LowestPenalties F} {l : List F} (hw : p.graph.right.width = p.graph.left.width)
    (hw' : p.graph.left.width.toNat + 1 < 18446744073709551616) (h : fetchAvailablePenalties p = .ok l) :
    l.length ≤ p.graph.candidates :=
  fetch_length_le hw hw' h

/-- Bisection: with at most `2 ^ c` candidates `solve_csp` is called at most `c` times, whatever it returns. -/
theorem C103_search {p : LowestPenalties F} {arr : Array F} {c : Nat} {r : F × Nat} (hs : arr.size ≤ 2 ^ c) (hc : c ≤ 63)
    (h : Par.calculateMinimalConsistentThreshold solve p g arr = .ok r) : r.2 ≤ c :=
  (minimal_calls (K := c) (fun _ _ _ => rfl) hs
    (Nat.le_trans hs (Nat.pow_le_pow_right (by decide) hc : 2 ^ c ≤ 2 ^ 63)) (Nat.le_refl c)).2 r h

/-- `find_labeling` calls `solve_csp` at most once for each pixel, exactly once if a labeling is found. -/
theorem C103_label {calls : Nat} {c : ConstraintGraph F} {r : ConstraintGraph F × Bool × Nat}
    (h : Par.findLabeling solve calls c = .ok r) :
    r.2.2 ≤ calls + c.disparityGraph.left.width.toNat * c.disparityGraph.left.height.toNat ∧
    (r.2.1 = true → r.2.2 = calls + c.disparityGraph.left.width.toNat * c.disparityGraph.left.height.toNat) :=
  ⟨findLabeling_calls h, findLabeling_exact h⟩

/-- Only the first `c + 1` calls matter for the graph for which a labeling is looked for; their number. -/
theorem solvedGraph_calls {K c : Nat} (h : ∀ n d, n < K → solve n d = solve' n d) (hw : g.right.width = g.left.width)
    (hw' : g.left.width.toNat + 1 < 18446744073709551616) (hc : g.candidates ≤ 2 ^ c) (hc' : c ≤ 63) (hK : c + 1 ≤ K) :
    Par.solvedGraph solve g = Par.solvedGraph solve' g ∧ ∀ r, Par.solvedGraph solve g = .ok r → r.2 ≤ c + 1 := by
  have key : Par.minimalThreshold solve g = Par.minimalThreshold solve' g ∧
      ∀ r, Par.minimalThreshold solve g = .ok r → r.2.2 ≤ c := by
    unfold Par.minimalThreshold
    cases h1 : mkLowestPenalties g with
    | error e => exact ⟨rfl, fun r hr => by cases hr⟩
    | ok p =>
      have hpg : p.graph = g := by
        unfold mkLowestPenalties at h1
        obtain ⟨q, _, h1⟩ := bind_eq_ok h1
        cases h1
        rfl
      simp only [bind_ok]
      cases h2 : fetchAvailablePenalties p with
      | error e => exact ⟨rfl, fun r hr => by cases hr⟩
      | ok l =>
        simp only [bind_ok]
        have hlen := fetch_length_le (by rw [hpg]; exact hw) (by rw [hpg]; exact hw') h2
        rw [hpg] at hlen
        have hlen' : l.toArray.size ≤ 2 ^ c := Nat.le_trans hlen hc
        have k := minimal_calls (p := p) (g := g) h hlen'
          (Nat.le_trans hlen' (Nat.pow_le_pow_right (by decide) hc' : 2 ^ c ≤ 2 ^ 63)) (by omega)
        rw [k.1]
        refine ⟨rfl, fun r hr => ?_⟩
        obtain ⟨q, h3, hr⟩ := bind_eq_ok hr
        cases hr
        exact k.2 q (k.1 ▸ h3)
  unfold Par.solvedGraph
  rw [← key.1]
  cases h1 : Par.minimalThreshold solve g with
  | error e => exact ⟨rfl, fun r hr => by cases hr⟩
  | ok r1 =>
    obtain ⟨p, t, calls⟩ := r1
    have hcalls := key.2 _ h1
    dsimp only at hcalls
    simp only [bind_ok]
    constructor
    · refine bind_congr fun d => ?_
      rw [h calls d (by omega)]
    · intro r hr
      obtain ⟨d, _, hr⟩ := bind_eq_ok hr
      obtain ⟨⟨d', b⟩, _, hr⟩ := bind_eq_ok hr
      cases b
      · cases hr
      · cases hr; dsimp only; omega

/-- The graph for which a labeling is looked for takes at most `c + 1` calls. -/
theorem C103_solved {c : Nat} {r : ConstraintGraph F × Nat} (hw : g.right.width = g.left.width)
    (hw' : g.left.width.toNat + 1 < 18446744073709551616) (hc : g.candidates ≤ 2 ^ c) (hc' : c ≤ 63)
    (h : Par.solvedGraph solve g = .ok r) : r.2 ≤ c + 1 :=
  (solvedGraph_calls (fun _ _ _ => rfl) hw hw' hc hc' (Nat.le_refl _)).2 r h

theorem labeledMap_calls {K c : Nat} {label label' : Nat → ConstraintGraph F → M (ConstraintGraph F × Bool)}
    (h : ∀ n d, n < K → solve n d = solve' n d) (hw : g.right.width = g.left.width)
    (hw' : g.left.width.toNat + 1 < 18446744073709551616) (hc : g.candidates ≤ 2 ^ c) (hc' : c ≤ 63) (hK : c + 1 ≤ K)
    (hlab : ∀ r, Par.solvedGraph solve g = .ok r → r.2 ≤ c + 1 → label r.2 r.1 = label' r.2 r.1) :
    Par.labeledMap solve label g = Par.labeledMap solve' label' g := by
  have k := solvedGraph_calls h hw hw' hc hc' hK
  unfold Par.labeledMap
  rw [← k.1]
  cases h1 : Par.solvedGraph solve g with
  | error e => rfl
  | ok r => simp only [bind_ok, hlab r h1 (k.2 r h1)]

/-- The choice does not depend on the solver, only `find_labeling` itself calls it. -/
theorem chooseParallelism_solver (world : World F) (solve' : Solver F) (p : Option Text) :
    (chooseParallelism world p = none ∧ chooseParallelism { world with solve := solve' } p = none) ∨
    ∃ out label label', chooseParallelism world p = some (out, label) ∧
      chooseParallelism { world with solve := solve' } p = some (out, label') ∧
      (label = label' ∨ label = Par.labelCpu world.solve ∧ label' = Par.labelCpu solve') := by
  unfold chooseParallelism
  cases p with
  | none => exact .inr ⟨_, _, _, rfl, rfl, .inr ⟨rfl, rfl⟩⟩
  | some v =>
    dsimp only
    cases world.openCL <;> cases world.cuda <;> dsimp only <;> (repeat' split) <;>
      first
      | exact .inl ⟨rfl, rfl⟩
      | exact .inr ⟨_, _, _, rfl, rfl, .inl rfl⟩
      | exact .inr ⟨_, _, _, rfl, rfl, .inr ⟨rfl, rfl⟩⟩

/-- The results of later calls do not matter: the program with other results of the calls after the first
`c + 1 + width * height` ones does the same. Here `2 ^ c` is at least the number of candidates. -/
theorem C103_program {world : World F} {B : Nat} {jobs : UInt64} (hw : world.Reasonable jobs) (hs : world.Runs B jobs)
    (cl : CommandLine) (K : Nat)
    (hK : ∀ o l r g, cl = .parsed o → o.leftImage = some l → o.rightImage = some r → readGraph world o l r = .ok g →
      ∃ c, c ≤ 63 ∧ g.candidates ≤ 2 ^ c ∧ c + 1 + g.w * g.h ≤ K)
    (solve' : Solver F) (h : ∀ n d, n < K → world.solve n d = solve' n d) :
    program { world with solve := solve' } cl = program world cl := by
  unfold program
  cases cl with
  | repeated => rfl
  | wrong => rfl
  | parsed o =>
    dsimp only
    cases ho : o.outputImage with
    | none => rfl
    | some output =>
      cases hl : o.leftImage with
      | none => rfl
      | some left =>
        cases hr : o.rightImage with
        | none => rfl
        | some right =>
          dsimp only
          have hgraph : readGraph { world with solve := solve' } o left right = readGraph world o left right := rfl
          have key : ∀ (label label' : Labeler F), (label = label' ∨ label = Par.labelCpu world.solve ∧ label' = Par.labelCpu solve') →
              compute { world with solve := solve' } o label' left right output = compute world o label left right output := by
            intro label label' hlab
            unfold compute
            rw [hgraph]
            cases hg : readGraph world o left right with
            | error e => rfl
            | ok g =>
              obtain ⟨c, h1, h2, h3⟩ := hK o left right g rfl hl hr hg
              obtain ⟨li, ri, levels, cw, sw, -, -, -, -, -, hacc, hli, hri, hsize, rfl⟩ := readGraph_ok hw hg
              have hsz := hli.size
              have hpos := hacc.1
              have hh : li.height.toNat ≤ li.data.size := by
                rw [hsz]
                calc li.height.toNat = 1 * li.height.toNat := (Nat.one_mul _).symm
                  _ ≤ li.width.toNat * li.height.toNat := Nat.mul_le_mul_right _ hpos.1
              have hwd : li.width.toNat ≤ li.data.size := by
                rw [hsz]
                calc li.width.toNat = li.width.toNat * 1 := (Nat.mul_one _).symm
                  _ ≤ li.width.toNat * li.height.toNat := Nat.mul_le_mul_left _ hpos.2.1
              have hv := freshGraph_valid hli hri hacc (accepted_fits hacc hli hsize)
              have hfit : (freshGraph li ri levels cw sw).h + jobs.toNat ≤ 18446744073709551616 := by
                have := hw.jobs_small
                have e1 : (freshGraph li ri levels cw sw).h = li.height.toNat := by
                  show ri.height.toNat = _
                  rw [hacc.2.2.2.2.2.1]
                omega
              simp only [bind_ok]
              rw [labeledMap_calls (solve := world.solve) (solve' := solve') (label := label) (label' := label') h hacc.2.2.2.2.1.symm
                (by show li.width.toNat + 1 < _; omega) h2 h1 (by omega) (fun r hr hcalls => ?_)]
              · rfl
              · rcases hlab with rfl | ⟨rfl, rfl⟩
                · rfl
                · obtain ⟨d, n⟩ := r
                  obtain ⟨-, -, hdg⟩ := solvedGraph_runs hs hv.1 hw.jobs_pos hfit hr
                  unfold Par.labelCpu
                  dsimp only at hcalls hdg ⊢
                  rw [findLabeling_firstCalls h]
                  rw [hdg]
                  have e1 : (freshGraph li ri levels cw sw).h = li.height.toNat := by
                    show ri.height.toNat = _
                    rw [hacc.2.2.2.2.2.1]
                  have e2 : (freshGraph li ri levels cw sw).w = li.width.toNat := by
                    show ri.width.toNat = _
                    rw [hacc.2.2.2.2.1]
                  rw [e1, e2] at h3
                  show n + li.width.toNat * li.height.toNat ≤ K
                  omega
          rcases chooseParallelism_solver world solve' o.parallel with ⟨h1, h2⟩ | ⟨out, label, label', h1, h2, h3⟩
          · rw [h1, h2]
          · rw [h1, h2]
            dsimp only
            rw [key label label' h3]

/-- A call makes at most two rounds of the loop `while (changed)` if there is one thread or each flag has its own word: a round that reports
changes is not followed by another one. With several threads and several flags in a word it may go on forever
(`C66_terminates_refuted`). -/
theorem C103_rounds {B n : Nat} {jobs : UInt64} {c c' c'' : ConstraintGraph F} (hc : c.Valid) (hj : 0 < jobs.toNat)
    (hfit : c.h + jobs.toNat ≤ 18446744073709551616) (hn : n ≤ 18446744073709551616) (h1 : B = 1 ∨ n = 1)
    (h : RoundTo B n jobs c c' true) : ¬ RoundTo B n jobs c' c'' true := by
  have key : RoundTo 1 n jobs c c' true → ¬ RoundTo 1 n jobs c' c'' true := fun h h' => by
    obtain ⟨a1, a2, -⟩ := h.basic hc hj hfit hn
    obtain ⟨x, y, d, hd⟩ := h'.nonempty a2 hj (by rw [a1.h_eq]; exact hfit) hn
    exact h.wipes hc hj hfit hn x y d hd
  rcases h1 with rfl | rfl
  · exact key h
  · exact fun h' => key (RoundTo.one.2 (RoundTo.one.1 h)) (RoundTo.one.2 (RoundTo.one.1 h'))

/-! ## Examples -/

set_option maxRecDepth 1000000 in
/-- Non-vacuity of `C103_program`: images `3 × 2` with two levels, at most `14` calls. -/
example : smallWorld.Reasonable 1 ∧ smallWorld.Runs 64 1 ∧
    ∀ o l r g, CommandLine.parsed (smallOptions "o") = .parsed o → o.leftImage = some l → o.rightImage = some r →
      readGraph smallWorld o l r = .ok g → ∃ c, c ≤ 63 ∧ g.candidates ≤ 2 ^ c ∧ c + 1 + g.w * g.h ≤ 14 := by
  refine ⟨⟨by decide, by decide, by decide, fun _ => rfl⟩, (.inr rfl), fun o l r g ho hl hr hg => ?_⟩
  cases ho
  cases hl
  cases hr
  have key : ((readGraph smallWorld (smallOptions "o") (bytes "l") (bytes "r")).toOption.map fun g => (g.candidates, g.w, g.h)) =
      some (108, 3, 2) := by decide +kernel
  rw [hg] at key
  obtain ⟨h1, h2, h3⟩ : g.candidates = 108 ∧ g.w = 3 ∧ g.h = 2 := by simpa [Except.toOption] using key
  exact ⟨7, by decide, by rw [h1]; decide, by rw [h2, h3]⟩

set_option maxRecDepth 1000000 in
/-- The bound is attained: there are two candidates, so the search makes one call, one more follows it and then one for each of
the six pixels. -/
example : ((do
      let g ← readGraph smallWorld (smallOptions "o") (bytes "l") (bytes "r")
      let p ← mkLowestPenalties g
      let l ← fetchAvailablePenalties p
      let r ← Par.solvedGraph smallWorld.solve g
      let q ← Par.findLabeling smallWorld.solve r.2 r.1
      return (l.length, r.2, q.2)) : M (Nat × Nat × Bool × Nat)) = .ok (2, 1 + 1, true, 1 + 1 + 6) := by decide +kernel

set_option maxRecDepth 1000000 in
/-- The last of these calls does matter. -/
example : program { smallWorld with solve := fun n c => if n < 7 then solveCsp 1 c else .error .nonterm } (.parsed (smallOptions "o")) ≠
    program smallWorld (.parsed (smallOptions "o")) := by decide +kernel

end SP
