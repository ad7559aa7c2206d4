import Verif.Props.DoubleRefuted
import Verif.Props.Parallel
import Verif.Lemmas.ParFlags
/-!
# C114: when `solve_csp` goes on forever

Several threads may never leave the loop `while (changed)` (C66), because flags share words and a store of a word brings back flags
cleared by others. Here it is shown that this has to happen in every round of the call: as soon as one round ends the way it could end
if each flag had a word of its own, for example because threads did not overlap in it, the call ends after at most one
more round. In terms of the model: the round takes the graph to the same graph and reports a change with words of one flag, `RoundTo 1`.
-/
set_option linter.unusedSectionVars false

namespace SP
open FloatOps ConstraintGraph Gpu
variable {F : Type} [FloatOps F] {c c' : ConstraintGraph F} {B n : Nat} {jobs : UInt64} {solve : Solver F}

/-! ## Rounds -/

section
variable (hc : c.Valid) (hj : 0 < jobs.toNat) (hfit : c.h + jobs.toNat ≤ 18446744073709551616)
  (hn : n ≤ 18446744073709551616)
include hc hj hfit hn

/-- A worker reports a change only if it found a node in its graph. -/
theorem C114_no_change (he : ∀ x y d, ¬ c.Av x y d) : ¬ RoundTo B n jobs c c' true := fun h =>
  let ⟨x, y, d, hav⟩ := h.nonempty hc hj hfit hn
  he x y d hav

/-- Rounds of one call keep sizes. -/
theorem sequence_valid {f : Nat → ConstraintGraph F} {k : Nat} (h0 : f 0 = c) (hf : ∀ i, i < k → RoundTo B n jobs (f i) (f (i + 1)) true) :
    c.Same (f k) ∧ (f k).Valid ∧ Sub (f k).Av c.Av := by
  induction k with
  | zero => rw [h0]; exact ⟨.refl c, hc, fun _ _ _ h => h⟩
  | succ k ih =>
    obtain ⟨a1, a2, a3⟩ := ih fun i hi => hf i (by omega)
    obtain ⟨b1, b2, b3⟩ := (hf k (by omega)).basic a2 hj (by rw [a1.h_eq]; exact hfit) hn
    exact ⟨a1.trans b1, b2, b3.trans a3⟩

end

/-- **C114**, rounds. Whatever rounds of a call reported a change: if the last of them reports a change with each flag in a word of its own,
then the next round does not report a change. -/
theorem C114_ends_after (hc : c.Valid) (hj : 0 < jobs.toNat) (hfit : c.h + jobs.toNat ≤ 18446744073709551616)
    (hn : n ≤ 18446744073709551616) {f : Nat → ConstraintGraph F} {k : Nat} (h0 : f 0 = c)
    (hf : ∀ i, i < k → RoundTo B n jobs (f i) (f (i + 1)) true) (hu : RoundTo 1 n jobs (f k) (f (k + 1)) true)
    {c' : ConstraintGraph F} {changed : Bool} (hnext : RoundTo B n jobs (f (k + 1)) c' changed) : changed = false := by
  obtain ⟨a1, a2, -⟩ := sequence_valid hc hj hfit hn h0 hf
  have hfk : (f k).h + jobs.toNat ≤ 18446744073709551616 := by rw [a1.h_eq]; exact hfit
  obtain ⟨b1, b2, -⟩ := hu.basic a2 hj hfk hn
  cases changed with
  | false => rfl
  | true => exact absurd hnext (C114_no_change b2 hj (by rw [b1.h_eq]; exact hfk) hn (hu.wipes a2 hj hfk hn))

/-- Rounds in which workers are executed one after another, in any order, are among rounds with words of one flag. -/
theorem C114_in_order {l : List Nat} (hl : l.Nodup) (hn : ∀ i, i ∈ l ↔ i < n) {changed : Bool}
    (hr : runOrder jobs l c = .ok (c', changed)) : RoundTo 1 n jobs c c' changed :=
  RoundTo.of_order hl hn hr

section
variable (hc : c.Valid) (hj : 0 < jobs.toNat) (hfit : c.h + jobs.toNat ≤ 18446744073709551616)
  (hn : n ≤ 18446744073709551616)
include hc hj hfit hn

/-- **C114**. In an execution that goes on forever each round begins with some nodes, and no round could end this way if each flag had
a word of its own; in particular in no round workers are executed one after another. -/
theorem C114_every_round {f : Nat → ConstraintGraph F} (h0 : f 0 = c) (hf : ∀ k, RoundTo B n jobs (f k) (f (k + 1)) true) (k : Nat) :
    (∃ x y d, (f k).Av x y d) ∧ ¬ RoundTo 1 n jobs (f k) (f (k + 1)) true ∧
    ∀ l : List Nat, l.Nodup → (∀ i, i ∈ l ↔ i < n) → runOrder jobs l (f k) ≠ .ok (f (k + 1), true) := by
  obtain ⟨a1, a2, -⟩ := sequence_valid hc hj hfit hn h0 fun i (_ : i < k) => hf i
  have hfk : (f k).h + jobs.toNat ≤ 18446744073709551616 := by rw [a1.h_eq]; exact hfit
  have hu : ¬ RoundTo 1 n jobs (f k) (f (k + 1)) true := fun hu =>
    absurd (C114_ends_after hc hj hfit hn h0 (fun i _ => hf i) hu (hf (k + 1))) (by simp)
  exact ⟨(hf k).nonempty a2 hj hfk hn, hu, fun l hl hm hr => hu (C114_in_order hl hm hr)⟩

end

/-! ## A state that is reproduced -/

/-- The available flags. -/
def availableFlags (c : ConstraintGraph F) : Finset Nat :=
  (Finset.range c.nodesAvailability.size).filter fun i => c.nodesAvailability.getD i false = true

theorem RoundTo.size {changed : Bool} (h : RoundTo B n jobs c c' changed) : c'.nodesAvailability.size = c.nodesAvailability.size := by
  obtain ⟨P, r, -, -, -, rfl⟩ := h
  simp [withFlags]

/-- A graph differs from that before a round in flags only. -/
theorem RoundTo.eq_of_flags {changed : Bool} (h : RoundTo B n jobs c c' changed) (he : availableFlags c' = availableFlags c) : c' = c := by
  have hsz := h.size
  obtain ⟨P, r, -, -, -, rfl⟩ := h
  conv_rhs => rw [← withFlags_self c]
  unfold withFlags
  congr 1
  apply Array.ext
  · simp
  · intro i h1 h2
    simp only [Array.getElem_ofFn]
    have hi : i < c.nodesAvailability.size := by simpa using h2
    have := Finset.ext_iff.1 he i
    simp only [availableFlags, Finset.mem_filter, Finset.mem_range, hsz, hi, true_and, withFlags_getD, decide_true, Bool.true_and] at this
    rw [Bool.eq_iff_iff]
    exact this

/-- No flag is set by a round. -/
theorem RoundTo.flags_sub {changed : Bool} (h : RoundTo B n jobs c c' changed) (hc : c.Valid) (hj : 0 < jobs.toNat)
    (hfit : c.h + jobs.toNat ≤ 18446744073709551616) (hn : n ≤ 18446744073709551616) : availableFlags c' ⊆ availableFlags c := by
  have hsz := h.size
  obtain ⟨a1, a2, a3⟩ := h.basic hc hj hfit hn
  intro i hi
  simp only [availableFlags, Finset.mem_filter, Finset.mem_range, hsz] at hi ⊢
  refine ⟨hi.1, ?_⟩
  obtain ⟨x, y, d, hx, hy, hd, rfl⟩ := nidx_surj (w := c.w) (h := c.h) (l := c.levels) (i := i) (by have := hi.1; rw [hc.size] at this; exact this)
  have eh : c'.disparityGraph = c.disparityGraph := a1.1
  have : c'.Av x y d := by
    refine ⟨?_, ?_, ?_, ?_⟩
    · unfold ConstraintGraph.w; rw [eh]; exact hx
    · unfold ConstraintGraph.h; rw [eh]; exact hy
    · unfold ConstraintGraph.levels; rw [eh]; exact hd
    · have h2 := hi.2
      unfold ConstraintGraph.h ConstraintGraph.levels at h2
      unfold ConstraintGraph.h ConstraintGraph.levels
      rw [eh]
      exact h2
  exact (a3 x y d this).2.2.2

/-- **C114**, a criterion. The loop may go on forever iff after some rounds there is a graph that a round reporting a change takes to itself. -/
theorem C114_reproduced (hc : c.Valid) (hj : 0 < jobs.toNat) (hfit : c.h + jobs.toNat ≤ 18446744073709551616)
    (hn : n ≤ 18446744073709551616) :
    Diverges B n jobs c ↔ ∃ c', RoundsTo B n jobs c c' ∧ RoundTo B n jobs c' c' true := by
  constructor
  · rintro ⟨f, h0, hf⟩
    have hval := fun k => sequence_valid hc hj hfit hn h0 fun i (_ : i < k) => hf i
    have hstep : ∀ k, availableFlags (f (k + 1)) ⊆ availableFlags (f k) := fun k =>
      (hf k).flags_sub (hval k).2.1 hj (by rw [(hval k).1.h_eq]; exact hfit) hn
    obtain ⟨k, hk⟩ : ∃ k, ∀ m, (availableFlags (f k)).card ≤ (availableFlags (f m)).card := by
      have hne : ({m | ∃ k, (availableFlags (f k)).card = m} : Set Nat).Nonempty := ⟨_, 0, rfl⟩
      obtain ⟨k, hk⟩ := Nat.sInf_mem hne
      exact ⟨k, fun m => hk ▸ Nat.sInf_le ⟨m, rfl⟩⟩
    have he := Finset.eq_of_subset_of_card_le (hstep k) (hk (k + 1))
    have heq := (hf k).eq_of_flags he
    have hto : ∀ k, RoundsTo B n jobs c (f k) := by
      intro k
      induction k with
      | zero => rw [h0]; exact .refl c
      | succ k ih => exact .again ih (hf k)
    refine ⟨f k, hto k, ?_⟩
    have := hf k
    rwa [heq] at this
  · rintro ⟨c', h1, h2⟩
    have key : ∀ {a b : ConstraintGraph F}, RoundsTo B n jobs a b → Diverges B n jobs b → Diverges B n jobs a := by
      intro a b h
      induction h with
      | refl => exact id
      | @again d _ _ h' ih =>
        rintro ⟨f, h0, hf⟩
        refine ih ⟨fun k => if k = 0 then d else f (k - 1), by simp, fun k => ?_⟩
        cases k with
        | zero => simpa [h0] using h'
        | succ k => simpa using hf k
    exact key h1 ⟨fun _ => c', rfl, fun _ => h2⟩

/-! ## The program -/

/-- Whenever a call goes on forever, in some of its rounds nothing is brought back. The loop is left then: there is no such call. -/
def Solver.Fair (B : Nat) (jobs : UInt64) (solve : Solver F) : Prop :=
  ∀ n c, solve n c = .error .nonterm → ∃ f : Nat → ConstraintGraph F, f 0 = c ∧ (∀ k, RoundTo B jobs.toNat jobs (f k) (f (k + 1)) true) ∧
    ∃ k, RoundTo 1 jobs.toNat jobs (f k) (f (k + 1)) true

theorem Solver.Fair.ends (h : solve.Fair B jobs) (hj : 0 < jobs.toNat) : ¬ solve.HasEndless jobs := by
  rintro ⟨n, c, hc, -, hfit, hm⟩
  obtain ⟨f, h0, hf, k, hk⟩ := h n c hm
  exact (C114_every_round hc hj hfit (Nat.le_of_lt (toNat_lt' jobs)) h0 hf k).2.1 hk

section
variable {D : Type} [FloatOps D] {conv : F → D} {allowed : (Nat → Nat) → Prop} {world : World F}

/-- **C114** for the program with devices: it ends with an exit status unless a call of `solve_csp` goes on forever or work items miss each
other. -/
theorem C114_program [LawfulFloat F] (hw : world.Reasonable jobs) (hs : world.solve.Possible B jobs) (hdev : world.Devices conv allowed)
    (hfair : ¬ world.solve.HasEndless jobs) (hfiles : ∀ path text, world.file path = some text → HarmlessFile text) (cl : CommandLine) :
    (Ok (program world cl) fun out => out.exit = 0 ∨ out.exit = 1) ∨
    (program world cl = .error .ub ∧ ∃ kernel : Kernel D, IsKernel kernel ∧ Misses kernel allowed .ub) := by
  rcases program_safe hw hs hdev hfiles cl with h | ⟨-, -, h⟩ | h
  · exact .inl h
  · exact absurd h hfair
  · exact .inr h

end

section
variable {G : Type} [FloatOps G] {φ : F → G} {P : F → Prop}

theorem ConstraintGraph.Valid.mapF (hc : c.Valid) : (c.mapF (.of φ)).Valid :=
  ⟨⟨⟨{ hc.lowest.graph.toDims with }, hc.lowest.graph.left_size, hc.lowest.graph.right_size,
    (Array.size_map).trans hc.lowest.graph.rep_size, hc.lowest.graph.fits⟩,
    (Array.size_map).trans hc.lowest.pixels_size, (Array.size_map).trans hc.lowest.neighborhoods_size⟩,
    congrArg (DisparityGraph.mapF (.of φ)) hc.same, hc.size⟩

theorem ConstraintGraph.Proper.mapF (hp : c.Proper) : (c.mapF (.of φ)).Proper := hp

open Classical in
/-- The solver with calls for graphs that do not occur replaced by calls executed in order. -/
noncomputable def tamed (φ : F → G) (P : F → Prop) (jobs : UInt64) (solve : Solver F) : Solver F := fun n c =>
  if CarriedGraph (.of φ) P c then solve n c
  else if c.Valid ∧ c.Proper ∧ c.h + jobs.toNat ≤ 18446744073709551616 then solveCsp jobs c else solve n c

theorem tamed_possible (h : solve.Possible B jobs) (hj : 0 < jobs.toNat) : (tamed φ P jobs solve).Possible B jobs := by
  intro n c
  unfold tamed
  split
  · exact h n c
  split
  · rename_i hv
    obtain ⟨hc, hp, hfit⟩ := hv
    obtain ⟨r, hr, -⟩ := solveCsp_mk hc hp hj hfit
    rw [UInt64.ofNat_toNat] at hr
    rw [hr]
    exact SolveTo.of_seq hr
  · exact h n c

theorem tamed_ends {solve' : Solver G} (hj : 0 < jobs.toNat) (h : ¬ solve'.HasEndless jobs)
    (hs : ∀ n c, CarriedGraph (.of φ) P c →
      Sim (Mapped2 (.of φ) c.disparityGraph c.lowestPenalties c.threshold) (solve n c) (solve' n (c.mapF (.of φ)))) :
    ¬ (tamed φ P jobs solve).HasEndless jobs := by
  rintro ⟨n, c, hc, hp, hfit, hm⟩
  unfold tamed at hm
  split at hm
  · rename_i hcar
    have := hs n c hcar
    rw [hm] at this
    cases hm' : solve' n (c.mapF (.of φ)) with
    | ok r => rw [hm'] at this; exact this
    | error e =>
      rw [hm'] at this
      obtain rfl : Err.nonterm = e := this
      exact h ⟨n, _, hc.mapF, hp.mapF, hfit, hm'⟩
  · rw [if_pos ⟨hc, hp, hfit⟩] at hm
    obtain ⟨r, hr, -⟩ := solveCsp_mk hc hp hj hfit
    rw [UInt64.ofNat_toNat, hm] at hr
    cases hr

end

section
variable {D : Type} [FloatOps D] {world : World Double} {conv : Double → D} {allowed : (Nat → Nat) → Prop}

/-- **C114** for the program with `double`. -/
theorem C114_double (hw : world.Reasonable jobs) (hs : world.solve.Possible B jobs) (hdev : world.Devices conv allowed)
    (hfair : ¬ world.solve.HasEndless jobs) (hfiles : ∀ path text, world.file path = some text → HarmlessFile text) (cl : CommandLine) :
    (Ok (program world cl) fun out => out.exit = 0 ∨ out.exit = 1) ∨
    (program world cl = .error .ub ∧ ∃ kernel : Kernel D, IsKernel kernel ∧ Misses kernel allowed .ub) := by
  obtain ⟨world', h1, h2, h3, h4⟩ := World.pull carrier_double (.inl hs) hdev
  let world'' : World Format.binary64.Num := { world' with solve := tamed toDouble (Ieee.Small 192) jobs world'.solve }
  have hsame : SameWorld toDouble (Ieee.Small 192) 192 world'' world := by
    refine ⟨h1.file, h1.writable, h1.memory, h1.room, fun n c hc => ?_, h1.openCL, h1.cuda⟩
    show Sim _ (tamed toDouble (Ieee.Small 192) jobs world'.solve n c) _
    unfold tamed
    rw [if_pos hc]
    exact h1.solve n c hc
  rw [program_transfer carrier_double hsame cl fun o l r _ _ _ => world''.inRange_192 o l r]
  exact C114_program (world := world'') (B := B) (conv := fun a => conv (toDouble a)) (allowed := allowed)
    ⟨h1.memory ▸ hw.memory, hw.jobs_pos, hw.jobs_small, h1.room ▸ hw.room⟩
    (tamed_possible (h3 hs) hw.jobs_pos) ⟨h4.openCL, h4.cuda⟩ (tamed_ends hw.jobs_pos hfair h1.solve)
    (fun path text h => hfiles path text (by rw [← h1.file]; exact h)) cl

end

/-- **C114**, the program with `double` without devices and with several threads. If in each call of `solve_csp` that would go on forever some
round brings nothing back, then it always ends with an exit status. -/
theorem C114_threads {world : World Double} (hw : world.Reasonable jobs) (hs : world.solve.Possible B jobs) (hcpu : world.CpuOnly)
    (hfair : world.solve.Fair B jobs) (hfiles : ∀ path text, world.file path = some text → HarmlessFile text) (cl : CommandLine) :
    Ok (program world cl) fun out => out.exit = 0 ∨ out.exit = 1 := by
  rcases C114_double hw hs hcpu.devices (hfair.ends hw.jobs_pos) hfiles cl with h | ⟨-, kernel, -, -, d, group, P, -, hg, -⟩
  · exact h
  · exact hg.elim

/-- The graph of C66 reproduces itself. -/
example : loopStart.Valid ∧ RoundsTo 64 2 2 loopStart loopNext ∧ RoundTo 64 2 2 loopNext loopNext true ∧
    ¬ RoundTo 1 2 2 loopNext loopNext true := by
  have h1 : endsWith loopStart loopTurns loopNext.nodesAvailability = true := by decide +kernel
  have h2 : endsWith loopNext loopTurns' loopNext.nodesAvailability = true := by decide +kernel
  have hv : loopStart.Valid := C66_terminates_refuted.2.1
  have r1 : RoundTo 64 2 2 loopStart loopNext true := round_of_endsWith (by decide) h1
  have r2 : RoundTo 64 2 2 loopNext loopNext true := round_of_endsWith (by decide) h2
  refine ⟨hv, .again (.refl _) r1, r2, ?_⟩
  exact (C114_every_round (f := fun _ => loopNext) (c := loopNext) (withFlags_valid hv _) (by decide) (by decide +kernel) (by decide) rfl
    (fun _ => r2) 0).2.1

/-- Threads whose rounds do not overlap make a solver that is fair. -/
example : ∃ solve : Solver Double, solve.Possible 64 2 ∧ ∀ n c, c.Valid → c.Proper → c.h + 2 ≤ 18446744073709551616 → solve n c ≠ .error .nonterm := by
  obtain ⟨solve, h1, h2⟩ := Solver.Possible.seq (F := Double) 64 2
  refine ⟨solve, h1, fun n c hc hp hfit he => ?_⟩
  obtain ⟨r, hr, -⟩ := solveCsp_mk hc hp (jobs := 2) (by decide) hfit
  rcases h2 n c with ⟨e, -, h⟩ | h
  · rw [show UInt64.ofNat 2 = 2 from rfl, h] at hr; cases hr
  · rw [show UInt64.ofNat 2 = 2 from rfl, ← h, he] at hr; cases hr

end SP
