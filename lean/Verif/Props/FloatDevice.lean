import Verif.Props.Double
import Verif.Props.GpuRefuted
/-!
# C93: weights that are too large for `float`

Concrete executions of the program with `double` on the processor and `float` on a device.
-/
namespace SP
open FloatOps Gpu
set_option maxRecDepth 1000000

section
variable {F D : Type} [FloatOps F] [FloatOps D]

/-- The program with launches that are computed. -/
theorem refines_program {world world' : World F} {conv : F → D} {l l' : Launcher D} (h : ∀ n d, Refines (· = .nonterm) (l n d) (l' n d))
    (hcl : world.openCL = some (findLabelingCl conv l)) (hw : world' = { world with openCL := some (findLabelingCl conv l') })
    (o : Options) (hp : o.parallel = some (bytes "CL")) :
    Refines (· = .nonterm) (program world (.parsed o)) (program world' (.parsed o)) := by
  subst hw
  have hn : (bytes "CL").map toLower = nameCl := by decide +kernel
  unfold program
  simp only
  cases o.outputImage <;> cases o.leftImage <;> cases o.rightImage <;> try exact .refl _
  rename_i output left right
  have e1 : chooseParallelism world o.parallel = some ([.openCL], fun _ => findLabelingCl conv l) := by
    unfold chooseParallelism
    rw [hp, hcl]
    simp only [hn, true_or, if_true]
  have e2 : chooseParallelism { world with openCL := some (findLabelingCl conv l') } o.parallel =
      some ([.openCL], fun _ => findLabelingCl conv l') := by
    unfold chooseParallelism
    rw [hp]
    simp only [hn, true_or, if_true]
  simp only [e1, e2]
  have hc : Refines (· = .nonterm) (compute world o (fun _ => findLabelingCl conv l) left right output)
      (compute { world with openCL := some (findLabelingCl conv l') } o (fun _ => findLabelingCl conv l') left right output) := by
    unfold compute
    refine .bind (.refl _) fun g => .bind ?_ fun im => .refl _
    unfold Par.labeledMap
    exact .bind (.refl _) fun r => .bind (refines_cl h conv _) fun s => .refl _
  rcases hc with ⟨_, rfl, hc⟩ | hc
  · exact .inl ⟨_, rfl, by rw [hc]; rfl⟩
  · rw [hc]
    exact .refl _

end

/-- The program with a device that computes with `float`. -/
def floatWorld (launch : Launcher Single) : World Double where
  file path :=
    if path = bytes "l" then some (bytes "P2 4 1 4 4 4 0 4")
    else if path = bytes "r" then some (bytes "P2 4 1 4 4 0 0 4") else none
  writable _ := true
  memory := 1000
  room _ := none
  solve _ := solveCsp 1
  openCL := some (findLabelingCl Ieee.convert launch)
  cuda := none

/-- Options with these weights. -/
def weighted (cleanness smoothness : Option String) (parallel : Option String) : Options :=
  { leftImage := some (bytes "l"), rightImage := some (bytes "r"), outputImage := some (bytes "o"), disparityLevels := some (bytes "3"),
    cleanness := cleanness.map bytes, smoothness := smoothness.map bytes, parallel := parallel.map bytes }

/-- Turns of work items. -/
def floatTurns : Nat → List Turn := fun _ => oneByOne [0, 1, 2, 3] 8

theorem float_cpu (launch : Launcher Single) : program (floatWorld launch) (.parsed (weighted (some "1048576") (some "16777217") none)) =
    .ok { exit := 0, written := some (bytes "o", bytes "P2\n4 1\n3\n0 0 0 0\n") } := by
  show program (floatWorld fun _ _ => .error .ub) (.parsed (weighted (some "1048576") (some "16777217") none)) = _
  decide +kernel

theorem float_cl : program (floatWorld (computed cspIteration id floatTurns)) (.parsed (weighted (some "1048576") (some "16777217") (some "CL"))) =
    .ok { exit := 0, out := [.openCL], written := some (bytes "o", bytes "P2\n4 1\n3\n0 1 0 0\n") } := by decide +kernel

theorem float_launch : (Launcher.ofTurns (D := Single) cspIteration id floatTurns).Possible cspIteration (· = id) :=
  Launcher.ofTurns_possible (allowed := (· = id)) (group := id) rfl _

/-- What is computed is what the program does. -/
theorem float_computed {o : Options} (hp : o.parallel = some (bytes "CL")) {out : Outcome}
    (h : program (floatWorld (computed cspIteration id floatTurns)) (.parsed o) = .ok out) :
    program (floatWorld (.ofTurns cspIteration id floatTurns)) (.parsed o) = .ok out := by
  rcases refines_program (world := floatWorld (.ofTurns cspIteration id floatTurns))
    (world' := floatWorld (computed cspIteration id floatTurns)) computed_refines rfl rfl o hp with ⟨e, -, he⟩ | he
  · rw [he] at h; cases h
  · rw [he]; exact h

theorem floatWorld_ok {launch : Launcher Single} (h : launch.Possible cspIteration (· = id)) :
    (floatWorld launch).Reasonable 1 ∧ (floatWorld launch).Runs 64 1 ∧ (floatWorld launch).Devices (Ieee.convert : Double → Single) (· = id) := by
  refine ⟨⟨by show 1000 < 2147483648; decide, by decide, by decide, fun _ => rfl⟩, .inr rfl, fun f hf => ?_, fun f hf => by cases hf⟩
  cases hf
  exact ⟨launch, h, .inl rfl⟩

/-- What the images of this world are. -/
theorem floatWorld_images (launch : Launcher Single) :
    readImage (floatWorld launch) (bytes "l") = .ok (img 4 1 4 [4, 4, 0, 4]) ∧ readImage (floatWorld launch) (bytes "r") = .ok (img 4 1 4 [4, 0, 0, 4]) := by
  have h1 : (readImage (floatWorld fun _ _ => .error .ub) (bytes "l")).toOption = some (img 4 1 4 [4, 4, 0, 4]) := by decide +kernel
  have h2 : (readImage (floatWorld fun _ _ => .error .ub) (bytes "r")).toOption = some (img 4 1 4 [4, 0, 0, 4]) := by decide +kernel
  have key : ∀ {m : M Image} {im : Image}, m.toOption = some im → m = .ok im := by
    intro m im h
    cases m with
    | error e => cases h
    | ok a => cases h; rfl
  exact ⟨key h1, key h2⟩

/-- Sizes of numbers of this world. -/
theorem floatWorld_inRange (launch : Launcher Single) {k a d : ℕ} (hk : a + 4 ≤ k) (hk' : d + 4 ≤ k) {c s p : Option String}
    (hc : ∀ n, weightNumber (c.map bytes) = .ok n → n.toNat ≤ 2 ^ a) (hs : ∀ n, weightNumber (s.map bytes) = .ok n → n.toNat ≤ 2 ^ d)
    (o : Options) (l r : Text) (ho : CommandLine.parsed (weighted c s p) = .parsed o) (hl : o.leftImage = some l) (hr : o.rightImage = some r) :
    (floatWorld launch).InRange k o l r := by
  cases ho
  cases hl
  cases hr
  obtain ⟨e1, e2⟩ := floatWorld_images launch
  refine World.inRange_of (show 1000 < 2147483648 by decide) _ _ _ a 2 d 2 (by omega) (by omega) hc hs ?_ ?_
  · intro im hi
    rw [e1] at hi
    cases hi
    refine ⟨by decide, fun n hn => ?_⟩
    have h3 : stoul (bytes "3") = .ok 3 := by decide +kernel
    rw [show levelsOption _ (weighted c s p).disparityLevels = stoul (bytes "3") from rfl, h3] at hn
    cases hn
    decide
  · intro im hi
    rw [e2] at hi
    cases hi
    decide

/-- Maps that are the best for the same input are written as the same text. -/
theorem World.Result.unique {G : Type} [FloatOps G] {world : World G} {H : Type} [FloatOps H] [LawfulFloat H] {o : Options} {parallel' : Option Text}
    {out out' : Outcome} {path text path' text' : Text} (h : world.Result H (.parsed o) out path text)
    (h' : world.Result H (.parsed { o with parallel := parallel' }) out' path' text') : text = text' := by
  obtain ⟨-, -, o1, l, r, left, right, levels, c, s, im, q1, q2, q3, q4, q5, q6, q7, q8, q9, -, q10, -, -, -, t, q11⟩ := h
  obtain ⟨-, -, o2, l', r', left', right', levels', c', s', im', q1', q2', q3', q4', q5', q6', q7', q8', q9', -, q10', -, -, -, t', q11'⟩ := h'
  cases q1
  cases q1'
  simp only at q3' q4' q7' q8' q9'
  rw [q3] at q3'
  rw [q4] at q4'
  cases q3'
  cases q4'
  rw [q5] at q5'
  rw [q6] at q6'
  cases q5'
  cases q6'
  rw [q7] at q7'
  rw [q8] at q8'
  rw [q9] at q9'
  cases q7'
  cases q8'
  cases q9'
  obtain ⟨-, rfl⟩ := q11.unique q11'
  rw [q10] at q10'
  cases q10'
  rfl

/-- **C93** is false for large weights. Full statement: the file written by the program is the best map in exact arithmetic, also if the labeling
is found by a device with `float`. Here the weights are 1048576 and 16777217. The processor writes the best map; the device, for which
16777217 is 16777216, writes another one, with no messages but the name of the technology. -/
theorem C93_float_device_refuted : ∃ launch : Launcher Single, launch.Possible cspIteration (· = id) ∧
    (floatWorld launch).Reasonable 1 ∧ (floatWorld launch).Runs 64 1 ∧
    (floatWorld launch).Devices (Ieee.convert : Double → Single) (· = id) ∧
    ∃ out out' text text',
      program (floatWorld launch) (.parsed (weighted (some "1048576") (some "16777217") none)) = .ok out ∧
      program (floatWorld launch) (.parsed (weighted (some "1048576") (some "16777217") (some "CL"))) = .ok out' ∧
      out.exit = 0 ∧ out'.exit = 0 ∧ out'.err = [] ∧ out'.out = [.openCL] ∧
      out.written = some (bytes "o", text) ∧ out'.written = some (bytes "o", text') ∧ text ≠ text' ∧
      (floatWorld launch).Result ℚ (.parsed (weighted (some "1048576") (some "16777217") none)) out (bytes "o") text ∧
      ¬ (floatWorld launch).Result ℚ (.parsed (weighted (some "1048576") (some "16777217") (some "CL"))) out' (bytes "o") text' := by
  refine ⟨_, float_launch, (floatWorld_ok float_launch).1, (floatWorld_ok float_launch).2.1, (floatWorld_ok float_launch).2.2, ?_⟩
  have h2 := float_computed rfl float_cl
  have hne : bytes "P2\n4 1\n3\n0 0 0 0\n" ≠ bytes "P2\n4 1\n3\n0 1 0 0\n" := by decide +kernel
  have hcpu : (floatWorld (Launcher.ofTurns cspIteration id floatTurns)).Result ℚ (.parsed (weighted (some "1048576") (some "16777217") none))
      { exit := 0, written := some (bytes "o", bytes "P2\n4 1\n3\n0 0 0 0\n") } (bytes "o") (bytes "P2\n4 1\n3\n0 0 0 0\n") := by
    -- the same program without OpenCL
    let world : World Double := { floatWorld (.ofTurns cspIteration id floatTurns) with openCL := none }
    have hp : program world (.parsed (weighted (some "1048576") (some "16777217") none)) =
        .ok { exit := 0, written := some (bytes "o", bytes "P2\n4 1\n3\n0 0 0 0\n") } := float_cpu (.ofTurns cspIteration id floatTurns)
    refine C92_exact (world := world) (B := 64) (jobs := 1) ⟨by show 1000 < 2147483648; decide, by decide, by decide, fun _ => rfl⟩ (.inr rfl) ⟨rfl, rfl⟩ _ ?_ _ hp _ _ rfl
    refine floatWorld_inRange (.ofTurns cspIteration id floatTurns) (a := 20) (d := 25) (by norm_num) (by norm_num) ?_ ?_
    · intro n hn
      rw [show weightNumber _ = stoul (bytes "1048576") from rfl, show stoul (bytes "1048576") = .ok 1048576 by decide +kernel] at hn
      cases hn
      decide
    · intro n hn
      rw [show weightNumber _ = stoul (bytes "16777217") from rfl, show stoul (bytes "16777217") = .ok 16777217 by decide +kernel] at hn
      cases hn
      decide
  exact ⟨_, _, _, _, float_cpu _, h2, rfl, rfl, rfl, rfl, rfl, rfl, hne, hcpu, fun hcl => hne (hcpu.unique (parallel' := some (bytes "CL")) hcl)⟩

/-! ## Non-vacuity -/

theorem float_small : program (floatWorld (computed cspIteration id floatTurns)) (.parsed (weighted none none (some "CL"))) =
    .ok { exit := 0, out := [.openCL], written := some (bytes "o", bytes "P2\n4 1\n3\n0 1 0 0\n") } := by decide +kernel

/-- C90: the largest numbers of 64 bits give a penalty of 192 bits. -/
example : mul (ofNat 18446744073709551615) (sqr (sub (ofNat 18446744073709551615) (ofNat 0)) : Double) = ofNat (2 ^ 192) := by decide +kernel

/-- C91, C93: a device with `float` writes the exact optimum. -/
example : ∃ world : World Double, world.Reasonable 1 ∧ world.Runs 64 1 ∧ world.Devices (Ieee.convert : Double → Single) (· = id) ∧
    ∃ out path text, program world (.parsed (weighted none none (some "CL"))) = .ok out ∧ out.written = some (path, text) ∧
      world.Result ℚ (.parsed (weighted none none (some "CL"))) out path text := by
  obtain ⟨h1, h2, h3⟩ := floatWorld_ok float_launch
  have h4 := float_computed rfl float_small
  refine ⟨_, h1, h2, h3, _, _, _, h4, rfl, C93_float_device_partial h1 h2 h3 _ ?_ _ h4 _ _ rfl⟩
  have one : ∀ c, weightNumber ((none : Option String).map bytes) = .ok c → c.toNat ≤ 2 ^ 0 := by
    intro c hc
    cases hc
    decide
  exact floatWorld_inRange _ (a := 0) (d := 0) (by norm_num) (by norm_num) one one

/-- C90, C91, C92: the program with `double` without OpenCL and CUDA. -/
example : ∃ world : World Double, world.Reasonable 1 ∧ world.Runs 64 1 ∧ world.CpuOnly ∧
    ∃ out path text, program world (.parsed (weighted (some "1048576") (some "16777217") none)) = .ok out ∧ out.written = some (path, text) ∧
      world.Result Double (.parsed (weighted (some "1048576") (some "16777217") none)) out path text := by
  let world : World Double := { floatWorld (fun _ _ => .error .ub) with openCL := none }
  have hw : world.Reasonable 1 := ⟨by show 1000 < 2147483648; decide, by decide, by decide, fun _ => rfl⟩
  have hp : program world (.parsed (weighted (some "1048576") (some "16777217") none)) =
      .ok { exit := 0, written := some (bytes "o", bytes "P2\n4 1\n3\n0 0 0 0\n") } := float_cpu fun _ _ => .error .ub
  exact ⟨world, hw, .inr rfl, ⟨rfl, rfl⟩, _, _, _, hp, rfl, C91_written_file (B := 64) hw (.inr rfl) ⟨rfl, rfl⟩ _ _ hp _ _ rfl⟩

end SP
