import Verif.Lemmas.Contracted
import Verif.Props.DoubleRefuted
/-!
# Property C97: contraction of `a * b + c` changes nothing

Compilers of C++ and of CUDA may compute `a * b + c` as one operation with a single rounding. Then a penalty with a reparametrization
would differ from a compiler to another one and from the processor to a device. The reparametrization of the program is zero, so nothing differs.
-/
namespace SP
open FloatOps Gpu

section
variable {fused : Double → Double → Double → Bool} {fused' : Single → Single → Single → Bool}

/-- `double` if the operations told by `fused` are contracted. -/
abbrev ContractedDouble (fused : Double → Double → Double → Bool) := Contracted .binary64 fused

/-- The same for `float`. -/
abbrev ContractedSingle (fused : Single → Single → Single → Bool) := Contracted .binary32 fused

/-- Conversion of a number to `float` for a device. -/
def Contracted.convert (v : ContractedDouble fused) : ContractedSingle fused' := .value v.force.convert

/-- Numbers of 192 bits fit `double`. -/
theorem carrier_fused : Carrier (fun v => (.value v : ContractedDouble fused))
    (fun v => ∃ a, Ieee.Small 192 a ∧ v = Ieee.of (Format.Within.refl .binary64) a) 192 :=
  Ieee.carrier_contracted (.refl .binary64 (by decide))

/-! ## The operation -/

/-- The operation with a single rounding, IEEE 754, sections 6 and 7.2: an infinite summand is the result if the factors are finite; with an infinite
factor or no number among the operands there is nothing to round, the result is that of two operations. -/
theorem C97_fma {fmt : Format} (a b c : Ieee fmt) :
    (∀ s m t n r, a = .fin s m → b = .fin t n → c = .inf r → a.fma b c = c) ∧
    ((∀ s m, a ≠ .fin s m) → a.fma b c = (a.times b).plus c) ∧
    ((∀ s m, b ≠ .fin s m) → a.fma b c = (a.times b).plus c) ∧
    (a = .nan ∨ b = .nan ∨ c = .nan → a.fma b c = .nan) := by
  refine ⟨?_, ?_, ?_, ?_⟩
  · rintro s m t n r rfl rfl rfl; rfl
  · intro h; cases a <;> first | rfl | exact absurd rfl (h _ _)
  · intro h; cases a <;> cases b <;> first | rfl | exact absurd rfl (h _ _)
  · rintro (rfl | rfl | rfl)
    · rfl
    · cases a <;> rfl
    · have hp : ∀ x : Ieee fmt, x.plus .nan = .nan := fun x => by cases x <;> rfl
      cases a <;> cases b <;> first | rfl | exact hp _ | exact hp (Ieee.times _ _)

/-! ## Penalties -/

/-- Penalties of graphs whose weights are not negative and whose reparametrization is zero are the same for every choice of operations to be
contracted, even if they overflow. (There are no products elsewhere in the program.) -/
theorem C97_penalties {fmt : Format} (fused : Ieee fmt → Ieee fmt → Ieee fmt → Bool) (g : DisparityGraph (Ieee fmt)) (hpos : 0 < g.disparityLevels)
    (hc : g.cleanness.Unsigned) (hs : g.smoothness.Unsigned) (hr : ∀ a ∈ g.reparametrization, a = zero) (n : Node) (e : Edge)
    (h1 : e.node.disparity < g.disparityLevels) (h2 : e.neighbor.disparity < g.disparityLevels) :
    nodePenalty (g.mapF <| .of fun v => (.value v : Contracted fmt fused)) n = (nodePenalty g n).map .value ∧
    edgePenalty (g.mapF <| .of fun v => (.value v : Contracted fmt fused)) e = (edgePenalty g e).map .value := by
  have h := Contracted.carried (fused := fused) hpos hc hs hr
  have key : ∀ {x : M (Ieee fmt)} {y : M (Contracted fmt fused)}, Sim (fun a b => True ∧ b = .value a) x y → y = x.map .value := by
    intro x y hs
    cases x with
    | error e =>
      cases y with
      | error e' => obtain rfl : e = e' := hs; rfl
      | ok b => exact hs.elim
    | ok a =>
      cases y with
      | error e => exact hs.elim
      | ok b => obtain ⟨-, rfl⟩ := hs; rfl
  exact ⟨key (h.node n), key (h.edge e h1 h2)⟩

/-! ## The program -/

variable {B : Nat} {jobs : UInt64} {world : World (ContractedDouble fused)} {allowed : (Nat → Nat) → Prop}

/-- **C97**. For each way to execute the program with contraction on the processor and another contraction on devices there is a way to execute it
without any, such that both do the same for every command line, whatever the weights. -/
theorem C97_same_program (hruns : world.Runs B jobs)
    (hdev : world.Devices (Contracted.convert : ContractedDouble fused → ContractedSingle fused') allowed) :
    ∃ world' : World Double, world'.Runs B jobs ∧ (world.solve.Possible B jobs → world'.solve.Possible B jobs) ∧
      world'.Devices (Ieee.convert : Double → Single) allowed ∧ world'.file = world.file ∧ world'.writable = world.writable ∧
      world'.memory = world.memory ∧ world'.room = world.room ∧ ∀ cl, program world cl = program world' cl := by
  obtain ⟨world', h1, h2, h3, h4⟩ := World.pullBoth (conv' := (Ieee.convert : Double → Single)) carrier_fused (Contracted.hom (fused := fused'))
    (fun _ => rfl) (fun c hg _ => Contracted.carried_device hg) hruns hdev
  exact ⟨world', h2, h3, h4, h1.file, h1.writable, h1.memory, h1.room,
    fun cl => program_transfer carrier_fused h1 cl fun o l r _ _ _ => world'.inRange_192 o l r⟩

/-- C61 with contraction. -/
theorem contracted_program_safe_partial (hw : world.Reasonable jobs) (hs : world.solve.Possible B jobs)
    (hdev : world.Devices (Contracted.convert : ContractedDouble fused → ContractedSingle fused') allowed)
    (hfiles : ∀ path text, world.file path = some text → HarmlessFile text) (cl : CommandLine) :
    (Ok (program world cl) fun out => out.exit = 0 ∨ out.exit = 1) ∨
    (program world cl = .error .nonterm ∧ B ≠ 1 ∧ jobs ≠ 1) ∨
    (program world cl = .error .ub ∧ ∃ kernel : Kernel Single, IsKernel kernel ∧ Misses kernel allowed .ub) := by
  obtain ⟨world', -, h2, h3, e1, e2, e3, e4, h5⟩ := C97_same_program (.inl hs) hdev
  rw [h5]
  exact C91_program_safe_partial ⟨e3 ▸ hw.memory, hw.jobs_pos, hw.jobs_small, e4 ▸ hw.room⟩ (h2 hs) h3 (by rw [e1]; exact hfiles) cl

/-- The file written by the program without OpenCL and CUDA is the best map, penalties being those computed with `double` without
contraction. -/
theorem C97_written_file (hw : world.Reasonable jobs) (hruns : world.Runs B jobs) (hcpu : world.CpuOnly) (cl : CommandLine) (out : Outcome)
    (h : program world cl = .ok out) (path text : Text) (hwr : out.written = some (path, text)) : world.Result Double cl out path text := by
  have car := Ieee.contracted_carrier (.refl .binary64 (by decide) : Format.binary64.Agree .binary64 192) (fused := fused)
  obtain ⟨world', h1, h2, h3⟩ := World.pullDevice car car (fun _ => rfl) hruns hcpu.devices
  exact World.result car carrier_double (fun _ _ _ _ => trivial) (Ieee.cut_of _) h1 hw h2 h3 .id
    (fun o l r _ _ _ => world.inRange_192 o l r) h hwr

/-- Two compilers: whatever they contract, whatever the numbers of threads and schedules, programs without OpenCL and CUDA write the same
text for the same images, levels and weights. -/
theorem C97_same_file {fused₂ : Double → Double → Double → Bool} {world₂ : World (ContractedDouble fused₂)} {B₂ : Nat} {jobs₂ : UInt64}
    (hw : world.Reasonable jobs) (hw₂ : world₂.Reasonable jobs₂)
    (hruns : world.Runs B jobs) (hruns₂ : world₂.Runs B₂ jobs₂) (hcpu : world.CpuOnly) (hcpu₂ : world₂.CpuOnly)
    (hfile : world₂.file = world.file) (o : Options) (parallel' output' : Option Text) (help' : Bool)
    (out out' : Outcome) (h : program world (.parsed o) = .ok out)
    (h' : program world₂ (.parsed { o with parallel := parallel', outputImage := output', help := help' }) = .ok out')
    (path text path' text' : Text) (hwr : out.written = some (path, text)) (hwr' : out'.written = some (path', text')) : text = text' := by
  have car := Ieee.contracted_carrier (.refl .binary64 (by decide) : Format.binary64.Agree .binary64 192) (fused := fused)
  have car₂ := Ieee.contracted_carrier (.refl .binary64 (by decide) : Format.binary64.Agree .binary64 192) (fused := fused₂)
  obtain ⟨w, h1, h2, h3⟩ := World.pullDevice car car (fun _ => rfl) hruns hcpu.devices
  obtain ⟨w', h1', h2', h3'⟩ := World.pullDevice car₂ car₂ (fun _ => rfl) hruns₂ hcpu₂.devices
  rw [program_transfer car h1 _ fun o l r _ _ _ => w.inRange_192 o l r] at h
  rw [program_transfer car₂ h1' _ fun o l r _ _ _ => w'.inRange_192 o l r] at h'
  exact C62_same_file ⟨h1.memory ▸ hw.memory, hw.jobs_pos, hw.jobs_small, h1.room ▸ hw.room⟩
    ⟨h1'.memory ▸ hw₂.memory, hw₂.jobs_pos, hw₂.jobs_small, h1'.room ▸ hw₂.room⟩ h2 h2' h3 h3' .id .id
    (h1'.file.trans (hfile.trans h1.file.symm)) o parallel' output' help' out out' h h' path text path' text' hwr hwr'

/-- C92 with contraction: the exact optimum if numbers are at most `2^53`. -/
theorem C97_exact (hw : world.Reasonable jobs) (hruns : world.Runs B jobs) (hcpu : world.CpuOnly) (cl : CommandLine)
    (hr : ∀ o l r, cl = .parsed o → o.leftImage = some l → o.rightImage = some r → world.InRange 53 o l r) (out : Outcome)
    (h : program world cl = .ok out) (path text : Text) (hwr : out.written = some (path, text)) : world.Result ℚ cl out path text := by
  have car := Ieee.contracted_carrier (.refl .binary64 (by decide) : Format.binary64.Agree .binary64 53) (fused := fused)
  obtain ⟨world', h1, h2, h3⟩ := World.pullDevice car car (fun _ => rfl) hruns hcpu.devices
  have hk : 53 ≤ Format.binary64.digits := by decide
  exact World.result car (Format.value_carrier hk) (Format.difference_of hk) (Format.cut_value hk) h1 hw h2 h3 .id hr h hwr

/-- C93 with contraction: devices with `float` give the exact optimum if numbers are at most `2^24`. -/
theorem contracted_float_device_partial (hw : world.Reasonable jobs) (hruns : world.Runs B jobs)
    (hdev : world.Devices (Contracted.convert : ContractedDouble fused → ContractedSingle fused') allowed) (cl : CommandLine)
    (hr : ∀ o l r, cl = .parsed o → o.leftImage = some l → o.rightImage = some r → world.InRange 24 o l r) (out : Outcome)
    (h : program world cl = .ok out) (path text : Text) (hwr : out.written = some (path, text)) : world.Result ℚ cl out path text := by
  have car := Ieee.contracted_carrier (fused := fused) Format.single_within_double.agree
  have carψ := Ieee.contracted_carrier (.refl .binary32 (by decide) : Format.binary32.Agree .binary32 24) (fused := fused')
  obtain ⟨world', h1, h2, h3⟩ := World.pullDevice car carψ (fun a => congrArg Contracted.value (Ieee.convert_of _ a)) hruns hdev
  have hk : 24 ≤ Format.binary32.digits := by decide
  exact World.result car (Format.value_carrier hk) (Format.difference_of hk) (Format.cut_value hk) h1 hw h2 h3 .id hr h hwr

end

/-! ## Contraction matters otherwise -/

set_option maxRecDepth 1000000

/-- Everything is contracted. -/
abbrev FusedDouble := ContractedDouble fun _ _ _ => true

-- one rounding instead of two
example : Ieee.fma (ofNat 134217729 : Double) (ofNat 134217729) (Ieee.opposite (ofNat 18014398777917440)) = ofNat 1 ∧
    sub (mul (ofNat 134217729 : Double) (ofNat 134217729)) (ofNat 18014398777917440) = zero := by decide +kernel

-- a negative product: zero has another sign
example : Ieee.fma (Ieee.rounded true (1 / 2 ^ 600) : Double) (Ieee.rounded false (1 / 2 ^ 600)) zero = Ieee.signedZero true ∧
    add (mul (Ieee.rounded true (1 / 2 ^ 600) : Double) (Ieee.rounded false (1 / 2 ^ 600))) zero = zero := by decide +kernel

/-- A graph of one pixel and one level with a reparametrization that is not zero. -/
def reparametrized : DisparityGraph Double where
  left := { width := 1, height := 1, maxValue := 65535, data := #[8193] }
  right := { width := 1, height := 1, maxValue := 65535, data := #[0] }
  disparityLevels := 1
  reparametrization := #[sub zero (ofNat 9009398479339520), zero, zero, zero]
  cleanness := ofNat 134217729
  smoothness := ofNat 1

-- the reparametrization of `C97_penalties` has to be zero: otherwise one compiler gives zero and another one gives 1
example : (nodePenalty reparametrized ⟨⟨0, 0⟩, 0⟩).toOption = some zero := by decide +kernel

example : ((nodePenalty (reparametrized.mapF <| .of fun v => (.value v : FusedDouble)) ⟨⟨0, 0⟩, 0⟩).map Contracted.force).toOption =
    some (ofNat 1) := by decide +kernel

/-! ## Nothing above is vacuous -/

/-- The images of `floatWorld`, no devices, everything contracted. -/
def fusedWorld : World FusedDouble where
  file := (floatWorld fun _ _ => .error .ub).file
  writable _ := true
  memory := 1000
  room _ := none
  solve _ := solveCsp 1
  openCL := none
  cuda := none

/-- The program with contraction writes the best map. -/
example : ∃ world : World FusedDouble, world.Reasonable 1 ∧ world.Runs 64 1 ∧ world.CpuOnly ∧
    ∃ out path text, program world (.parsed (weighted (some "1048576") (some "16777217") none)) = .ok out ∧ out.written = some (path, text) ∧
      world.Result Double (.parsed (weighted (some "1048576") (some "16777217") none)) out path text := by
  have hw : fusedWorld.Reasonable 1 := ⟨by show 1000 < 2147483648; decide, by decide, by decide, fun _ => rfl⟩
  have hp : program fusedWorld (.parsed (weighted (some "1048576") (some "16777217") none)) =
      .ok { exit := 0, written := some (bytes "o", bytes "P2\n4 1\n3\n0 0 0 0\n") } := by decide +kernel
  exact ⟨fusedWorld, hw, .inr rfl, ⟨rfl, rfl⟩, _, _, _, hp, rfl, C97_written_file (B := 64) hw (.inr rfl) ⟨rfl, rfl⟩ _ _ hp _ _ rfl⟩

end SP
