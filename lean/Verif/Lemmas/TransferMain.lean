import Verif.Lemmas.TransferPar
import Verif.Model.Main
/-!
# The same computation in two arithmetics: the program
-/
namespace SP
open FloatOps
variable {F G : Type} [FloatOps F] [FloatOps G]

theorem Sim.guard {α β : Type} {R : α → β → Prop} {c : Prop} [Decidable c] {e : Err} {f : M α} {f' : M β} {m : PUnit → M α} {m' : PUnit → M β}
    (h : ¬ c → Sim R f f') : Sim R (if c then throw e >>= m else f) (if c then throw e >>= m' else f') := by
  by_cases hc : c
  · rw [if_pos hc, if_pos hc]
    exact Sim.error _
  · rw [if_neg hc, if_neg hc]
    exact h hc

/-- What is asked of the map to carry the program: integers up to `2^k` and penalties computed from such integers are kept. -/
structure Carrier (φ : F → G) (P : F → Prop) (k : ℕ) : Prop extends Hom (.of φ) P where
  ofNat : ∀ n ≤ 2 ^ k, φ (ofNat n) = ofNat n
  epsilon : ∀ n ≤ 2 ^ k, FloatOps.lt (FloatOps.ofNat n : G) FloatOps.epsilon = FloatOps.lt (FloatOps.ofNat n : F) FloatOps.epsilon
  penalty : ∀ a b w u v, a + 2 * b ≤ k → w ≤ 2 ^ a → u ≤ 2 ^ b → v ≤ 2 ^ b →
    P (mul (FloatOps.ofNat w) (sqr (FloatOps.sub (FloatOps.ofNat u) (FloatOps.ofNat v)))) ∧
    FloatOps.add (mul (FloatOps.ofNat w) (sqr (FloatOps.sub (FloatOps.ofNat u) (FloatOps.ofNat v)))) FloatOps.zero =
      φ (mul (FloatOps.ofNat w) (sqr (FloatOps.sub (FloatOps.ofNat u) (FloatOps.ofNat v)))) ∧
    FloatOps.sub (mul (FloatOps.ofNat w) (sqr (FloatOps.sub (FloatOps.ofNat u) (FloatOps.ofNat v)))) FloatOps.zero =
      φ (mul (FloatOps.ofNat w) (sqr (FloatOps.sub (FloatOps.ofNat u) (FloatOps.ofNat v))))
  add_zero : ∀ a, P a → FloatOps.add a FloatOps.zero = a
  add_zero' : ∀ a, P a → FloatOps.add (φ a) FloatOps.zero = φ a
  sub_zero : ∀ a, P a → FloatOps.sub a FloatOps.zero = a

theorem Carrier.zero' {φ : F → G} {P : F → Prop} {k : ℕ} (car : Carrier φ P k) : φ zero = zero := car.zero

/-- It is enough that penalties before the reparametrization is added are kept. -/
theorem Hom.penalties {φ : F → G} {P : F → Prop} (hom : Hom (.of φ) P) (h1 : ∀ a, P a → FloatOps.add (φ a) FloatOps.zero = φ a)
    (h2 : ∀ a, P a → FloatOps.sub a FloatOps.zero = a) {p : F} {q : G} (h : P p ∧ φ p = q) :
    P p ∧ FloatOps.add q FloatOps.zero = φ p ∧ FloatOps.sub q FloatOps.zero = φ p := by
  obtain ⟨hp, rfl⟩ := h
  exact ⟨hp, h1 p hp, by rw [← hom.zero, ← hom.sub _ _ hp hom.P_zero, h2 p hp]⟩

/-- Sizes of numbers: products of weights and squares of differences are at most `2^k`. -/
structure InRange (k : ℕ) (left right : Image) (levels : UInt64) (cleanness smoothness : ℕ) : Prop where
  node : ∃ a b, a + 2 * b ≤ k ∧ cleanness ≤ 2 ^ a ∧ (∀ v ∈ left.data, v.toNat ≤ 2 ^ b) ∧ ∀ v ∈ right.data, v.toNat ≤ 2 ^ b
  edge : ∃ a b, a + 2 * b ≤ k ∧ smoothness ≤ 2 ^ a ∧ levels.toNat ≤ 2 ^ b

/-- Everything of 64 bits is in the range. -/
theorem inRange_192 (left right : Image) (levels cleanness smoothness : UInt64) :
    InRange 192 left right levels cleanness.toNat smoothness.toNat :=
  ⟨⟨64, 64, by norm_num, cleanness.toNat_lt.le, fun v _ => v.toNat_lt.le, fun v _ => v.toNat_lt.le⟩,
    ⟨64, 64, by norm_num, smoothness.toNat_lt.le, levels.toNat_lt.le⟩⟩

/-- Graphs of the program: weights are converted from `ULONG`, the reparametrization is zero. -/
structure FromInput (k : ℕ) (g : DisparityGraph F) : Prop where
  pos : 0 < g.disparityLevels
  range : ∃ c s : ℕ, g.cleanness = ofNat c ∧ g.smoothness = ofNat s ∧ InRange k g.left g.right g.disparityLevels c s
  reparametrization : ∀ a ∈ g.reparametrization, a = zero

theorem pow_le_of_le {n a k : ℕ} (h : n ≤ 2 ^ a) (hk : a ≤ k) : n ≤ 2 ^ k := h.trans (Nat.pow_le_pow_right (by norm_num) hk)

section
variable {φ : F → G} {P : F → Prop} {k : ℕ} (car : Carrier φ P k) {g : DisparityGraph F} (hg : FromInput k g)
include car hg

theorem FromInput.rd_sim (i : UInt64) :
    Sim (fun a b => a = zero ∧ b = zero) (rd g.reparametrization i) (rd (g.mapF (.of φ)).reparametrization i) := by
  refine (SP.rd_sim (φ := φ) hg.reparametrization i).mono ?_
  rintro _ _ ⟨rfl, rfl⟩
  exact ⟨rfl, car.zero⟩

omit [FloatOps F] [FloatOps G] car hg in
theorem pixelValue_mem {im : Image} {p : Pixel} {v : UInt64} (h : pixelValue im p = .ok v) : v ∈ im.data := by
  unfold pixelValue rd at h
  split at h
  · rename_i x hx
    cases h
    exact Array.mem_of_getElem? hx
  · cases h

theorem FromInput.node (n : Node) : Sim (fun a b => P a ∧ b = φ a) (nodePenalty g n) (nodePenalty (g.mapF (.of φ)) n) := by
  obtain ⟨c, s, hc, hs, ⟨a, b, hab, ha, hl, hr⟩, -⟩ := hg.range
  unfold nodePenalty
  rw [show (g.mapF (.of φ)).right = g.right from rfl, show (g.mapF (.of φ)).left = g.left from rfl]
  cases hvr : pixelValue g.right n.pixel with
  | error e => exact Sim.error _
  | ok vr =>
    simp only [bind_ok]
    cases hvl : pixelValue g.left { x := n.pixel.x + n.disparity, y := n.pixel.y } with
    | error e => exact Sim.error _
    | ok vl =>
      simp only [bind_ok]
      refine Sim.bind (hg.rd_sim car _) ?_
      rintro _ _ ⟨rfl, rfl⟩
      refine Sim.bind (hg.rd_sim car _) ?_
      rintro _ _ ⟨rfl, rfl⟩
      refine Sim.bind (hg.rd_sim car _) ?_
      rintro _ _ ⟨rfl, rfl⟩
      refine Sim.bind (hg.rd_sim car _) ?_
      rintro _ _ ⟨rfl, rfl⟩
      rw [show (g.mapF (.of φ)).cleanness = φ g.cleanness from rfl, hc, car.ofNat c (pow_le_of_le ha (by omega))]
      obtain ⟨hp, hm, -⟩ := car.penalty a b c vr.toNat vl.toNat hab ha (hr _ (pixelValue_mem hvr)) (hl _ (pixelValue_mem hvl))
      simp only [car.add_zero _ hp, hm, car.add_zero' _ hp]
      exact Sim.pure ⟨hp, rfl⟩

theorem FromInput.edge (e : Edge) (h1 : e.node.disparity < g.disparityLevels) (h2 : e.neighbor.disparity < g.disparityLevels) :
    Sim (fun a b => P a ∧ b = φ a) (edgePenalty g e) (edgePenalty (g.mapF (.of φ)) e) := by
  obtain ⟨c, s, hc, hs, -, ⟨a, b, hab, ha, hl⟩⟩ := hg.range
  unfold edgePenalty
  refine Sim.bind (hg.rd_sim car _) ?_
  rintro _ _ ⟨rfl, rfl⟩
  refine Sim.bind (hg.rd_sim car _) ?_
  rintro _ _ ⟨rfl, rfl⟩
  rw [show (g.mapF (.of φ)).smoothness = φ g.smoothness from rfl, hs, car.ofNat s (pow_le_of_le ha (by omega))]
  obtain ⟨hp, -, hm⟩ := car.penalty a b s e.node.disparity.toNat e.neighbor.disparity.toNat hab ha
    ((UInt64.lt_iff_toNat_lt.1 h1).le.trans hl) ((UInt64.lt_iff_toNat_lt.1 h2).le.trans hl)
  have hz : ∀ a, P a → FloatOps.sub (φ a) FloatOps.zero = φ a := by
    intro a ha
    rw [← car.zero, ← car.sub _ _ ha car.P_zero, car.sub_zero _ ha]
  simp only [car.sub_zero _ hp, hm, hz _ hp]
  exact Sim.pure ⟨hp, rfl⟩

theorem FromInput.carried : Carried (.of φ) P g := ⟨hg.pos, hg.node car, fun e h1 h2 => hg.edge car e h1 h2⟩

end

section
variable {φ : F → G} {P : F → Prop} {k : ℕ} (car : Carrier φ P k)
include car

theorem mkDisparityGraph_transfer (left right : Image) (levels : UInt64) (w v : ℕ) (hw : w ≤ 2 ^ k) (hv : v ≤ 2 ^ k)
    (hr : imageValid left = .ok true → imageValid right = .ok true → InRange k left right levels w v) :
    Sim (fun a b => FromInput k a ∧ b = a.mapF (.of φ))
      (mkDisparityGraph left right levels (ofNat w : F) (ofNat v))
      (mkDisparityGraph left right levels (ofNat w : G) (ofNat v)) := by
  have hl : ∀ n ≤ 2 ^ k, lt (ofNat n : G) zero = lt (ofNat n : F) zero := by
    intro n hn
    rw [← car.ofNat n hn, ← car.zero, car.lt]
  unfold mkDisparityGraph
  rw [hl w hw, hl v hv, car.epsilon w hw, car.epsilon v hv]
  cases hil : imageValid left with
  | error e => exact Sim.error _
  | ok b =>
  cases b
  · exact Sim.error _
  cases hir : imageValid right with
  | error e => exact Sim.error _
  | ok b =>
  cases b
  · exact Sim.error _
  simp only [bind_ok, Bool.not_true, Bool.false_eq_true, if_false]
  refine Sim.guard fun h1 => ?_
  refine Sim.guard fun _ => ?_
  refine Sim.guard fun _ => ?_
  refine Sim.guard fun _ => ?_
  refine Sim.guard fun _ => ?_
  refine Sim.guard fun _ => ?_
  refine Sim.guard fun _ => ?_
  refine Sim.guard fun _ => ?_
  refine Sim.pure ⟨⟨?_, ⟨w, v, rfl, rfl, hr hil hir⟩, ?_⟩, ?_⟩
  · rw [UInt64.not_le] at h1
    exact UInt64.lt_trans (by decide) h1
  · intro a ha
    exact (Array.mem_replicate.1 ha).2
  · simp only [DisparityGraph.mapF, Array.map_replicate, car.zero', car.ofNat w hw, car.ofNat v hv]

/-- The value of a weight before conversion, `main.cpp:150-163`. -/
def weightNumber (value : Option Text) : M UInt64 :=
  match value with
  | none => .ok 1
  | some t => stoul t

omit car in
/-- The weight read from the options is converted from a `ULONG` value. -/
theorem weightOption_eq (value : Option Text) : (weightOption value : M F) = (weightNumber value).map fun n => ofNat n.toNat := by
  unfold weightOption weightNumber
  cases value with
  | none => rfl
  | some t => rfl

/-- Sizes of numbers in the images and in the options. -/
def World.InRange (k : ℕ) (world : World F) (options : Options) (left right : Text) : Prop :=
  ∀ l r levels c s, readImage world left = .ok l → readImage world right = .ok r → levelsOption l options.disparityLevels = .ok levels →
    weightNumber options.cleanness = .ok c → weightNumber options.smoothness = .ok s →
    c.toNat ≤ 2 ^ k ∧ s.toNat ≤ 2 ^ k ∧ (imageValid l = .ok true → imageValid r = .ok true → SP.InRange k l r levels c.toNat s.toNat)

/-- Functions of devices that correspond to each other, if there are any. -/
def SameFinder (φ : F → G) (P : F → Prop) (k : ℕ) (o' : Option (ConstraintGraph F → M (ConstraintGraph F × Bool)))
    (o : Option (ConstraintGraph G → M (ConstraintGraph G × Bool))) : Prop :=
  match o', o with
  | none, none => True
  | some f', some f => ∀ c, FromInput k c.disparityGraph → CarriedLowest (.of φ) P c.lowestPenalties →
      Sim (Mapped2 (.of φ) c.disparityGraph c.lowestPenalties c.threshold) (f' c) (f (c.mapF (.of φ)))
  | _, _ => False

/-- Worlds that differ in the arithmetic only. -/
structure SameWorld (φ : F → G) (P : F → Prop) (k : ℕ) (world' : World F) (world : World G) : Prop where
  file : world'.file = world.file
  writable : world'.writable = world.writable
  memory : world'.memory = world.memory
  room : world'.room = world.room
  solve : ∀ n c, CarriedGraph (.of φ) P c →
    Sim (Mapped2 (.of φ) c.disparityGraph c.lowestPenalties c.threshold) (world'.solve n c) (world.solve n (c.mapF (.of φ)))
  openCL : SameFinder φ P k world'.openCL world.openCL
  cuda : SameFinder φ P k world'.cuda world.cuda

variable {world' : World F} {world : World G} (hw : SameWorld φ P k world' world)
include hw

omit car in
theorem readImage_transfer (path : Text) : readImage world path = readImage world' path := by
  unfold readImage
  rw [hw.file, hw.memory]

theorem readGraph_transfer (options : Options) (left right : Text)
    (hr : world'.InRange k options left right) :
    Sim (fun a b => FromInput k a ∧ b = a.mapF (.of φ)) (readGraph world' options left right) (readGraph world options left right) := by
  unfold readGraph
  rw [readImage_transfer hw, readImage_transfer hw]
  cases h1 : readImage world' left with
  | error e => exact Sim.error _
  | ok l =>
  cases h2 : readImage world' right with
  | error e => exact Sim.error _
  | ok r =>
  simp only [bind_ok]
  cases h3 : levelsOption l options.disparityLevels with
  | error e => exact Sim.error _
  | ok levels =>
  simp only [bind_ok, weightOption_eq]
  cases h4 : weightNumber options.cleanness with
  | error e => exact Sim.error _
  | ok c =>
  cases h5 : weightNumber options.smoothness with
  | error e => exact Sim.error _
  | ok s =>
  obtain ⟨hc, hs, hr⟩ := hr l r levels c s h1 h2 h3 h4 h5
  exact mkDisparityGraph_transfer car l r levels c.toNat s.toNat hc hs hr

/-- Labelers that correspond to each other. -/
def SameLabeler (φ : F → G) (P : F → Prop) (k : ℕ) (label' : Labeler F) (label : Labeler G) : Prop :=
  ∀ n c, FromInput k c.disparityGraph → CarriedLowest (.of φ) P c.lowestPenalties → Sim (Mapped2 (.of φ) c.disparityGraph c.lowestPenalties c.threshold) (label' n c) (label n (c.mapF (.of φ)))

theorem compute_transfer (options : Options) {label' : Labeler F} {label : Labeler G} (hl : SameLabeler φ P k label' label)
    (left right output : Text) (hr : world'.InRange k options left right) : compute world options label left right output = compute world' options label' left right output := by
  refine Sim.eq ?_
  unfold compute
  refine Sim.bind (readGraph_transfer car hw options left right hr) ?_
  rintro g _ ⟨hg, rfl⟩
  rw [labeledMap_transfer car.toHom hw.solve (hg.carried car) fun n c h1 h2 => hl n c (h1 ▸ hg) h2]
  refine Sim.bind_same fun m => Sim.bind_same fun text => ?_
  unfold World.stored
  rw [hw.writable, hw.room]
  exact Sim.same _

theorem labelCpu_same : SameLabeler φ P k (Par.labelCpu world'.solve) (Par.labelCpu world.solve) :=
  fun n _ hg hl => labelCpu_transfer car.toHom hw.solve (hg.carried car) hl n ⟨rfl, rfl, rfl, rfl⟩

theorem chooseParallelism_transfer (parallel : Option Text) :
    (chooseParallelism world' parallel = none ∧ chooseParallelism world parallel = none) ∨
      ∃ out label' label, chooseParallelism world' parallel = some (out, label') ∧
        chooseParallelism world parallel = some (out, label) ∧ SameLabeler φ P k label' label := by
  have hcpu := labelCpu_same car hw
  have h1 := hw.openCL
  have h2 := hw.cuda
  unfold chooseParallelism
  cases parallel with
  | none => exact .inr ⟨_, _, _, rfl, rfl, hcpu⟩
  | some value =>
    revert h1 h2
    cases world'.openCL <;> cases world.openCL <;> cases world'.cuda <;> cases world.cuda <;> intro h1 h2 <;>
      first
      | exact h1.elim
      | exact h2.elim
      | (simp only
         repeat' split
         all_goals first
           | exact .inl ⟨rfl, rfl⟩
           | exact .inr ⟨_, _, _, rfl, rfl, hcpu⟩
           | exact .inr ⟨_, _, _, rfl, rfl, fun _ => h1⟩
           | exact .inr ⟨_, _, _, rfl, rfl, fun _ => h2⟩)

/-- The program does the same in both arithmetics. -/
theorem program_transfer (commandLine : CommandLine)
    (hr : ∀ o l r, commandLine = .parsed o → o.leftImage = some l → o.rightImage = some r → world'.InRange k o l r) : program world commandLine = program world' commandLine := by
  unfold program
  rcases commandLine with options | _ | _
  · simp only
    rcases chooseParallelism_transfer car hw options.parallel with ⟨h1, h2⟩ | ⟨out, label', label, h1, h2, hl⟩
    · rw [h1, h2]
    · rw [h1, h2]
      have hr := hr options
      revert hr
      cases options.outputImage <;> cases options.leftImage <;> cases options.rightImage <;> intro hr <;> try rfl
      rename_i output left right
      simp only [compute_transfer car hw options hl left right output (hr left right rfl rfl rfl)]
  · rfl
  · rfl

end

/-- A function of the second arithmetic that changes nothing but flags corresponds to a function of the first one. -/
def FlagsOnly (f : ConstraintGraph G → M (ConstraintGraph G × Bool)) : Prop :=
  ∀ c c' b, f c = .ok (c', b) → c'.disparityGraph = c.disparityGraph ∧ c'.lowestPenalties = c.lowestPenalties ∧ c'.threshold = c.threshold

/-- That function. -/
def pullBack (φ : F → G) (f : ConstraintGraph G → M (ConstraintGraph G × Bool)) (c : ConstraintGraph F) : M (ConstraintGraph F × Bool) :=
  (f (c.mapF (.of φ))).map fun r => ({ c with nodesAvailability := r.1.nodesAvailability }, r.2)

omit [FloatOps F] [FloatOps G] in
theorem pullBack_sim {φ : F → G} {f : ConstraintGraph G → M (ConstraintGraph G × Bool)} (h : FlagsOnly f) (c : ConstraintGraph F) :
    Sim (Mapped2 (.of φ) c.disparityGraph c.lowestPenalties c.threshold) (pullBack φ f c) (f (c.mapF (.of φ))) := by
  unfold pullBack
  cases hf : f (c.mapF (.of φ)) with
  | error e => exact Sim.error _
  | ok r =>
    obtain ⟨⟨g, l, fl, t⟩, b⟩ := r
    obtain ⟨h1, h2, h3⟩ := h _ _ _ hf
    simp only at h1 h2 h3
    subst h1 h2 h3
    exact ⟨rfl, rfl, rfl, rfl, rfl⟩

end SP
