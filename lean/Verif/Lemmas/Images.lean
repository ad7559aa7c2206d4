import Verif.Lemmas.TransferWorld
/-!
# The same computation with other images

Images are replaced by others, squares of differences of intensities being the same.
-/
namespace SP
open FloatOps Gpu
variable {F D : Type} [FloatOps F] [FloatOps D]

/-- Squares of differences between intensities of the right image and those of the left one are the same. -/
def SameSquares (F : Type) [FloatOps F] (left right left' right' : Array UInt64) : Prop :=
  ∀ (i j : ℕ) (u v u' v' : UInt64), left[i]? = some u → right[j]? = some v → left'[i]? = some u' → right'[j]? = some v' →
    (sqr (sub (ofNat v'.toNat) (ofNat u'.toNat)) : F) = sqr (sub (ofNat v.toNat) (ofNat u.toNat))

/-- Images of the same sizes with the same squares of differences. -/
structure SameDifferences (F : Type) [FloatOps F] (left right left' right' : Image) : Prop where
  leftWidth : left'.width = left.width
  leftHeight : left'.height = left.height
  rightWidth : right'.width = right.width
  rightHeight : right'.height = right.height
  leftSize : left'.data.size = left.data.size
  rightSize : right'.data.size = right.data.size
  maxValue : left'.maxValue = right'.maxValue ↔ left.maxValue = right.maxValue
  leftValid : imageValid left' = imageValid left
  rightValid : imageValid right' = imageValid right
  squares : SameSquares F left.data right.data left'.data right'.data

theorem SameDifferences.symm {left right left' right' : Image} (h : SameDifferences F left right left' right') :
    SameDifferences F left' right' left right where
  leftWidth := h.leftWidth.symm
  leftHeight := h.leftHeight.symm
  rightWidth := h.rightWidth.symm
  rightHeight := h.rightHeight.symm
  leftSize := h.leftSize.symm
  rightSize := h.rightSize.symm
  maxValue := h.maxValue.symm
  leftValid := h.leftValid.symm
  rightValid := h.rightValid.symm
  squares i j u v u' v' h1 h2 h3 h4 := (h.squares i j u' v' u v h3 h4 h1 h2).symm

/-- Intensities are replaced, numbers are kept. -/
def Recode.images (F : Type) (left right : Image) : Recode F F where
  num a := a
  left a := if a.size = left.data.size then left.data else a
  right a := if a.size = right.data.size then right.data else a
  maxValue _ := right.maxValue
  size a := by split <;> simp_all

theorem Recode.images_hom (left right : Image) : Hom (Recode.images F left right) fun _ => True where
  le _ _ := rfl
  lt _ _ := rfl
  eq _ _ := rfl
  zero := rfl
  minusOne := rfl
  sub _ _ _ _ := rfl
  P_zero := trivial

/-- Graphs of these images. -/
structure OfImages (left right : Image) (g : DisparityGraph F) : Prop where
  pos : 0 < g.disparityLevels
  left : g.left.data = left.data
  right : g.right.data = right.data

section
variable {left right left' right' : Image}

omit [FloatOps F] in
theorem mapF_images_reparametrization (g : DisparityGraph F) : (g.mapF (.images F left' right')).reparametrization = g.reparametrization :=
  Array.map_id' _

theorem pixelValue_images {im : Image} {data : Array UInt64} {m : UInt64} (hs : data.size = im.data.size) (p : Pixel) :
    Sim (fun a b => ∃ i : ℕ, im.data[i]? = some a ∧ data[i]? = some b) (pixelValue im p) (pixelValue { im with data := data, maxValue := m } p) := by
  unfold pixelValue rd
  rw [show pixelIndex { im with data := data, maxValue := m } p = pixelIndex im p from rfl]
  by_cases h : (pixelIndex im p).toNat < im.data.size
  · rw [Array.getElem?_eq_getElem h, Array.getElem?_eq_getElem (hs ▸ h)]
    exact ⟨_, Array.getElem?_eq_getElem h, Array.getElem?_eq_getElem (hs ▸ h)⟩
  · rw [Array.getElem?_eq_none (not_lt.1 h), Array.getElem?_eq_none (hs ▸ not_lt.1 h)]
    exact Sim.error _

theorem OfImages.carried (hl : left'.data.size = left.data.size) (hr : right'.data.size = right.data.size)
    (h : SameSquares F left.data right.data left'.data right'.data) {g : DisparityGraph F} (hg : OfImages left right g) :
    Carried (.images F left' right') (fun _ => True) g := by
  have el : (g.mapF (.images F left' right')).left = { g.left with data := left'.data, maxValue := right'.maxValue } := by
    simp only [DisparityGraph.mapF, Recode.images, hg.left, hl, if_true]
  have er : (g.mapF (.images F left' right')).right = { g.right with data := right'.data, maxValue := right'.maxValue } := by
    simp only [DisparityGraph.mapF, Recode.images, hg.right, hr, if_true]
  have hrep : ∀ (n : Node) (k : UInt64), Sim (fun a b => b = a) (reparametrizationValueFast g n k)
      (reparametrizationValueFast (g.mapF (.images F left' right')) n k) := by
    intro n k
    unfold reparametrizationValueFast
    rw [mapF_images_reparametrization]
    exact (Sim.same _).mono fun _ _ h => h.symm
  refine ⟨hg.pos, fun n => ?_, fun e _ _ => ?_⟩
  · unfold nodePenalty
    rw [el, er]
    refine Sim.bind (pixelValue_images (by rw [hg.right, hr]) _) ?_
    rintro vr vr' ⟨j, hj, hj'⟩
    refine Sim.bind (pixelValue_images (by rw [hg.left, hl]) _) ?_
    rintro vl vl' ⟨i, hi, hi'⟩
    rw [hg.left] at hi
    rw [hg.right] at hj
    refine Sim.bind (hrep _ _) ?_
    rintro a _ rfl
    refine Sim.bind (hrep _ _) ?_
    rintro b _ rfl
    refine Sim.bind (hrep _ _) ?_
    rintro c _ rfl
    refine Sim.bind (hrep _ _) ?_
    rintro d _ rfl
    refine Sim.pure ⟨trivial, ?_⟩
    rw [h i j vl vr vl' vr' hi hj hi' hj']
    rfl
  · unfold edgePenalty reparametrizationValueSlow reparametrizationValue
    rw [mapF_images_reparametrization]
    have := Sim.same (edgePenalty g e)
    unfold edgePenalty reparametrizationValueSlow reparametrizationValue at this
    exact this.mono fun _ _ h => ⟨trivial, h.symm⟩

theorem mkDisparityGraph_images (hd : SameDifferences F left right left' right') (levels : UInt64) (c s : F) :
    Sim (fun a b => OfImages left right a ∧ b = a.mapF (.images F left' right')) (mkDisparityGraph left right levels c s)
      (mkDisparityGraph left' right' levels c s) := by
  unfold mkDisparityGraph
  rw [hd.leftValid, hd.rightValid, hd.leftWidth, hd.leftHeight, hd.rightWidth, hd.rightHeight]
  cases imageValid left with
  | error e => exact Sim.error _
  | ok b =>
  cases b
  · exact Sim.error _
  cases imageValid right with
  | error e => exact Sim.error _
  | ok b =>
  cases b
  · exact Sim.error _
  simp only [bind_ok, Bool.not_true, Bool.false_eq_true, if_false]
  refine Sim.guard fun h1 => ?_
  refine Sim.guard fun _ => ?_
  refine Sim.guard fun _ => ?_
  refine Sim.guard fun _ => ?_
  by_cases hm : left.maxValue = right.maxValue
  swap
  · rw [if_pos hm, if_pos fun h => hm (hd.maxValue.1 h)]
    exact Sim.error _
  have hm' := hd.maxValue.2 hm
  rw [if_neg (not_not.2 hm), if_neg (not_not.2 hm')]
  refine Sim.guard fun _ => ?_
  refine Sim.guard fun _ => ?_
  refine Sim.guard fun _ => ?_
  refine Sim.pure ⟨⟨?_, rfl, rfl⟩, ?_⟩
  · rw [UInt64.not_le] at h1
    exact UInt64.lt_trans (by decide) h1
  · have el : left' = { left with data := left'.data, maxValue := right'.maxValue } := by
      obtain ⟨a, b, m, d⟩ := left'
      simp only [Image.mk.injEq]
      exact ⟨hd.leftWidth, hd.leftHeight, hm', trivial⟩
    have er : right' = { right with data := right'.data, maxValue := right'.maxValue } := by
      obtain ⟨a, b, m, d⟩ := right'
      simp only [Image.mk.injEq]
      exact ⟨hd.rightWidth, hd.rightHeight, trivial, trivial⟩
    simp only [DisparityGraph.mapF, Recode.images, hd.leftSize, hd.rightSize, if_true, Array.map_id', DisparityGraph.mk.injEq, and_true]
    exact ⟨el, er⟩

variable {world' world : World F} {pathLeft pathRight : Text}

theorem readGraph_images (hd : SameDifferences F left right left' right') (hl : readImage world' pathLeft = .ok left)
    (hr : readImage world' pathRight = .ok right) (hl' : readImage world pathLeft = .ok left') (hr' : readImage world pathRight = .ok right')
    (options : Options) :
    Sim (fun a b => OfImages left right a ∧ b = a.mapF (.images F left' right')) (readGraph world' options pathLeft pathRight)
      (readGraph world options pathLeft pathRight) := by
  unfold readGraph
  rw [hl, hr, hl', hr']
  simp only [bind_ok]
  rw [show levelsOption left' options.disparityLevels = levelsOption left options.disparityLevels by
    unfold levelsOption
    rw [hd.leftWidth]]
  refine Sim.bind_same fun levels => ?_
  refine Sim.bind_same fun c => ?_
  refine Sim.bind_same fun s => ?_
  exact mkDisparityGraph_images hd levels c s

/-- Functions that correspond to each other when images are replaced. -/
def SameByImages (left right left' right' : Image) (f' f : ConstraintGraph F → M (ConstraintGraph F × Bool)) : Prop :=
  ∀ c, OfImages left right c.disparityGraph → CarriedLowest (.images F left' right') (fun _ => True) c.lowestPenalties →
    Sim (Mapped2 (.images F left' right') c.disparityGraph c.lowestPenalties c.threshold) (f' c) (f (c.mapF (.images F left' right')))

/-- Worlds where the same happens when images are replaced. -/
structure SameEvents (left right left' right' : Image) (world' world : World F) : Prop where
  writable : world'.writable = world.writable
  room : world'.room = world.room
  solve : ∀ n c, CarriedGraph (.images F left' right') (fun _ => True) c →
    Sim (Mapped2 (.images F left' right') c.disparityGraph c.lowestPenalties c.threshold) (world'.solve n c)
      (world.solve n (c.mapF (.images F left' right')))
  openCL : world'.openCL = none ∧ world.openCL = none ∨
    ∃ f' f, world'.openCL = some f' ∧ world.openCL = some f ∧ SameByImages left right left' right' f' f
  cuda : world'.cuda = none ∧ world.cuda = none ∨
    ∃ f' f, world'.cuda = some f' ∧ world.cuda = some f ∧ SameByImages left right left' right' f' f

section
variable (hd : SameDifferences F left right left' right') (he : SameEvents left right left' right' world' world)
  (hl : readImage world' pathLeft = .ok left) (hr : readImage world' pathRight = .ok right)
  (hl' : readImage world pathLeft = .ok left') (hr' : readImage world pathRight = .ok right')
include hd he

include hl hr hl' hr' in
theorem compute_images (options : Options) {label' label : Labeler F} (hlab : ∀ n, SameByImages left right left' right' (label' n) (label n))
    (output : Text) : compute world options label pathLeft pathRight output = compute world' options label' pathLeft pathRight output := by
  refine Sim.eq ?_
  unfold compute
  refine Sim.bind (readGraph_images hd hl hr hl' hr' options) ?_
  rintro g _ ⟨hg, rfl⟩
  have hc := hg.carried hd.leftSize hd.rightSize hd.squares
  rw [labeledMap_transfer (Recode.images_hom left' right') he.solve hc fun n c h1 h2 => hlab n c (h1 ▸ hg) h2]
  refine Sim.bind_same fun m => Sim.bind_same fun text => ?_
  unfold World.stored
  rw [he.writable, he.room]
  exact Sim.same _

theorem labelCpu_images (n : ℕ) : SameByImages left right left' right' (Par.labelCpu world'.solve n) (Par.labelCpu world.solve n) :=
  fun _ hg hl => labelCpu_transfer (Recode.images_hom left' right') he.solve (hg.carried hd.leftSize hd.rightSize hd.squares) hl n
    ⟨rfl, rfl, rfl, rfl⟩

theorem chooseParallelism_images (parallel : Option Text) :
    (chooseParallelism world' parallel = none ∧ chooseParallelism world parallel = none) ∨
      ∃ out label' label, chooseParallelism world' parallel = some (out, label') ∧
        chooseParallelism world parallel = some (out, label) ∧ ∀ n, SameByImages left right left' right' (label' n) (label n) := by
  have hcpu := labelCpu_images hd he
  unfold chooseParallelism
  cases parallel with
  | none => exact .inr ⟨_, _, _, rfl, rfl, hcpu⟩
  | some value =>
    rcases he.openCL with ⟨a, b⟩ | ⟨f', f, a, b, h1⟩ <;> rcases he.cuda with ⟨a', b'⟩ | ⟨k', k, a', b', h2⟩ <;> rw [a, b, a', b'] <;>
      (simp only
       repeat' split
       all_goals first
         | exact .inl ⟨rfl, rfl⟩
         | exact .inr ⟨_, _, _, rfl, rfl, hcpu⟩
         | exact .inr ⟨_, _, _, rfl, rfl, fun _ => h1⟩
         | exact .inr ⟨_, _, _, rfl, rfl, fun _ => h2⟩)

include hl hr hl' hr' in
/-- The program does the same. -/
theorem program_images {options : Options} (h1 : options.leftImage = some pathLeft) (h2 : options.rightImage = some pathRight) :
    program world (.parsed options) = program world' (.parsed options) := by
  unfold program
  simp only
  rcases chooseParallelism_images hd he options.parallel with ⟨e1, e2⟩ | ⟨out, label', label, e1, e2, hlab⟩
  · rw [e1, e2]
  · rw [e1, e2, h1, h2]
    cases options.outputImage with
    | none => rfl
    | some output => simp only [compute_images hd he hl hr hl' hr' options hlab output]

end

/-- A world with the replaced images where the same happens, devices included. -/
theorem World.images (hd : SameDifferences F left right left' right') (hd' : SameSquares D left.data right.data left'.data right'.data)
    {B : Nat} {jobs : UInt64} {conv : F → D} {allowed : (Nat → Nat) → Prop} (hruns : world.Runs B jobs) (hdev : world.Devices conv allowed)
    (file : Text → Option Text) :
    ∃ world' : World F, SameEvents left right left' right' world' world ∧ world'.file = file ∧ world'.memory = world.memory ∧
      world'.Runs B jobs ∧ (world.solve.Possible B jobs → world'.solve.Possible B jobs) ∧ world'.Devices conv allowed := by
  have hom := Recode.images_hom (F := F) left' right'
  have homD := Recode.images_hom (F := D) left' right'
  have hs : ∃ solve' : Solver F, (solve'.Possible B jobs ∨ solve' = fun _ => solveCsp jobs) ∧
      (world.solve.Possible B jobs → solve'.Possible B jobs) ∧
      ∀ n c, CarriedGraph (.images F left' right') (fun _ => True) c →
        Sim (Mapped2 (.images F left' right') c.disparityGraph c.lowestPenalties c.threshold) (solve' n c)
          (world.solve n (c.mapF (.images F left' right'))) := by
    by_cases hp : world.solve.Possible B jobs
    · obtain ⟨solve', h1, h2⟩ := hp.pull hom
      exact ⟨solve', .inl h1, fun _ => h1, h2⟩
    · rcases hruns with h | h
      · exact absurd h hp
      · refine ⟨fun _ => solveCsp jobs, .inr rfl, fun h => absurd h hp, fun n c hc => ?_⟩
        rw [h]
        exact solveCsp_transfer hom hc.graph hc.lowest jobs ⟨rfl, rfl, rfl, rfl⟩
  obtain ⟨solve', h1, h1', h2⟩ := hs
  have hcar : ∀ c : ConstraintGraph F, OfImages left right c.disparityGraph →
      CarriedGraph (.images D left' right') (fun _ => True) (c.onDevice conv) := by
    intro c hc
    have hg : OfImages left right (c.disparityGraph.onDevice conv) := ⟨hc.pos, hc.left, hc.right⟩
    have := hg.carried hd.leftSize hd.rightSize hd'
    exact ⟨this, this, fun _ _ => trivial, fun _ _ => trivial⟩
  have hconv : ∀ a, conv ((Recode.images F left' right').num a) = (Recode.images D left' right').num (conv a) := fun _ => rfl
  have him : (Recode.images F left' right').SameImages (Recode.images D left' right') := ⟨rfl, rfl, rfl⟩
  have hcl : ∀ f, world.openCL = some f → ∃ f', (∃ launch : Launcher D, launch.Possible cspIteration allowed ∧
      (f' = findLabelingCl conv launch ∨ ∃ failure, f' = findLabelingClFailing failure conv launch)) ∧
      SameByImages left right left' right' f' f := by
    intro f hf
    obtain ⟨launch, h, hff⟩ := hdev.openCL f hf
    obtain ⟨launch', hp, hs⟩ := h.pull (φ := .images D left' right') (P := fun _ => True) (kernel' := cspIteration)
      fun c hc => funext fun i => cspIteration_map homD hc i
    rcases hff with rfl | ⟨failure, rfl⟩
    · exact ⟨_, ⟨launch', hp, .inl rfl⟩, fun c hg hl => findLabelingCl_transfer homD him hconv hs (hcar c hg)⟩
    · exact ⟨_, ⟨launch', hp, .inr ⟨_, rfl⟩⟩, fun c hg hl => findLabelingClFailing_transfer homD him hconv hs (hcar c hg) failure⟩
  have hcu : ∀ f, world.cuda = some f → ∃ f', (∃ launch : Launcher D, launch.Possible cspIterationCuda allowed ∧
      (f' = findLabelingCuda conv launch ∨ ∃ limits, f' = findLabelingCudaLimited limits conv launch)) ∧
      SameByImages left right left' right' f' f := by
    intro f hf
    obtain ⟨launch, h, hff⟩ := hdev.cuda f hf
    obtain ⟨launch', hp, hs⟩ := h.pull (φ := .images D left' right') (P := fun _ => True) (kernel' := cspIterationCuda)
      fun c hc => funext fun i => cspIterationCuda_map homD hc i
    rcases hff with rfl | ⟨limits, rfl⟩
    · exact ⟨_, ⟨launch', hp, .inl rfl⟩, fun c hg hl => findLabelingCuda_transfer homD him hconv hs (hcar c hg)⟩
    · exact ⟨_, ⟨launch', hp, .inr ⟨limits, rfl⟩⟩, fun c hg hl => findLabelingCudaLimited_transfer homD him hconv hs (hcar c hg) limits⟩
  have key : ∀ {o : Option (ConstraintGraph F → M (ConstraintGraph F × Bool))} {Q : (ConstraintGraph F → M (ConstraintGraph F × Bool)) → Prop}
      (_ : ∀ f, o = some f → ∃ f', Q f' ∧ SameByImages left right left' right' f' f),
      ∃ o' : Option (ConstraintGraph F → M (ConstraintGraph F × Bool)), (∀ f', o' = some f' → Q f') ∧
        (o' = none ∧ o = none ∨ ∃ f' f, o' = some f' ∧ o = some f ∧ SameByImages left right left' right' f' f) := by
    intro o Q h
    cases o with
    | none => exact ⟨none, nofun, .inl ⟨rfl, rfl⟩⟩
    | some f =>
      obtain ⟨f', h1, h2⟩ := h f rfl
      exact ⟨some f', fun _ e => by cases e; exact h1, .inr ⟨f', f, rfl, rfl, h2⟩⟩
  obtain ⟨o1, a1, b1⟩ := key hcl
  obtain ⟨o2, a2, b2⟩ := key hcu
  exact ⟨{ file := file, writable := world.writable, memory := world.memory, room := world.room, solve := solve',
           openCL := o1, cuda := o2 }, ⟨rfl, rfl, h2, b1, b2⟩, rfl, rfl, h1, h1', a1, a2⟩

end
end SP
