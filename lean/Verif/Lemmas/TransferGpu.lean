import Verif.Lemmas.TransferMain
import Verif.Lemmas.GpuOutcome
/-!
# The same computation in two arithmetics: devices

Programs of work items do not depend on the arithmetic of the device, so their executions do not either.
-/
namespace SP
open FloatOps Gpu
variable {F G D : Type} [FloatOps F] [FloatOps G] [FloatOps D]

section
variable {φ : Recode F D} {P : F → Prop} {c : ConstraintGraph F} (hom : Hom φ P) (hc : CarriedGraph φ P c)
include hom hc

theorem Gpu.rounds_map (mark : Prog Unit) (p : Pixel) (fuel : Nat) : rounds (c.mapF φ) mark p fuel = rounds c mark p fuel := by
  induction fuel with
  | zero => rfl
  | succ fuel ih =>
    unfold rounds
    rw [Par.cspProcessPixel_map hom hc 1, ih]
    rfl

theorem Gpu.cspIteration_map (i : UInt64) : cspIteration (c.mapF φ) i = cspIteration c i := by
  unfold cspIteration cspSolutionIterationCl
  rw [Gpu.rounds_map hom hc]
  rfl

theorem Gpu.cspIterationCuda_map (i : UInt64) : cspIterationCuda (c.mapF φ) i = cspIterationCuda c i := by
  unfold cspIterationCuda cspSolutionIterationCuda
  rw [Gpu.rounds_map hom hc]
  rfl

end

/-- Kernels with the same programs of work items. -/
def SameKernel (φ : Recode F D) (P : F → Prop) (kernel' : Kernel F) (kernel : Kernel D) : Prop :=
  ∀ c, CarriedGraph φ P c → kernel (c.mapF φ) = kernel' c

/-- The device with its numbers mapped. -/
def Device.mapF (φ : Recode F D) (d : Device F) : Device D := ⟨d.graph.mapF φ, d.changed⟩

/-- Devices that correspond to each other. -/
structure MappedDevice (φ : Recode F D) (g : DisparityGraph F) (l : LowestPenalties F) (t : F) (d : Device F) (e : Device D) : Prop where
  graph : Mapped φ g l t d.graph e.graph
  changed : e.changed = d.changed

section
variable {φ : Recode F D} {P : F → Prop} {g : DisparityGraph F} {l : LowestPenalties F} {t : F} (hom : Hom φ P) (hg : Carried φ P g)
  (hl : CarriedLowest φ P l) {kernel' : Kernel F} {kernel : Kernel D} (hk : SameKernel φ P kernel' kernel) {allowed : (Nat → Nat) → Prop}

theorem MappedDevice.map {d : Device F} {e : Device D} (h : MappedDevice φ g l t d e) : e = d.mapF φ := by
  obtain ⟨⟨h1, -, -, -⟩, h2⟩ := h
  cases e
  simp only at h1 h2
  subst h1 h2
  rfl

omit [FloatOps F] [FloatOps D] in
theorem items_map (d : Device F) : (d.mapF φ).items = d.items := φ.size _

include hk in
theorem launch_map (d : Device F) (hc : CarriedGraph φ P d.graph) : (d.mapF φ).launch kernel = d.launch kernel' := by
  unfold Device.launch
  rw [show (d.mapF φ).graph = d.graph.mapF φ from rfl, hk _ hc]
  rfl

include hg hl hk in
/-- Each outcome of a launch in the second arithmetic corresponds to an outcome in the first one. -/
theorem LaunchOutcome.pull {d : Device F} {e : Device D} (h : MappedDevice φ g l t d e) {m : M (Device D)}
    (hm : LaunchOutcome kernel allowed e m) :
    ∃ m', LaunchOutcome kernel' allowed d m' ∧ Sim (MappedDevice φ g l t) m' m := by
  have hc : CarriedGraph φ P d.graph := h.graph.carried hg hl
  have h' := h.map
  subst h'
  rcases m with e | e
  · obtain ⟨group, Q, h1, h2, h3⟩ := hm
    rw [launch_map hk d hc, items_map] at h2
    rw [items_map] at h3
    exact ⟨.error e, ⟨group, Q, h1, h2, h3⟩, Sim.error _⟩
  · obtain ⟨group, h1, Q, h2, h3, rfl⟩ := hm
    rw [launch_map hk d hc, items_map] at h2
    rw [items_map] at h3
    exact ⟨.ok (d.withFlags (current 1 Q.mem)), ⟨group, h1, Q, h2, h3, rfl⟩, ⟨rfl, h.graph.graph, h.graph.lowest, h.graph.threshold⟩, rfl⟩

include hk in
/-- Each launcher of the second arithmetic corresponds to a launcher of the first one. -/
theorem Launcher.Possible.pull {launch : Launcher D} (h : launch.Possible kernel allowed) : ∃ launch' : Launcher F,
    launch'.Possible kernel' allowed ∧ ∀ n d e g l t, Carried φ P g → CarriedLowest φ P l → MappedDevice φ g l t d e →
      Sim (MappedDevice φ g l t) (launch' n d) (launch n e) := by
  have key : ∀ n (d : Device F), ∃ m, LaunchOutcome kernel' allowed d m ∧ (CarriedGraph φ P d.graph →
      Sim (MappedDevice φ d.graph.disparityGraph d.graph.lowestPenalties d.graph.threshold) m (launch n (d.mapF φ))) := by
    intro n d
    by_cases hc : CarriedGraph φ P d.graph
    · obtain ⟨m, h1, h2⟩ := LaunchOutcome.pull hc.graph hc.lowest hk (d := d) (e := d.mapF φ) ⟨⟨rfl, rfl, rfl, rfl⟩, rfl⟩ (h n (d.mapF φ))
      exact ⟨m, h1, fun _ => h2⟩
    · have : ∃ group, allowed group := by
        have h0 := h n (d.mapF φ)
        cases hm : launch n (d.mapF φ) with
        | error e =>
          rw [hm] at h0
          obtain ⟨group, _, h1, _⟩ := h0
          exact ⟨group, h1⟩
        | ok e =>
          rw [hm] at h0
          obtain ⟨group, h1, _⟩ := h0
          exact ⟨group, h1⟩
      obtain ⟨group, hgr⟩ := this
      obtain ⟨m, hm⟩ := LaunchOutcome.exists kernel' d hgr
      exact ⟨m, hm, fun h => absurd h hc⟩
  choose launch' h1 h2 using key
  refine ⟨launch', h1, ?_⟩
  intro n d e g l t hg hl hd
  have := h2 n d (hd.graph.carried hg hl)
  rwa [hd.graph.graph, hd.graph.lowest, hd.graph.threshold, ← hd.map] at this

variable {launch' : Launcher F} {launch : Launcher D}
  (hlaunch : ∀ n d e g l t, Carried φ P g → CarriedLowest φ P l → MappedDevice φ g l t d e →
    Sim (MappedDevice φ g l t) (launch' n d) (launch n e))
include hom hg hl hlaunch

/-- States of loops of the host. -/
def MappedHost (φ : Recode F D) (g : DisparityGraph F) (l : LowestPenalties F) (t : F) {α : Type} (a : Device F × α) (b : Device D × α) : Prop :=
  b.2 = a.2 ∧ MappedDevice φ g l t a.1 b.1

omit hom in
theorem relaunch_transfer (fuel : Nat) {d : Device F} {e : Device D} (h : MappedDevice φ g l t d e) (n : Nat) :
    Sim (MappedHost φ g l t) (relaunch launch' fuel d n) (relaunch launch fuel e n) := by
  induction fuel generalizing d e n with
  | zero => exact Sim.error _
  | succ fuel ih =>
    unfold relaunch
    refine Sim.bind (hlaunch n d e g l t hg hl h) ?_
    intro d e h
    rw [h.changed]
    cases d.changed 1
    · exact Sim.pure ⟨rfl, h⟩
    · exact ih h _

theorem cspSolutionCl_transfer {c : ConstraintGraph F} {c' : ConstraintGraph D} (h : Mapped φ g l t c c') :
    Sim (Mapped2 φ g l t) (cspSolutionCl launch' c) (cspSolutionCl launch c') := by
  unfold cspSolutionCl
  rw [h.map, show (c.mapF φ).disparityGraph.right.width = c.disparityGraph.right.width from rfl,
    show (c.mapF φ).disparityGraph.right.height = c.disparityGraph.right.height from rfl]
  refine Sim.bind (R := MappedHost φ g l t) ?_ ?_
  · refine cfor_sim_same ?_ _ _ _ _ ⟨rfl, ⟨rfl, h.graph, h.lowest, h.threshold⟩, rfl⟩
    intro x s s' _ hs
    refine Sim.bind (R := MappedHost φ g l t) ?_ ?_
    · refine cfor_sim_same ?_ _ _ _ _ hs
      rintro y ⟨d, n⟩ ⟨e, _⟩ _ ⟨rfl, hd⟩
      refine Sim.bind (chooseBestNode_transfer hom hg hd.graph _) ?_
      rintro ⟨a, b⟩ ⟨a', _⟩ ⟨rfl, ha⟩
      simp only at ha ⊢
      rw [ha.map, show (a.mapF φ).nodesAvailability = a.nodesAvailability from rfl]
      have hd' : MappedDevice φ g l t { d with graph := a } { e with graph := a.mapF φ } :=
        ⟨⟨rfl, ha.graph, ha.lowest, ha.threshold⟩, hd.changed⟩
      refine Sim.bind (relaunch_transfer hg hl hlaunch _ hd' _) ?_
      intro s s' h
      exact Sim.pure ⟨rfl, h⟩
    · intro s s' h
      exact Sim.pure ⟨rfl, h⟩
  · rintro ⟨d, n⟩ ⟨e, _⟩ ⟨rfl, hd⟩
    exact Sim.pure ⟨(congrFun hd.changed 1).symm, hd.graph⟩

theorem cspSolutionCuda_transfer {c : ConstraintGraph F} {c' : ConstraintGraph D} (h : Mapped φ g l t c c') :
    Sim (Mapped φ g l t) (cspSolutionCuda launch' c) (cspSolutionCuda launch c') := by
  unfold cspSolutionCuda
  rw [h.map, show (c.mapF φ).disparityGraph.right.width = c.disparityGraph.right.width from rfl,
    show (c.mapF φ).disparityGraph.right.height = c.disparityGraph.right.height from rfl]
  refine Sim.bind (R := MappedHost φ g l t) ?_ ?_
  · refine cfor_sim_same ?_ _ _ _ _ ⟨rfl, ⟨rfl, h.graph, h.lowest, h.threshold⟩, rfl⟩
    intro x s s' _ hs
    refine Sim.bind (R := MappedHost φ g l t) ?_ ?_
    · refine cfor_sim_same ?_ _ _ _ _ hs
      rintro y ⟨d, n⟩ ⟨e, _⟩ _ ⟨rfl, hd⟩
      refine Sim.bind (chooseBestNode_transfer hom hg hd.graph _) ?_
      rintro ⟨a, b⟩ ⟨a', _⟩ ⟨rfl, ha⟩
      refine Sim.bind (hlaunch _ _ _ g l t hg hl ⟨ha, hd.changed⟩) ?_
      intro s s' h
      exact Sim.pure ⟨rfl, rfl, h⟩
    · intro s s' h
      exact Sim.pure ⟨rfl, h⟩
  · rintro ⟨d, n⟩ ⟨e, _⟩ ⟨rfl, hd⟩
    exact Sim.pure hd.graph

theorem cspSolutionCudaLimited_transfer (limits : Limits) {c : ConstraintGraph F} {c' : ConstraintGraph D} (h : Mapped φ g l t c c') :
    Sim (Mapped φ g l t) (cspSolutionCudaLimited limits launch' c) (cspSolutionCudaLimited limits launch c') := by
  unfold cspSolutionCudaLimited
  rw [h.map, show (c.mapF φ).disparityGraph.right.width = c.disparityGraph.right.width from rfl,
    show (c.mapF φ).disparityGraph.right.height = c.disparityGraph.right.height from rfl]
  refine Sim.bind (R := MappedHost φ g l t) ?_ ?_
  · refine cfor_sim_same ?_ _ _ _ _ ⟨rfl, ⟨rfl, h.graph, h.lowest, h.threshold⟩, rfl⟩
    intro x s s' _ hs
    refine Sim.bind (R := MappedHost φ g l t) ?_ ?_
    · refine cfor_sim_same ?_ _ _ _ _ hs
      rintro y ⟨d, n, failed⟩ ⟨e, _⟩ _ ⟨rfl, hd⟩
      refine Sim.bind_same fun _ => ?_
      refine Sim.bind (chooseBestNode_transfer hom hg hd.graph _) ?_
      rintro ⟨a, b⟩ ⟨a', _⟩ ⟨rfl, ha⟩
      simp only at ha hd ⊢
      by_cases hf : limits.Fits c
      · rw [if_pos hf, if_pos (show limits.Fits (c.mapF φ) from hf)]
        refine Sim.bind (hlaunch _ _ _ g l t hg hl ⟨ha, hd.changed⟩) ?_
        intro s s' h
        exact Sim.pure ⟨rfl, rfl, h⟩
      · rw [if_neg hf, if_neg (show ¬ limits.Fits (c.mapF φ) from hf)]
        exact Sim.pure ⟨rfl, rfl, ha, hd.changed⟩
    · intro s s' h
      exact Sim.pure ⟨rfl, h⟩
  · rintro ⟨d, n, failed⟩ ⟨e, _⟩ ⟨rfl, hd⟩
    refine Sim.bind_same fun _ => ?_
    exact Sim.pure hd.graph

end

/-! ## Conversions of numbers -/

section
variable {E : Type} [FloatOps E] {φ : Recode F G} {ψ : Recode E D} {P : F → Prop} {Q : E → Prop} {k : ℕ} {conv : G → D} {conv' : F → E}

/-- Images are changed in the same way. -/
structure Recode.SameImages {F G E D : Type} (φ : Recode F G) (ψ : Recode E D) : Prop where
  left : φ.left = ψ.left
  right : φ.right = ψ.right
  maxValue : φ.maxValue = ψ.maxValue

omit [FloatOps F] [FloatOps G] [FloatOps D] [FloatOps E] in
theorem onDevice_map (him : φ.SameImages ψ) (hconv : ∀ a, conv (φ a) = ψ (conv' a)) (c : ConstraintGraph F) :
    (c.mapF φ).onDevice conv = (c.onDevice conv').mapF ψ := by
  have harr : ∀ a : Array F, (a.map φ).map conv = (a.map conv').map ψ := by
    intro a
    rw [Array.map_map, Array.map_map]
    congr 1
    funext x
    exact hconv x
  unfold ConstraintGraph.onDevice ConstraintGraph.mapF DisparityGraph.onDevice DisparityGraph.mapF LowestPenalties.mapF
  simp only [harr, hconv, him.left, him.right, him.maxValue]
  rfl

omit [FloatOps G] [FloatOps D] [FloatOps E] in
theorem FromInput.onDevice {g : DisparityGraph F} (hg : FromInput k g) : FromInput k (g.onDevice fun a => a) where
  pos := hg.pos
  range := by
    obtain ⟨c, s, h1, h2, h3, h4⟩ := hg.range
    exact ⟨c, s, h1, h2, h3, h4⟩
  reparametrization a ha := by
    rw [show (g.onDevice fun a => a).reparametrization = g.reparametrization.map fun a => a from rfl, Array.map_id'] at ha
    exact hg.reparametrization a ha

omit [FloatOps E] in
theorem carried_onDevice {ψ : F → D} (car : Carrier ψ P k) {c : ConstraintGraph F} (hg : FromInput k c.disparityGraph)
    (hl : CarriedLowest φ P c.lowestPenalties) : CarriedGraph (.of ψ) P (c.onDevice fun a => a) where
  graph := hg.onDevice.carried car
  lowest :=
    { graph := hg.onDevice.carried car
      pixels := fun a ha => hl.pixels a (by
        rwa [show (c.onDevice fun a => a).lowestPenalties.pixels = c.lowestPenalties.pixels.map fun a => a from rfl, Array.map_id'] at ha)
      neighborhoods := fun a ha => hl.neighborhoods a (by
        rwa [show (c.onDevice fun a => a).lowestPenalties.neighborhoods = c.lowestPenalties.neighborhoods.map fun a => a from rfl,
          Array.map_id'] at ha) }

variable (hom : Hom ψ Q) (him : φ.SameImages ψ) (hconv : ∀ a, conv (φ a) = ψ (conv' a)) {launch' : Launcher E} {launch : Launcher D}
  (hlaunch : ∀ n d e g l t, Carried ψ Q g → CarriedLowest ψ Q l → MappedDevice ψ g l t d e →
    Sim (MappedDevice ψ g l t) (launch' n d) (launch n e)) {c : ConstraintGraph F} (hc : CarriedGraph ψ Q (c.onDevice conv'))
include hom him hconv hlaunch hc

theorem findLabelingCl_transfer : Sim (Mapped2 φ c.disparityGraph c.lowestPenalties c.threshold)
    (findLabelingCl conv' launch' c) (findLabelingCl conv launch (c.mapF φ)) := by
  unfold findLabelingCl
  rw [onDevice_map him hconv]
  refine Sim.bind (cspSolutionCl_transfer hom hc.graph hc.lowest hlaunch ⟨rfl, rfl, rfl, rfl⟩) ?_
  rintro ⟨a, b⟩ ⟨a', _⟩ ⟨rfl, ha⟩
  have hm := ha.map
  simp only at hm
  subst hm
  exact Sim.pure ⟨rfl, rfl, rfl, rfl, rfl⟩

theorem findLabelingCuda_transfer : Sim (Mapped2 φ c.disparityGraph c.lowestPenalties c.threshold)
    (findLabelingCuda conv' launch' c) (findLabelingCuda conv launch (c.mapF φ)) := by
  unfold findLabelingCuda
  rw [onDevice_map him hconv]
  refine Sim.bind (cspSolutionCuda_transfer hom hc.graph hc.lowest hlaunch ⟨rfl, rfl, rfl, rfl⟩) ?_
  rintro a _ ha
  obtain ⟨rfl, -⟩ := ha
  exact Sim.pure ⟨rfl, rfl, rfl, rfl, rfl⟩

theorem findLabelingCudaLimited_transfer (limits : Limits) : Sim (Mapped2 φ c.disparityGraph c.lowestPenalties c.threshold)
    (findLabelingCudaLimited limits conv' launch' c) (findLabelingCudaLimited limits conv launch (c.mapF φ)) := by
  unfold findLabelingCudaLimited
  rw [onDevice_map him hconv]
  refine Sim.bind (cspSolutionCudaLimited_transfer hom hc.graph hc.lowest hlaunch limits ⟨rfl, rfl, rfl, rfl⟩) ?_
  rintro a _ ha
  obtain ⟨rfl, -⟩ := ha
  exact Sim.pure ⟨rfl, rfl, rfl, rfl, rfl⟩

theorem findLabelingClFailing_transfer (failure : ConstraintGraph G → Option String) :
    Sim (Mapped2 φ c.disparityGraph c.lowestPenalties c.threshold)
      (findLabelingClFailing (fun c => failure (c.mapF φ)) conv' launch' c) (findLabelingClFailing failure conv launch (c.mapF φ)) := by
  unfold findLabelingClFailing
  simp only
  cases failure (c.mapF φ) with
  | some what => exact Sim.error _
  | none => exact findLabelingCl_transfer hom him hconv hlaunch hc

end
end SP
