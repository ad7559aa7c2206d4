import Verif.Lemmas.GpuExec
import Verif.Lemmas.GpuQuiet
import Verif.Lemmas.GpuSame
/-!
# Finding of a labeling on the device
-/
set_option linter.unusedSectionVars false

namespace SP
open FloatOps ConstraintGraph Gpu
variable {F D : Type} [FloatOps F] [FloatOps D] {kernel : Kernel D} {cl : Bool} {allowed : (Nat → Nat) → Prop}
  {launch : Launcher D} {d d' : Device D}

theorem LaunchOutcome.mono {allowed' : (Nat → Nat) → Prop} (h : ∀ group, allowed group → allowed' group) {m : M (Device D)}
    (hm : LaunchOutcome kernel allowed d m) : LaunchOutcome kernel allowed' d m := by
  cases m with
  | ok d' => obtain ⟨g, h1, h2⟩ := hm; exact ⟨g, h g h1, h2⟩
  | error e => obtain ⟨g, P, h1, h2⟩ := hm; exact ⟨g, P, h g h1, h2⟩

/-- Some items have missed each other. -/
def anyMissed (n : Nat) (group : Nat → Nat) (p : Nat → Prog Unit) : Bool :=
  (List.range n).any fun i => (List.range n).any fun j => missedIn n group p i j

/-- Evaluation of all members of a list before it is used. -/
def withList {α : Type} : List Bool → (List Bool → α) → α
  | [], k => k []
  | a :: l, k => Bool.rec (withList l fun l => k (false :: l)) (withList l fun l => k (true :: l)) a

theorem withList_eq {α : Type} (l : List Bool) (k : List Bool → α) : withList l k = k l := by
  induction l generalizing k with
  | nil => rfl
  | cons a l ih =>
    unfold withList
    cases a
    · exact ih _
    · exact ih _

/-- `Device.withFlags` with everything evaluated. -/
def Device.settle (d : Device D) (m : Flags) : Device D :=
  withList ((List.range d.graph.nodesAvailability.size).map m) fun l =>
  withList [m (changedWord d.graph 0), m (changedWord d.graph 1)] fun c =>
    { graph := { d.graph with nodesAvailability := l.toArray }
      changed := fun k => c.getD k false }

theorem Device.settle_eq (d : Device D) (m : Flags) : d.settle m = d.withFlags m := by
  have h1 : ((List.range d.graph.nodesAvailability.size).map m).toArray =
      Array.ofFn (n := d.graph.nodesAvailability.size) fun i => m i := by
    apply Array.ext
    · simp
    · intro i h1 h2
      simp
  unfold Device.settle
  rw [withList_eq, withList_eq, h1]
  unfold Device.withFlags ConstraintGraph.withFlags
  congr 1
  funext k
  rcases k with _ | _ | k <;> simp [List.getD]

/-- The outcome of a launch executed in given turns, if it ends. -/
def Device.outcome? (kernel : Kernel D) (group : Nat → Nat) (turns : List Turn) (d : Device D) : Option (M (Device D)) :=
  if turns.all (Turn.good d.items) && allReturned d.items (d.play kernel group turns).1 then
    some (.ok (d.settle fun i => (d.play kernel group turns).2 i i))
  else if turns.all (Turn.good d.items) && anyMissed d.items group (d.play kernel group turns).1 then some (.error .ub)
  else none

/-- Launches executed in given turns; if a launch does not end, it has any possible outcome. -/
noncomputable def Launcher.ofTurns (kernel : Kernel D) (group : Nat → Nat) (turns : Nat → List Turn) : Launcher D := fun n d =>
  match d.outcome? kernel group (turns n) with
  | some m => m
  | none => Classical.choose (LaunchOutcome.exists (allowed := fun γ => γ = group) kernel d rfl)

theorem Device.outcome?_possible {group : Nat → Nat} {turns : List Turn} {m : M (Device D)} (h : d.outcome? kernel group turns = some m) :
    LaunchOutcome kernel (fun γ => γ = group) d m := by
  unfold Device.outcome? at h
  split at h
  · rename_i h'
    rw [Bool.and_eq_true] at h'
    cases h
    rw [Device.settle_eq]
    exact ⟨group, rfl, LaunchTo.of_play _ h'.1 h'.2⟩
  · split at h
    · rename_i h'
      rw [Bool.and_eq_true] at h'
      obtain ⟨h1, h2⟩ := h'
      cases h
      unfold anyMissed at h2
      simp only [List.any_eq_true] at h2
      obtain ⟨i, -, j, -, h2⟩ := h2
      obtain ⟨P, hs, hm⟩ := missed_of_play turns h1 i j h2
      exact ⟨group, P, rfl, hs, .inr ⟨rfl, hm⟩⟩
    · cases h

theorem Launcher.ofTurns_possible {group : Nat → Nat} (hg : allowed group) (turns : Nat → List Turn) :
    (Launcher.ofTurns kernel group turns).Possible kernel allowed := by
  intro n d
  refine LaunchOutcome.mono (allowed := fun γ => γ = group) (by rintro _ rfl; exact hg) ?_
  unfold Launcher.ofTurns
  split
  · rename_i h
    exact Device.outcome?_possible h
  · exact Classical.choose_spec (LaunchOutcome.exists (allowed := fun γ => γ = group) kernel d rfl)

/-! ## Labeling -/
namespace Gpu
variable {conv : F → D} {c : ConstraintGraph F}

/-- What the host gets. -/
structure Found (conv : F → D) (allowed : (Nat → Nat) → Prop) (c c' : ConstraintGraph F) : Prop where
  same : c.Same c'
  valid : c'.Valid
  sub : Sub c'.Av c.Av
  single : c'.Single
  arc : AllAlive c.w c.h c'.Av → ArcConsistent c.w c.h (c.onDevice conv).E c'.Av
  arc_one : OneGroup allowed → ArcConsistent c.w c.h (c.onDevice conv).E c'.Av

theorem Labeled.found {g : ConstraintGraph D} (hc : c.Valid) (h : Labeled allowed (c.onDevice conv) g) :
    Found conv allowed c { c with nodesAvailability := g.nodesAvailability } := by
  obtain ⟨h1, h2, h3⟩ := copyBack hc h
  refine ⟨h1, h2, ?_, ?_, ?_, ?_⟩
  · rw [h3]; exact h.sub
  · intro x y d d' hd hd'
    rw [h3] at hd hd'
    exact h.single x y d d' hd hd'
  · rw [h3]; exact h.arc
  · rw [h3]; exact h.arc_one

theorem findLabelingCl_res (hl : launch.Possible cspIteration allowed) (hc : c.Valid) (hp : c.Proper) :
    Res (Misses (D := D) cspIteration allowed) (findLabelingCl conv launch c) fun r => Found conv allowed c r.1 ∧ r.2 = true := by
  unfold findLabelingCl
  exact Res.bind (cspSolutionCl_res hl (onDevice_valid hc conv) (onDevice_proper hp conv)) fun r hr => ⟨hr.1.found hc, rfl⟩

theorem findLabelingCuda_res (hl : launch.Possible cspIterationCuda allowed) (hc : c.Valid) (hp : c.Proper) :
    Res (Misses (D := D) cspIterationCuda allowed) (findLabelingCuda conv launch c) fun r => Found conv allowed c r.1 ∧ r.2 = true := by
  unfold findLabelingCuda
  exact Res.bind (cspSolutionCuda_res hl (onDevice_valid hc conv) (onDevice_proper hp conv)) fun r hr => ⟨hr.found hc, rfl⟩

theorem findLabelingCl_agree {l1 l2 : Launcher D} (h1 : l1.Possible cspIteration allowed) (h2 : l2.Possible cspIteration allowed)
    (hone : OneGroup allowed) (hc : c.Valid) (hp : c.Proper) {r1 r2 : ConstraintGraph F × Bool}
    (hr1 : findLabelingCl conv l1 c = .ok r1) (hr2 : findLabelingCl conv l2 c = .ok r2) : r1 = r2 := by
  unfold findLabelingCl at hr1 hr2
  obtain ⟨a1, ha1, hr1⟩ := bind_eq_ok hr1
  obtain ⟨a2, ha2, hr2⟩ := bind_eq_ok hr2
  rw [cspSolutionCl_loop] at ha1 ha2
  obtain ⟨b1, hb1, ha1⟩ := bind_eq_ok ha1
  obtain ⟨b2, hb2, ha2⟩ := bind_eq_ok ha2
  have := hostLoop_agree (E := Misses (D := D) cspIteration allowed) covers_cl hone (onDevice_valid hc conv) (onDevice_proper hp conv)
    (fun d n h1' h2' => (relaunch_res covers_cl h1 n h1' h2' (Nat.lt_succ_of_le (avCard_le h1'))).mono fun _ h => h.1)
    (fun d n h1' h2' => (relaunch_res covers_cl h2 n h1' h2' (Nat.lt_succ_of_le (avCard_le h1'))).mono fun _ h => h.1) hb1 hb2
  cases ha1; cases ha2; cases hr1; cases hr2
  simp only [this]

theorem findLabelingCuda_agree {l1 l2 : Launcher D} (h1 : l1.Possible cspIterationCuda allowed)
    (h2 : l2.Possible cspIterationCuda allowed) (hone : OneGroup allowed) (hc : c.Valid) (hp : c.Proper)
    {r1 r2 : ConstraintGraph F × Bool} (hr1 : findLabelingCuda conv l1 c = .ok r1) (hr2 : findLabelingCuda conv l2 c = .ok r2) :
    r1 = r2 := by
  have key : ∀ {l : Launcher D}, l.Possible cspIterationCuda allowed → ∀ (d : Device D) (n : Nat), d.graph.Valid → d.graph.Proper →
      Res (· = .ub) (do let d ← l n d; return (d, n + 1) : M (Device D × Nat)) fun r => Settled cspIterationCuda allowed d r.1 := by
    intro l hl d n h1 h2
    rcases (hl n d).valid covers_cuda h1 with ⟨d', group, hm, hg, ht⟩ | ⟨hm, -⟩
    · rw [hm, bind_ok]
      exact ht.settled covers_cuda h1 h2 hg
    · rw [hm]
      rfl
  unfold findLabelingCuda at hr1 hr2
  obtain ⟨a1, ha1, hr1⟩ := bind_eq_ok hr1
  obtain ⟨a2, ha2, hr2⟩ := bind_eq_ok hr2
  rw [cspSolutionCuda_loop] at ha1 ha2
  obtain ⟨b1, hb1, ha1⟩ := bind_eq_ok ha1
  obtain ⟨b2, hb2, ha2⟩ := bind_eq_ok ha2
  have := hostLoop_agree (E := (· = .ub)) covers_cuda hone (onDevice_valid hc conv) (onDevice_proper hp conv) (key h1) (key h2)
    hb1 hb2
  cases ha1; cases ha2; cases hr1; cases hr2
  simp only [this]

end Gpu
end SP
