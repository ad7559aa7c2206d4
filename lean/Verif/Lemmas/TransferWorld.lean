import Verif.Lemmas.TransferGpu
import Verif.Lemmas.DoubleCarrier
import Verif.Props.Program
/-!
# The same computation in two arithmetics: worlds and results
-/
namespace SP
open FloatOps Gpu
variable {F G D : Type} [FloatOps F] [FloatOps G] [FloatOps D]

/-! ## Worlds -/
section
variable {φ : F → G} {P : F → Prop} {k : ℕ} (car : Carrier φ P k) {world : World G} {B : Nat} {jobs : UInt64}
include car

/-- Each way to solve in the second arithmetic corresponds to a way in the first one. -/
theorem World.Runs.pull (h : world.Runs B jobs) : ∃ solve' : Solver F, (solve'.Possible B jobs ∨ solve' = fun _ => solveCsp jobs) ∧
    (world.solve.Possible B jobs → solve'.Possible B jobs) ∧
    ∀ n c, CarriedGraph (.of φ) P c →
      Sim (Mapped2 (.of φ) c.disparityGraph c.lowestPenalties c.threshold) (solve' n c) (world.solve n (c.mapF (.of φ))) := by
  by_cases hp : world.solve.Possible B jobs
  · obtain ⟨solve', h1, h2⟩ := hp.pull car.toHom
    exact ⟨solve', .inl h1, fun _ => h1, h2⟩
  · rcases h with h | h
    · exact absurd h hp
    · refine ⟨fun _ => solveCsp jobs, .inr rfl, fun h => absurd h hp, fun n c hc => ?_⟩
      rw [h]
      exact solveCsp_transfer car.toHom hc.graph hc.lowest jobs ⟨rfl, rfl, rfl, rfl⟩

omit [FloatOps F] [FloatOps G] car in
theorem pullBack_cl (conv : G → D) (launch : Launcher D) : pullBack φ (findLabelingCl conv launch) = findLabelingCl (fun a => conv (φ a)) launch := by
  funext c
  have harr : ∀ a : Array F, (a.map φ).map conv = a.map fun x => conv (φ x) := fun a => by rw [Array.map_map]; rfl
  unfold pullBack findLabelingCl
  rw [show (c.mapF (.of φ)).onDevice conv = c.onDevice fun a => conv (φ a) by
    unfold ConstraintGraph.onDevice ConstraintGraph.mapF DisparityGraph.onDevice DisparityGraph.mapF LowestPenalties.mapF
    simp only [harr]]
  cases cspSolutionCl launch (c.onDevice fun a => conv (φ a)) with
  | error e => rfl
  | ok r => rfl

omit [FloatOps F] [FloatOps G] car in
theorem pullBack_cuda (conv : G → D) (launch : Launcher D) : pullBack φ (findLabelingCuda conv launch) = findLabelingCuda (fun a => conv (φ a)) launch := by
  funext c
  have harr : ∀ a : Array F, (a.map φ).map conv = a.map fun x => conv (φ x) := fun a => by rw [Array.map_map]; rfl
  unfold pullBack findLabelingCuda
  rw [show (c.mapF (.of φ)).onDevice conv = c.onDevice fun a => conv (φ a) by
    unfold ConstraintGraph.onDevice ConstraintGraph.mapF DisparityGraph.onDevice DisparityGraph.mapF LowestPenalties.mapF
    simp only [harr]]
  cases cspSolutionCuda launch (c.onDevice fun a => conv (φ a)) with
  | error e => rfl
  | ok r => rfl

omit [FloatOps F] [FloatOps G] car in
theorem pullBack_cudaLimited (limits : Limits) (conv : G → D) (launch : Launcher D) :
    pullBack φ (findLabelingCudaLimited limits conv launch) = findLabelingCudaLimited limits (fun a => conv (φ a)) launch := by
  funext c
  have harr : ∀ a : Array F, (a.map φ).map conv = a.map fun x => conv (φ x) := fun a => by rw [Array.map_map]; rfl
  unfold pullBack findLabelingCudaLimited
  rw [show (c.mapF (.of φ)).onDevice conv = c.onDevice fun a => conv (φ a) by
    unfold ConstraintGraph.onDevice ConstraintGraph.mapF DisparityGraph.onDevice DisparityGraph.mapF LowestPenalties.mapF
    simp only [harr]]
  cases cspSolutionCudaLimited limits launch (c.onDevice fun a => conv (φ a)) with
  | error e => rfl
  | ok r => rfl

omit [FloatOps F] [FloatOps G] car in
theorem pullBack_clFailing (failure : ConstraintGraph G → Option String) (conv : G → D) (launch : Launcher D) :
    pullBack φ (findLabelingClFailing failure conv launch) =
      findLabelingClFailing (fun c => failure (c.mapF (.of φ))) (fun a => conv (φ a)) launch := by
  funext c
  have h := congrFun (pullBack_cl (φ := φ) conv launch) c
  unfold pullBack findLabelingClFailing at *
  simp only
  cases failure (c.mapF (.of φ)) with
  | some what => rfl
  | none => exact h

omit [FloatOps F] [FloatOps G] car in
theorem flagsOnly_cl (conv : G → D) (launch : Launcher D) : FlagsOnly (findLabelingCl conv launch) := by
  intro c c' b h
  unfold findLabelingCl at h
  obtain ⟨r, -, h⟩ := bind_eq_ok h
  cases h
  exact ⟨rfl, rfl, rfl⟩

omit [FloatOps F] [FloatOps G] car in
theorem flagsOnly_cuda (conv : G → D) (launch : Launcher D) : FlagsOnly (findLabelingCuda conv launch) := by
  intro c c' b h
  unfold findLabelingCuda at h
  obtain ⟨r, -, h⟩ := bind_eq_ok h
  cases h
  exact ⟨rfl, rfl, rfl⟩

omit [FloatOps F] [FloatOps G] car in
theorem flagsOnly_cudaLimited (limits : Limits) (conv : G → D) (launch : Launcher D) : FlagsOnly (findLabelingCudaLimited limits conv launch) := by
  intro c c' b h
  unfold findLabelingCudaLimited at h
  obtain ⟨r, -, h⟩ := bind_eq_ok h
  cases h
  exact ⟨rfl, rfl, rfl⟩

omit [FloatOps F] [FloatOps G] car in
theorem flagsOnly_clFailing (failure : ConstraintGraph G → Option String) (conv : G → D) (launch : Launcher D) :
    FlagsOnly (findLabelingClFailing failure conv launch) := by
  intro c c' b h
  unfold findLabelingClFailing at h
  split at h
  · cases h
  · exact flagsOnly_cl conv launch c c' b h

/-- A world of the first arithmetic with the same devices, whatever they do. -/
theorem World.pull {conv : G → D} {allowed : (Nat → Nat) → Prop} (hruns : world.Runs B jobs) (hdev : world.Devices conv allowed) :
    ∃ world' : World F, SameWorld φ P k world' world ∧ world'.Runs B jobs ∧ (world.solve.Possible B jobs → world'.solve.Possible B jobs) ∧
      world'.Devices (fun a => conv (φ a)) allowed := by
  obtain ⟨solve', h1, h1', h2⟩ := World.Runs.pull car hruns
  refine ⟨{ file := world.file, writable := world.writable, memory := world.memory, room := world.room, solve := solve',
            openCL := world.openCL.map (pullBack φ), cuda := world.cuda.map (pullBack φ) },
    ⟨rfl, rfl, rfl, rfl, h2, ?_, ?_⟩, h1, h1', ?_, ?_⟩
  · cases hcl : world.openCL with
    | none => trivial
    | some f =>
      obtain ⟨launch, -, rfl | ⟨failure, rfl⟩⟩ := hdev.openCL f hcl
      · exact fun c _ _ => pullBack_sim (flagsOnly_cl conv launch) c
      · exact fun c _ _ => pullBack_sim (flagsOnly_clFailing failure conv launch) c
  · cases hcu : world.cuda with
    | none => trivial
    | some f =>
      obtain ⟨launch, -, rfl | ⟨limits, rfl⟩⟩ := hdev.cuda f hcu
      · exact fun c _ _ => pullBack_sim (flagsOnly_cuda conv launch) c
      · exact fun c _ _ => pullBack_sim (flagsOnly_cudaLimited limits conv launch) c
  · intro f hf
    simp only [Option.map_eq_some_iff] at hf
    obtain ⟨f, hcl, rfl⟩ := hf
    obtain ⟨launch, h, rfl | ⟨failure, rfl⟩⟩ := hdev.openCL f hcl
    · exact ⟨launch, h, .inl (pullBack_cl conv launch)⟩
    · exact ⟨launch, h, .inr ⟨_, pullBack_clFailing failure conv launch⟩⟩
  · intro f hf
    simp only [Option.map_eq_some_iff] at hf
    obtain ⟨f, hcu, rfl⟩ := hf
    obtain ⟨launch, h, rfl | ⟨limits, rfl⟩⟩ := hdev.cuda f hcu
    · exact ⟨launch, h, .inl (pullBack_cuda conv launch)⟩
    · exact ⟨launch, h, .inr ⟨limits, pullBack_cudaLimited limits conv launch⟩⟩

/-- A world of the first arithmetic, its devices having an arithmetic that corresponds to that of devices of the second one. -/
theorem World.pullBoth {E : Type} [FloatOps E] {ψ : E → D} {Q : E → Prop} (hom : Hom (.of ψ) Q) {conv : G → D} {conv' : F → E}
    (hconv : ∀ a, conv (φ a) = ψ (conv' a))
    (hcar : ∀ c : ConstraintGraph F, FromInput k c.disparityGraph → CarriedLowest (.of φ) P c.lowestPenalties → CarriedGraph (.of ψ) Q (c.onDevice conv'))
    {allowed : (Nat → Nat) → Prop} (hruns : world.Runs B jobs) (hdev : world.Devices conv allowed) :
    ∃ world' : World F, SameWorld φ P k world' world ∧ world'.Runs B jobs ∧ (world.solve.Possible B jobs → world'.solve.Possible B jobs) ∧
      world'.Devices conv' allowed := by
  obtain ⟨solve', h1, h1', h2⟩ := World.Runs.pull car hruns
  have hcl : ∀ f, world.openCL = some f → ∃ f', (∃ launch : Launcher E, launch.Possible cspIteration allowed ∧
      (f' = findLabelingCl conv' launch ∨ ∃ failure, f' = findLabelingClFailing failure conv' launch)) ∧
      ∀ c, FromInput k c.disparityGraph → CarriedLowest (.of φ) P c.lowestPenalties →
        Sim (Mapped2 (.of φ) c.disparityGraph c.lowestPenalties c.threshold) (f' c) (f (c.mapF (.of φ))) := by
    intro f hf
    obtain ⟨launch, h, hff⟩ := hdev.openCL f hf
    obtain ⟨launch', hp, hs⟩ := h.pull (φ := .of ψ) (P := Q) (kernel' := cspIteration)
      fun c hc => funext fun i => cspIteration_map hom hc i
    rcases hff with rfl | ⟨failure, rfl⟩
    · exact ⟨_, ⟨launch', hp, .inl rfl⟩, fun c hg hl => findLabelingCl_transfer (φ := .of φ) hom ⟨rfl, rfl, rfl⟩ hconv hs (hcar c hg hl)⟩
    · exact ⟨_, ⟨launch', hp, .inr ⟨_, rfl⟩⟩, fun c hg hl => findLabelingClFailing_transfer (φ := .of φ) hom ⟨rfl, rfl, rfl⟩ hconv hs (hcar c hg hl) failure⟩
  have hcu : ∀ f, world.cuda = some f → ∃ f', (∃ launch : Launcher E, launch.Possible cspIterationCuda allowed ∧
      (f' = findLabelingCuda conv' launch ∨ ∃ limits, f' = findLabelingCudaLimited limits conv' launch)) ∧
      ∀ c, FromInput k c.disparityGraph → CarriedLowest (.of φ) P c.lowestPenalties →
        Sim (Mapped2 (.of φ) c.disparityGraph c.lowestPenalties c.threshold) (f' c) (f (c.mapF (.of φ))) := by
    intro f hf
    obtain ⟨launch, h, hff⟩ := hdev.cuda f hf
    obtain ⟨launch', hp, hs⟩ := h.pull (φ := .of ψ) (P := Q) (kernel' := cspIterationCuda)
      fun c hc => funext fun i => cspIterationCuda_map hom hc i
    rcases hff with rfl | ⟨limits, rfl⟩
    · exact ⟨_, ⟨launch', hp, .inl rfl⟩, fun c hg hl => findLabelingCuda_transfer (φ := .of φ) hom ⟨rfl, rfl, rfl⟩ hconv hs (hcar c hg hl)⟩
    · exact ⟨_, ⟨launch', hp, .inr ⟨limits, rfl⟩⟩, fun c hg hl => findLabelingCudaLimited_transfer (φ := .of φ) hom ⟨rfl, rfl, rfl⟩ hconv hs (hcar c hg hl) limits⟩
  have key : ∀ {o : Option (ConstraintGraph G → M (ConstraintGraph G × Bool))} {Q : (ConstraintGraph F → M (ConstraintGraph F × Bool)) → Prop}
      (_ : ∀ f, o = some f → ∃ f', Q f' ∧ ∀ c, FromInput k c.disparityGraph → CarriedLowest (.of φ) P c.lowestPenalties →
        Sim (Mapped2 (.of φ) c.disparityGraph c.lowestPenalties c.threshold) (f' c) (f (c.mapF (.of φ)))),
      ∃ o' : Option (ConstraintGraph F → M (ConstraintGraph F × Bool)), (∀ f', o' = some f' → Q f') ∧
        SameFinder φ P k o' o := by
    intro o Q h
    cases o with
    | none => exact ⟨none, nofun, trivial⟩
    | some f =>
      obtain ⟨f', h1, h2⟩ := h f rfl
      exact ⟨some f', fun _ e => by cases e; exact h1, h2⟩
  obtain ⟨o1, a1, b1⟩ := key hcl
  obtain ⟨o2, a2, b2⟩ := key hcu
  exact ⟨{ file := world.file, writable := world.writable, memory := world.memory, room := world.room, solve := solve',
           openCL := o1, cuda := o2 }, ⟨rfl, rfl, rfl, rfl, h2, b1, b2⟩, h1, h1', a1, a2⟩

/-- A world of the first arithmetic with devices of the same arithmetic. -/
theorem World.pullDevice {ψ : F → D} (carψ : Carrier ψ P k) {conv : G → D} (hconv : ∀ a, conv (φ a) = ψ a) {allowed : (Nat → Nat) → Prop}
    (hruns : world.Runs B jobs) (hdev : world.Devices conv allowed) :
    ∃ world' : World F, SameWorld φ P k world' world ∧ world'.Runs B jobs ∧ world'.Devices (fun a : F => a) allowed := by
  obtain ⟨world', h1, h2, -, h3⟩ := World.pullBoth car carψ.toHom hconv (fun c hg hl => carried_onDevice carψ hg hl) hruns hdev
  exact ⟨world', h1, h2, h3⟩

end

/-! ## The best map -/

/-- Differences of penalties are compared with numbers of the second arithmetic as with some numbers of the first one. -/
def Cut (φ : F → G) (Q : F → Prop) : Prop :=
  ∀ t : G, (∀ a, Q a → le (φ a) t = false) ∨
    ∃ t' : F, (∀ a, Q a → le (φ a) t = true → le a t' = true) ∧ ∀ a, le a t' = true → le (φ a) t = true

section
variable {φ : F → G} {P Q : F → Prop} {k : ℕ} (car : Carrier φ P k) {g : DisparityGraph F} (hg : FromInput k g)
include car hg

theorem FromInput.phi (x y d j : Nat) : g.phi x y d j = zero ∧ (g.mapF (.of φ)).phi x y d j = zero := by
  have h : ∀ i, g.reparametrization.getD i zero = zero := by
    intro i
    by_cases h : i < g.reparametrization.size
    · simp only [Array.getD, h]
      exact hg.reparametrization _ (Array.getElem_mem h)
    · simp [Array.getD, h]
  have h' : ∀ i, (g.reparametrization.map φ).getD i zero = zero := by
    intro i
    by_cases h : i < g.reparametrization.size
    · have hs : i < (g.reparametrization.map φ).size := by rwa [Array.size_map]
      rw [Array.getD_eq_getD_getElem?, Array.getElem?_eq_getElem hs, Array.getElem_map]
      show φ _ = zero
      rw [hg.reparametrization _ (Array.getElem_mem h)]
      exact car.zero
    · simp [Array.getD, h]
  exact ⟨h _, h' _⟩

theorem FromInput.nodeQ (x y d : Nat) : P (g.nodeQ x y d) ∧ (g.mapF (.of φ)).nodeQ x y d = φ (g.nodeQ x y d) := by
  obtain ⟨c, s, hc, hs, ⟨a, b, hab, ha, hl, hr⟩, -⟩ := hg.range
  have hat : ∀ (im : Image), (∀ v ∈ im.data, v.toNat ≤ 2 ^ b) → ∀ x y, im.at x y ≤ 2 ^ b := by
    intro im h x y
    unfold Image.at
    by_cases hi : pidx im.width.toNat x y < im.data.size
    · simp only [Array.getD, hi]
      exact h _ (Array.getElem_mem hi)
    · simp [Array.getD, hi]
  unfold DisparityGraph.nodeQ
  simp only [(hg.phi car _ _ _ _).1, (hg.phi car _ _ _ _).2]
  rw [show (g.mapF (.of φ)).cleanness = φ g.cleanness from rfl, hc, car.ofNat c (pow_le_of_le ha (by omega)),
    show (g.mapF (.of φ)).right = g.right from rfl, show (g.mapF (.of φ)).left = g.left from rfl]
  obtain ⟨hp, hm, -⟩ := car.penalty a b c _ _ hab ha (hat _ hr x y) (hat _ hl (x + d) y)
  simp only [car.add_zero _ hp, hm, car.add_zero' _ hp]
  exact ⟨hp, trivial⟩

theorem FromInput.edgeQ (x y j d d' : Nat) (hd : d < g.levels) (hd' : d' < g.levels) :
    P (g.edgeQ x y j d d') ∧ (g.mapF (.of φ)).edgeQ x y j d d' = φ (g.edgeQ x y j d d') := by
  obtain ⟨c, s, hc, hs, -, ⟨a, b, hab, ha, hl⟩⟩ := hg.range
  unfold DisparityGraph.edgeQ
  simp only [(hg.phi car _ _ _ _).1, (hg.phi car _ _ _ _).2]
  rw [show (g.mapF (.of φ)).smoothness = φ g.smoothness from rfl, hs, car.ofNat s (pow_le_of_le ha (by omega))]
  obtain ⟨hp, -, hm⟩ := car.penalty a b s d d' hab ha (hd.le.trans hl) (hd'.le.trans hl)
  have hz : ∀ a, P a → FloatOps.sub (φ a) FloatOps.zero = φ a := by
    intro a ha
    rw [← car.zero, ← car.sub _ _ ha car.P_zero, car.sub_zero _ ha]
  simp only [car.sub_zero _ hp, hm, hz _ hp]
  exact ⟨hp, trivial⟩

/-- Feasible labelings are the same if differences of penalties are compared with `t` as with `t'`. -/
theorem FromInput.feasible {t' : F} {t : G} (h : ∀ a b, P a → P b → (le (φ (sub a b)) t = true → le (sub a b) t' = true)) {L : Nat → Nat → Nat}
    (hL : (g.mapF (.of φ)).FeasibleAt t L) : g.FeasibleAt t' L := by
  intro x y hx hy
  obtain ⟨h1, h2, h3⟩ := hL x y hx hy
  refine ⟨h1, fun d hd => ?_, fun j hj => ⟨(h3 j hj).1, fun d d' hd => ?_⟩⟩
  · have := h2 d hd
    obtain ⟨p1, e1⟩ := hg.nodeQ car x y (L x y)
    obtain ⟨p2, e2⟩ := hg.nodeQ car x y d
    rw [e1, e2, ← car.sub _ _ p1 p2] at this
    exact h _ _ p1 p2 this
  · have := (h3 j hj).2 d d' hd
    have hL := (h3 j hj).1
    obtain ⟨p1, e1⟩ := hg.edgeQ car x y j (L x y) (L (nbx x j) (nby y j)) hL.2.1.2.2.1 hL.2.2.1.2.2.1
    obtain ⟨p2, e2⟩ := hg.edgeQ car x y j d d' hd.2.1.2.2.1 hd.2.2.1.2.2.1
    rw [e1, e2, ← car.sub _ _ p1 p2] at this
    exact h _ _ p1 p2 this

theorem FromInput.feasible_map {t' : F} {t : G} (h : ∀ a b, P a → P b → (le (sub a b) t' = true → le (φ (sub a b)) t = true))
    {L : Nat → Nat → Nat} (hL : g.FeasibleAt t' L) : (g.mapF (.of φ)).FeasibleAt t L := by
  intro x y hx hy
  obtain ⟨h1, h2, h3⟩ := hL x y hx hy
  refine ⟨h1, fun d hd => ?_, fun j hj => ⟨(h3 j hj).1, fun d d' hd => ?_⟩⟩
  · obtain ⟨p1, e1⟩ := hg.nodeQ car x y (L x y)
    obtain ⟨p2, e2⟩ := hg.nodeQ car x y d
    rw [e1, e2, ← car.sub _ _ p1 p2]
    exact h _ _ p1 p2 (h2 d hd)
  · have hL := (h3 j hj).1
    obtain ⟨p1, e1⟩ := hg.edgeQ car x y j (L x y) (L (nbx x j) (nby y j)) hL.2.1.2.2.1 hL.2.2.1.2.2.1
    obtain ⟨p2, e2⟩ := hg.edgeQ car x y j d d' hd.2.1.2.2.1 hd.2.2.1.2.2.1
    rw [e1, e2, ← car.sub _ _ p1 p2]
    exact h _ _ p1 p2 ((h3 j hj).2 d d' hd)

/-- The best map in the first arithmetic is the best map in the second one. -/
theorem BestMap.map (hQ : ∀ a b, P a → P b → Q (sub a b)) (hcut : Cut φ Q) (hw : 0 < g.w) (hh : 0 < g.h) {t : F} {im : Image}
    (h : BestMap g t im) : BestMap (g.mapF (.of φ)) (φ t) im where
  width := h.width
  height := h.height
  levels := h.levels
  size := h.size
  best := by
    have hf : ∀ {L}, (g.mapF (.of φ)).FeasibleAt (φ t) L ↔ g.FeasibleAt t L :=
      ⟨hg.feasible car fun a b _ _ h => by rwa [car.le] at h, hg.feasible_map car fun a b _ _ h => by rwa [car.le]⟩
    refine ⟨hf.2 h.best.1, fun L' hL' x y hx hy hb => ?_⟩
    have := h.best.2 L' (hf.1 hL') x y hx hy hb
    rwa [(hg.nodeQ car _ _ _).2, (hg.nodeQ car _ _ _).2, car.le, car.lt]
  least := by
    intro t' L hL
    rcases hcut t' with hno | ⟨t'', h1, h2⟩
    · exfalso
      obtain ⟨n1, n2, -⟩ := hL 0 0 hw hh
      have := n2 (L 0 0) n1
      obtain ⟨p1, e1⟩ := hg.nodeQ car 0 0 (L 0 0)
      rw [e1, ← car.sub _ _ p1 p1, hno _ (hQ _ _ p1 p1)] at this
      cases this
    · exact h2 _ (h.least t'' L (hg.feasible car (fun a b ha hb => h1 _ (hQ a b ha hb)) hL))

end
end SP
