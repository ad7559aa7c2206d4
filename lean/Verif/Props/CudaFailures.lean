import Verif.Lemmas.CudaFailures
import Verif.Props.CudaKernel
import Verif.Props.Perfect
/-!
# Property C102: failures of CUDA

Calls of CUDA may fail at any time. The program compiled without `assert` then writes the file it would write without failures, or none.
-/
namespace SP
open FloatOps Gpu
variable {F D : Type} [FloatOps F] [FloatOps D]

section
variable {conv : F → D} {launch : Launcher D} {allowed : (Nat → Nat) → Prop} {c : ConstraintGraph F}

/-! ## Kernels keep the graph valid -/

theorem Gpu.keeps64 {c : ConstraintGraph D} (hl : launch.Possible cspIterationCuda allowed) (hc : c.Valid) (hp : c.Proper) :
    Keeps c best64 launch (Kept32 c) where
  start := ⟨.refl _, hc, .refl _⟩
  choose d x y g hd hx hy hg := by
    unfold best64 at hg
    obtain ⟨r, hr, hg⟩ := bind_eq_ok hg
    cases hg
    exact hd.choose hp (UInt64.lt_iff_toNat_lt.1 hx) (UInt64.lt_iff_toNat_lt.1 hy) hr
  launch _ _ _ hd h := hd.launched hl h

theorem Gpu.keeps32 {c : ConstraintGraph D} (hl : launch.Possible Cuda.cspIteration allowed) (hc : c.Valid) (hp : c.Proper)
    (hf : c.disparityGraph.Fits32) : Keeps c best32 launch (Kept32 c) where
  start := ⟨.refl _, hc, .refl _⟩
  choose d x y g hd hx hy hg := by
    have hx := UInt64.lt_iff_toNat_lt.1 hx
    have hy := UInt64.lt_iff_toNat_lt.1 hy
    have hb := chooseBestNode_cuda hd.valid (hd.fits hf) (p := ⟨x, y⟩)
      (by have := hd.same.w_eq; unfold ConstraintGraph.w at this; rw [this]; exact hx)
      (by have := hd.same.h_eq; unfold ConstraintGraph.h at this; rw [this]; exact hy)
    unfold best32 at hg
    rw [show (⟨x.toUInt32, y.toUInt32⟩ : Cuda.Pixel) = Pixel.cuda ⟨x, y⟩ from rfl, hb] at hg
    obtain ⟨r, hr, hg⟩ := bind_eq_ok hg
    cases hg
    exact hd.choose hp hx hy hr
  launch n d d' hd h := by
    have hg := hl.some_group (Device.empty D)
    rw [← Launcher.widen_eq (launch := launch) hg hd.valid (hd.fits (hf))] at h
    exact hd.launched (Launcher.widen_possible hl hg) h

/-! ## What is found -/

/-- What `find` does when calls may fail, if `sound` does not fail. -/
def FailsWell (allowed : (Nat → Nat) → Prop) (conv : F → D) (find sound : ConstraintGraph F → M (ConstraintGraph F × Bool)) (c : ConstraintGraph F) : Prop :=
  ((∃ e, (e = .exit ∨ Misses (D := D) cspIterationCuda allowed e) ∧ find c = .error e) ∨
    (∃ flags, find c = .ok ({ c with nodesAvailability := flags }, true) ∧ Partly sound c flags) ∨
    find c = sound c) ∧
  Res (Misses (D := D) cspIterationCuda allowed) (sound c) fun r => Found conv allowed c r.1 ∧ r.2 = true

theorem failsWell64 (trouble : Trouble) (conv : F → D) (hl : launch.Possible cspIterationCuda allowed) (hc : c.Valid) (hp : c.Proper) :
    FailsWell allowed conv (findLabelingRelease trouble best64 conv launch) (findLabelingCuda conv launch) c := by
  refine ⟨?_, findLabelingCuda_res hl hc hp⟩
  have hc' := onDevice_valid hc conv
  have := findLabelingRelease_cases (trouble := trouble) (keeps64 hl hc' (onDevice_proper hp conv))
  rw [show soundLabeling best64 conv launch = findLabelingCuda conv launch from funext soundLabeling_64] at this
  refine this.imp_left ?_
  rintro ⟨e, rfl | ⟨n, d, hd, he⟩, h⟩
  · exact ⟨_, .inl rfl, h⟩
  · rcases (hl n d).valid covers_cuda hd.valid with ⟨d', group, hm, -⟩ | ⟨hm, group, P, hg, hs, hmiss⟩
    · rw [he] at hm; cases hm
    · rw [he] at hm
      cases hm
      exact ⟨_, .inr ⟨rfl, d, group, P, hd.valid, hg, hs, hmiss⟩, h⟩

theorem failsWell32 (trouble : Trouble) (conv : F → D) (hl : launch.Possible Cuda.cspIteration allowed) (hc : c.Valid) (hp : c.Proper)
    (hf : c.disparityGraph.Fits32) :
    FailsWell allowed conv (findLabelingRelease trouble best32 conv launch) (Cuda.findLabeling conv launch) c := by
  have hg := hl.some_group (Device.empty D)
  have hl' := Launcher.widen_possible hl hg
  constructor
  swap
  · rw [findLabeling_cuda conv hl hg hc hp hf]
    exact findLabelingCuda_res hl' hc hp
  have hc' := onDevice_valid hc conv
  have := findLabelingRelease_cases (trouble := trouble) (keeps32 hl hc' (onDevice_proper hp conv) (fits_onDevice hf conv))
  refine this.imp_left ?_
  rintro ⟨e, rfl | ⟨n, d, hd, he⟩, h⟩
  · exact ⟨_, .inl rfl, h⟩
  · rw [← Launcher.widen_eq (launch := launch) hg hd.valid (hd.fits (fits_onDevice hf conv))] at he
    rcases (hl' n d).valid covers_cuda hd.valid with ⟨d', group, hm, -⟩ | ⟨hm, group, P, hg, hs, hmiss⟩
    · rw [he] at hm; cases hm
    · rw [he] at hm
      cases hm
      exact ⟨_, .inr ⟨rfl, d, group, P, hd.valid, hg, hs, hmiss⟩, h⟩

/-- A part of a labeling is a map only if it is the whole labeling. -/
theorem partly_map {find : ConstraintGraph F → M (ConstraintGraph F × Bool)} (hc : c.Valid) (hp : c.Proper)
    (hfound : Res (Misses (D := D) cspIterationCuda allowed) (find c) fun r => Found conv allowed c r.1 ∧ r.2 = true) {flags : Array Bool}
    (h : Partly find c flags) :
    buildDisparityMap { c with nodesAvailability := flags } = .error noLabel ∨
    ∃ g, find c = .ok (g, true) ∧ buildDisparityMap { c with nodesAvailability := flags } = buildDisparityMap g := by
  rcases h with rfl | ⟨g, keep, hg, rfl⟩
  · have hv : ({ c with nodesAvailability := Array.replicate c.nodesAvailability.size false } : ConstraintGraph F).Valid :=
      ⟨hc.lowest, hc.same, by rw [Array.size_replicate]; exact hc.size⟩
    have hno : ∀ x y d, ¬ ({ c with nodesAvailability := Array.replicate c.nodesAvailability.size false } : ConstraintGraph F).Av x y d := by
      rintro x y d ⟨-, -, -, h⟩
      simp [Array.getD_eq_getD_getElem?, Array.getElem?_replicate] at h
      split at h <;> simp at h
    rcases buildDisparityMap_mk hv (fun x y d hd => (hno x y d hd).elim) with ⟨ha, -⟩ | ⟨-, h⟩
    · obtain ⟨d, hd⟩ := ha 0 0 hc.graph.width_pos hc.graph.height_pos
      exact (hno _ _ _ hd).elim
    · exact .inl h
  · rw [hg] at hfound
    obtain ⟨hfound, -⟩ := hfound
    let c' : ConstraintGraph F := { c with nodesAvailability := g.nodesAvailability.mapIdx fun i a => a && keep i }
    obtain ⟨s1, s2, s3⟩ := hfound.same
    have hv : c'.Valid := ⟨hc.lowest, hc.same, by
      show (Array.mapIdx _ _).size = _
      rw [Array.size_mapIdx, hfound.valid.size, s1]⟩
    have hsub : Sub c'.Av g.Av := by
      rintro x y d ⟨h1, h2, h3, h4⟩
      refine ⟨by rw [hfound.same.w_eq]; exact h1, by rw [hfound.same.h_eq]; exact h2, by
        unfold ConstraintGraph.levels; rw [s1]; exact h3, ?_⟩
      have e1 : g.h = c.h := hfound.same.h_eq
      have e2 : g.levels = c.levels := by unfold ConstraintGraph.levels; rw [s1]
      rw [e1, e2]
      have h4 : (g.nodesAvailability.mapIdx fun i a => a && keep i).getD (nidx c.h c.levels x y d) false = true := h4
      revert h4
      generalize nidx c.h c.levels x y d = i
      rw [Array.getD_eq_getD_getElem?, Array.getD_eq_getD_getElem?, Array.getElem?_mapIdx]
      cases g.nodesAvailability[i]? with
      | none => simp
      | some a => simp; exact fun h _ => h
    have hpg : g.Proper := hfound.same.proper hp hfound.sub
    have hpc : c'.Proper := fun x y d hd => hp x y d (hfound.sub _ _ _ (hsub _ _ _ hd))
    rcases buildDisparityMap_mk hv hpc with ⟨ha, im, him, a1, a2, a3, a4, a5⟩ | ⟨-, h⟩
    · refine .inr ⟨g, hg, ?_⟩
      have hag : AllAlive g.w g.h g.Av := by
        intro x y hx hy
        obtain ⟨d, hd⟩ := ha x y (by rw [hfound.same.w_eq] at hx; exact hx) (by rw [hfound.same.h_eq] at hy; exact hy)
        exact ⟨d, hsub _ _ _ hd⟩
      rcases buildDisparityMap_mk hfound.valid hpg with ⟨-, im', him', b1, b2, b3, b4, b5⟩ | ⟨hn, -⟩
      · show buildDisparityMap c' = _
        rw [him, him']
        have hm : MapOf c.disparityGraph (fun x y => im.at x y) im := ⟨a1, a2, a3, a4, fun _ _ _ _ => rfl⟩
        have hm' : MapOf c.disparityGraph (fun x y => im.at x y) im' := by
          refine ⟨by rw [b1, s1], by rw [b2, s1], by rw [b3, s1], by rw [b4, hfound.same.w_eq, hfound.same.h_eq]; rfl, fun x y hx hy => ?_⟩
          exact hfound.single x y _ _ (b5 x y (by rw [hfound.same.w_eq]; exact hx) (by rw [hfound.same.h_eq]; exact hy)).1
            (hsub _ _ _ (a5 x y hx hy).1)
        rw [MapOf.unique hm hm']
      · exact absurd hag hn
    · exact .inl h

end

/-! ## The program -/

/-- What the program does when calls may fail, if the program `sound` does not fail: the same; or the message about CUDA is printed; or the message
about labels is printed; or work items miss each other at a barrier. The status is 0 in the second and the third cases and nothing is written. -/
def SameOrFailed (D : Type) [FloatOps D] (allowed : (Nat → Nat) → Prop) (actual sound : M Outcome) : Prop :=
  actual = sound ∨
  actual = .ok { exit := 0, out := [.cuda, .cudaFailure] } ∨
  actual = .ok { exit := 0, out := [.cuda], err := [.logicError "Cannot find label for the pixel"] } ∨
  (actual = .error .ub ∧ Misses (D := D) cspIterationCuda allowed .ub)

section
variable {world : World F} {conv : F → D} {allowed : (Nat → Nat) → Prop} {B : Nat} {jobs : UInt64}

theorem program_failing {find sound : ConstraintGraph F → M (ConstraintGraph F × Bool)} (hw : world.Reasonable jobs) (hruns : world.Runs B jobs)
    (hcuda : world.cuda = some find) (cl : CommandLine)
    (hfind : ∀ o l r left right levels cleanness smoothness, cl = .parsed o → o.leftImage = some l → readImage world l = .ok left →
      readImage world r = .ok right → levelsOption left o.disparityLevels = .ok levels → Image.Meaningful left → Image.Meaningful right →
      left.width = right.width → left.height = right.height →
      ∀ c : ConstraintGraph F, c.Valid → c.Proper → c.disparityGraph = freshGraph left right levels cleanness smoothness →
        FailsWell allowed conv find sound c) :
    SameOrFailed D allowed (program world cl) (program { world with cuda := some sound } cl) := by
  cases cl with
  | repeated => exact .inl rfl
  | wrong => exact .inl rfl
  | parsed o =>
    unfold program
    dsimp only
    cases hout : o.outputImage <;> cases hleft : o.leftImage <;> cases hright : o.rightImage <;> try exact .inl rfl
    rename_i output l r
    dsimp only
    rcases chooseParallelism_other (find' := sound) hcuda o.parallel with h | ⟨h1, h2⟩
    · rw [h]
      exact .inl rfl
    rw [h1, h2]
    dsimp only
    unfold compute
    show SameOrFailed D allowed (handle [.cuda] (readGraph world o l r >>= _)) (handle [.cuda] (readGraph world o l r >>= _))
    cases hg : readGraph world o l r with
    | error e => exact .inl rfl
    | ok g =>
      obtain ⟨left, right, levels, cleanness, smoothness, k1, k2, k3, -, -, ha, hls, hrs, hsm, rfl⟩ := readGraph_ok hw hg
      rw [bind_ok, bind_ok]
      show SameOrFailed D allowed (handle [.cuda] (Par.labeledMap world.solve (fun _ => find) _ >>= _))
        (handle [.cuda] (Par.labeledMap world.solve (fun _ => sound) _ >>= _))
      unfold Par.labeledMap
      cases hsg : Par.solvedGraph world.solve (freshGraph left right levels cleanness smoothness) with
      | error e => exact .inl rfl
      | ok s =>
        obtain ⟨c, n⟩ := s
        rw [bind_ok, bind_ok]
        have hhj : (freshGraph left right levels cleanness smoothness).h + jobs.toNat ≤ 18446744073709551616 := by
          have hj := hw.jobs_small
          have hpos : 0 < left.width.toNat := by have := ha.2.2.1; have := ha.2.2.2.1; omega
          have hsz := hls.size
          have : left.height.toNat ≤ left.data.size := by rw [hsz]; exact Nat.le_mul_of_pos_left _ hpos
          have e : (freshGraph left right levels cleanness smoothness).h = left.height.toNat := by
            show right.height.toNat = _
            rw [ha.2.2.2.2.2.1]
          omega
        obtain ⟨c1, c2, c3⟩ := solvedGraph_runs hruns (freshGraph_valid hls hrs ha (accepted_fits ha hls hsm)).1 hw.jobs_pos hhj hsg
        obtain ⟨hcase, hres⟩ := hfind o l r left right levels cleanness smoothness rfl hleft k1 k2 k3 ha.1 ha.2.1 ha.2.2.2.2.1 ha.2.2.2.2.2.1 c c1 c2 c3
        dsimp only
        rcases hcase with ⟨e, rfl | he, h⟩ | ⟨flags, h, hpart⟩ | h
        · rw [h]; exact .inr (.inl rfl)
        · rw [h]
          obtain rfl := he.1
          exact .inr (.inr (.inr ⟨rfl, he⟩))
        · rcases partly_map c1 c2 hres hpart with hm | ⟨g, hg, hm⟩
          · right; right; left
            rw [h, bind_ok]
            simp only [Bool.not_true, Bool.false_eq_true, if_false]
            show handle [.cuda] ((buildDisparityMap _) >>= _) = _
            rw [hm]
            rfl
          · left
            rw [h, hg, bind_ok, bind_ok]
            simp only [Bool.not_true, Bool.false_eq_true, if_false]
            refine congrArg (fun m => handle [.cuda] (m >>= _)) ?_
            show (buildDisparityMap _) = buildDisparityMap g
            exact hm
        · rw [h]
          exact .inl rfl

variable {launch : Launcher D}

/-- **C102**. Whatever calls of CUDA fail, the program compiled without `assert` does what it does if no call fails, or writes nothing. -/
theorem C102_failures (hw : world.Reasonable jobs) (hruns : world.Runs B jobs) (hl : launch.Possible cspIterationCuda allowed) (trouble : Trouble)
    (hcuda : world.cuda = some (findLabelingRelease trouble best64 conv launch)) (cl : CommandLine) :
    SameOrFailed D allowed (program world cl) (program { world with cuda := some (findLabelingCuda conv launch) } cl) :=
  program_failing hw hruns hcuda cl fun _ _ _ _ _ _ _ _ _ _ _ _ _ _ _ _ _ _ hc hp _ => failsWell64 trouble conv hl hc hp

/-- The same for kernels that compute with 32 bits. -/
theorem C102_failures_32 (hw : world.Reasonable jobs) (hruns : world.Runs B jobs) (hl : launch.Possible Cuda.cspIteration allowed) (trouble : Trouble)
    (hcuda : world.cuda = some (findLabelingRelease trouble best32 conv launch)) (cl : CommandLine) (hfit : world.Fits32 cl) :
    SameOrFailed D allowed (program world cl) (program { world with cuda := some (Cuda.findLabeling conv launch) } cl) :=
  program_failing hw hruns hcuda cl fun o l r left right levels _ _ h1 h2 h3 h4 h5 m1 m2 e1 e2 c hc hp hg => failsWell32 trouble conv hl hc hp (by
    rw [hg]
    refine ⟨?_, readImage_intensities h3 m1, readImage_intensities h4 m2⟩
    have := hfit o l left levels h1 h2 h3 h5
    show right.width.toNat * right.height.toNat * 4 * levels.toNat ≤ 2 ^ 32
    rw [← e1, ← e2]
    exact this)

/-- If a file is written, then it is the one that is written without failures. -/
theorem C102_written (hw : world.Reasonable jobs) (hruns : world.Runs B jobs) (hl : launch.Possible Cuda.cspIteration allowed) (trouble : Trouble)
    (hcuda : world.cuda = some (findLabelingRelease trouble best32 conv launch)) (cl : CommandLine) (hfit : world.Fits32 cl) (out : Outcome)
    (h : program world cl = .ok out) (hout : out.written ≠ none) :
    program { world with cuda := some (Cuda.findLabeling conv launch) } cl = .ok out := by
  rcases C102_failures_32 hw hruns hl trouble hcuda cl hfit with h1 | h1 | h1 | ⟨h1, -⟩
  · rw [← h1]; exact h
  all_goals rw [h] at h1; cases h1
  all_goals exact absurd rfl hout

end

/-! ## `assert` -/
section
variable {conv : F → D} {launch : Launcher D} {trouble : Trouble}

/-- With `assert` the process may also be ended by it, but only if a call has failed. -/
theorem C102_assert (best : ConstraintGraph D → UInt64 → UInt64 → M (ConstraintGraph D)) (c : ConstraintGraph F) :
    findLabelingFailing true trouble best conv launch c = (findLabelingRelease trouble best conv launch c).map some ∨
    (findLabelingFailing true trouble best conv launch c = .ok none ∧ ¬ trouble.Calm) := by
  rw [← findLabelingFailing_some]
  exact findLabelingFailing_asserts c

/-- If no call fails, then the labeling is the same, whether `assert` is compiled or not. -/
theorem C102_calm (asserts : Bool) (h : trouble.Calm) (c : ConstraintGraph F) :
    findLabelingFailing asserts trouble best32 conv launch c = (Cuda.findLabeling conv launch c).map some :=
  findLabelingFailing_calm asserts h c

/-- If the device cannot be prepared (there is none, or it has no memory), then the message about CUDA is printed if `assert` is not compiled, and the
process is ended by `assert` otherwise. -/
theorem C102_prepare (best : ConstraintGraph D → UInt64 → UInt64 → M (ConstraintGraph D)) {c : ConstraintGraph F} (hc : c.Valid) {i : Nat} (hi : i < 13)
    (h : trouble.prepare i = .refused ∨ trouble.prepare i = .lost) :
    findLabelingFailing true trouble best conv launch c = .ok none ∧ findLabelingRelease trouble best conv launch c = .error .exit := by
  obtain ⟨h1, r, h2, h3⟩ := errchk_refused {} (vs := (List.range 13).map trouble.prepare)
    ⟨trouble.prepare i, List.mem_map.2 ⟨i, List.mem_range.2 hi, rfl⟩, h⟩
  have hw : 0 < (c.onDevice conv).disparityGraph.right.width.toNat := hc.graph.width_pos
  have hh : 0 < (c.onDevice conv).disparityGraph.right.height.toNat := hc.graph.height_pos
  constructor
  · unfold findLabelingFailing
    rw [h1]
    rfl
  · unfold findLabelingRelease findLabelingFailing
    rw [h2]
    dsimp only
    rw [cspSolutionFailing_last h3 hw hh]
    rfl

end

/-! ## Non-vacuity -/

section
variable {l l' : Launcher D}

theorem refines_failing (h : ∀ n d, Refines (· = .nonterm) (l n d) (l' n d)) (trouble : Trouble)
    (best : ConstraintGraph D → UInt64 → UInt64 → M (ConstraintGraph D)) (conv : F → D) (c : ConstraintGraph F) :
    Refines (· = .nonterm) (findLabelingRelease trouble best conv l c) (findLabelingRelease trouble best conv l' c) := by
  unfold findLabelingRelease findLabelingFailing
  refine .bind ?_ fun r => .refl _
  split
  · exact .refl _
  · unfold cspSolutionFailing
    refine .bind (.bind (Refines.cfor fun x s => ?_) fun r => .refl _) fun r => .refl _
    refine .bind (Refines.cfor fun y s => ?_) fun r => .refl _
    refine .bind (.refl _) fun _ => ?_
    dsimp only
    have hj : ∀ (v : Verdict) (r : Runtime) (d : Device D), Refines (· = .nonterm)
        (if r.executed v = true then (do let d ← l s.2.1 d; pure ((d, s.2.1 + 1, (r.call v).2), false)) else (do let d ← pure d; pure ((d, s.2.1 + 1, (r.call v).2), false)))
        (if r.executed v = true then (do let d ← l' s.2.1 d; pure ((d, s.2.1 + 1, (r.call v).2), false)) else (do let d ← pure d; pure ((d, s.2.1 + 1, (r.call v).2), false))) := by
      intro v r d
      split
      · exact .bind (h _ _) fun r => .refl _
      · exact .refl _
    split
    · exact .bind (.refl _) fun g => hj _ _ _
    · exact hj _ _ _

end

/-- The program with launches that are computed. -/
theorem failing_computed {o : Options} (hp : o.parallel = some (bytes "CUDA")) {trouble : Trouble} {out : Outcome}
    (h : program (cudaWorld (findLabelingRelease trouble best32 (Ieee.convert : Double → Single) (computed Cuda.cspIteration id floatTurns))) (.parsed o) = .ok out) :
    program (cudaWorld (findLabelingRelease trouble best32 (Ieee.convert : Double → Single) (.ofTurns Cuda.cspIteration id floatTurns))) (.parsed o) = .ok out := by
  have hn : (bytes "CUDA").map toLower = nameCuda := by decide +kernel
  have e : ∀ find, chooseParallelism (cudaWorld find) o.parallel = some ([.cuda], fun _ => find) := by
    intro find
    unfold chooseParallelism
    rw [hp]
    show (if (bytes "CUDA").map toLower = nameCuda then _ else _) = _
    rw [if_pos hn]
  unfold program at h ⊢
  simp only at h ⊢
  cases ho : o.outputImage <;> cases hl : o.leftImage <;> cases hr : o.rightImage <;> rw [ho, hl, hr] at h <;> try exact h
  rename_i output left right
  simp only [e] at h ⊢
  have hc : Refines (· = .nonterm)
      (compute (cudaWorld (findLabelingRelease trouble best32 (Ieee.convert : Double → Single) (.ofTurns Cuda.cspIteration id floatTurns))) o
        (fun _ => findLabelingRelease trouble best32 (Ieee.convert : Double → Single) (.ofTurns Cuda.cspIteration id floatTurns)) left right output)
      (compute (cudaWorld (findLabelingRelease trouble best32 (Ieee.convert : Double → Single) (computed Cuda.cspIteration id floatTurns))) o
        (fun _ => findLabelingRelease trouble best32 (Ieee.convert : Double → Single) (computed Cuda.cspIteration id floatTurns)) left right output) := by
    unfold compute
    refine .bind (.refl _) fun g => .bind ?_ fun im => .refl _
    unfold Par.labeledMap
    exact .bind (.refl _) fun r => .bind (refines_failing computed_refines _ _ _ _) fun s => .refl _
  rcases hc with ⟨_, rfl, hc⟩ | hc
  · rw [hc] at h; cases h
  · rw [hc]; exact h

/-- Nothing fails. -/
def calm : Trouble where
  prepare _ := .fine
  notice _ := false
  choose _ := .fine
  iterate _ := .fine
  noticeLast := false
  finish _ := .fine
  copied _ := false

/-- The program with a device whose calls may fail. -/
noncomputable def failingWorld (trouble : Trouble) : World Double :=
  cudaWorld (findLabelingRelease trouble best32 (Ieee.convert : Double → Single) (.ofTurns Cuda.cspIteration id floatTurns))

set_option maxRecDepth 1000000 in
/-- If flags cannot be copied from the device, then the program goes on (if `assert` is not compiled), says that it cannot find a label for a pixel, and its
status is 0. (`cdpErrchk` prints its message to the standard output; this message is not modelled.) -/
theorem C102_goes_on : program (failingWorld { calm with finish := fun i => if i = 1 then .refused else .fine }) (.parsed (weighted none none (some "CUDA"))) =
    .ok { exit := 0, out := [.cuda], err := [.logicError "Cannot find label for the pixel"] } :=
  failing_computed rfl (by decide +kernel)

set_option maxRecDepth 1000000 in
/-- A kernel is killed and this is not noticed at the last check. -/
example : program (failingWorld { calm with iterate := fun n => if n = 3 then .later else .fine }) (.parsed (weighted none none (some "CUDA"))) =
    .ok { exit := 0, out := [.cuda], err := [.logicError "Cannot find label for the pixel"] } :=
  failing_computed rfl (by decide +kernel)

set_option maxRecDepth 1000000 in
/-- A kernel cannot be launched. -/
example : program (failingWorld { calm with choose := fun n => if n = 2 then .refused else .fine }) (.parsed (weighted none none (some "CUDA"))) =
    .ok { exit := 0, out := [.cuda, .cudaFailure] } :=
  failing_computed rfl (by decide +kernel)

set_option maxRecDepth 1000000 in
/-- Memory cannot be freed: the map is written. -/
example : program (failingWorld { calm with finish := fun i => if i = 4 then .lost else .fine }) (.parsed (weighted none none (some "CUDA"))) =
    .ok { exit := 0, out := [.cuda], written := some (bytes "o", bytes "P2\n4 1\n3\n0 1 0 0\n") } :=
  failing_computed rfl (by decide +kernel)

/-- Hypotheses of C102 hold for these worlds. -/
example (trouble : Trouble) : (failingWorld trouble).Reasonable 1 ∧ (failingWorld trouble).Runs 64 1 ∧
    (failingWorld trouble).Fits32 (.parsed (weighted none none (some "CUDA"))) ∧
    SameOrFailed Single (· = id) (program (failingWorld trouble) (.parsed (weighted none none (some "CUDA"))))
      (.ok { exit := 0, out := [.cuda], written := some (bytes "o", bytes "P2\n4 1\n3\n0 1 0 0\n") }) := by
  have hw : (failingWorld trouble).Reasonable 1 := ⟨by show 1000 < 2147483648; decide, by decide, by decide, fun _ => rfl⟩
  refine ⟨hw, .inr rfl, cudaWorld_fits _ _, ?_⟩
  rw [← cuda_computed (o := weighted none none (some "CUDA")) rfl cuda_small]
  exact C102_failures_32 (B := 64) hw (.inr rfl) (Launcher.ofTurns_possible (allowed := (· = id)) (group := id) rfl _) trouble rfl _ (cudaWorld_fits _ _)

end SP
