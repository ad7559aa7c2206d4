import Verif.Lemmas.Greedy
import Verif.Props.Labeling
/-!
# The disparity map of a concurrent computation
-/
set_option linter.unusedSectionVars false

namespace SP
open FloatOps ConstraintGraph

variable {F : Type} [FloatOps F] [LawfulFloat F] {g : DisparityGraph F} {p : LowestPenalties F} {B : Nat} {jobs : UInt64}
  {solve : Solver F} {c c' : ConstraintGraph F}

theorem DisparityGraph.FeasibleAt.mono {t t' : F} {L : Nat → Nat → Nat} (h : g.FeasibleAt t L) (ht : le t t' = true) :
    g.FeasibleAt t' L := by
  intro x y hx hy
  obtain ⟨h1, h2, h3⟩ := h x y hx hy
  exact ⟨h1, fun d hd => LawfulFloat.le_trans _ _ _ (h2 d hd) ht,
    fun k hk => ⟨(h3 k hk).1, fun d d' he => LawfulFloat.le_trans _ _ _ ((h3 k hk).2 d d' he) ht⟩⟩

/-- The map of a graph in which each pixel has one node and all of them are joined: a feasible labeling. -/
theorem map_of_single (hg : g.Fresh) (hp : Tables g p) {t : F} {c0 : ConstraintGraph F}
    (h0 : mkConstraintGraph g p t = .ok c0) (hsame : c0.Same c) (hc : c.Valid) (hsub : Sub c.Av c0.Av)
    (hal : AllAlive g.w g.h c.Av) (harc : ArcConsistent g.w g.h c0.E c.Av) (hsg : c.Single) :
    Ok (buildDisparityMap c) fun im => im.width = g.right.width ∧ im.height = g.right.height ∧
      im.maxValue = g.disparityLevels ∧ im.data.size = g.w * g.h ∧ g.FeasibleAt t (fun x y => im.at x y) ∧
      ∀ x y, x < g.w → y < g.h → c.Av x y (im.at x y) := by
  obtain ⟨c0', hc0, a1, a2, a3, a4, a5, -, a7⟩ := start_mk hg hp t
  rw [h0] at hc0
  cases hc0
  have ew0 : c0.w = g.w := by unfold ConstraintGraph.w; rw [a4]
  have eh0 : c0.h = g.h := by unfold ConstraintGraph.h; rw [a4]
  have ew : c.w = g.w := by rw [hsame.w_eq, ew0]
  have eh : c.h = g.h := by rw [hsame.h_eq, eh0]
  have eg : c.disparityGraph = g := by rw [hsame.1, a4]
  rcases buildDisparityMap_mk hc (hsame.proper a2 hsub) with ⟨-, im, h, h1, h2, h3, h4, h5⟩ | ⟨hno, -⟩
  · refine ⟨im, h, ?_⟩
    rw [eg] at h1 h2 h3
    rw [ew, eh] at h4 h5
    refine ⟨h1, h2, h3, h4, ?_, fun x y hx hy => (h5 x y hx hy).1⟩
    refine (feasible_iff_consistent hg a3 a4 a5 a7).1 ?_
    rw [ew0, eh0]
    intro x y hx hy
    refine ⟨hsub _ _ _ (h5 x y hx hy).1, fun k hk => ?_⟩
    obtain ⟨d', h6, h7⟩ := harc x y _ (h5 x y hx hy).1 k hk
    simp only
    rwa [hsg _ _ _ _ (h5 _ _ hk.nbx_lt hk.nby_lt).1 h6]
  · rw [ew, eh] at hno
    exact absurd hal hno

/-- A graph found not solvable has no feasible labeling. -/
theorem par_infeasible (hs : solve.Possible B jobs) (hg : g.Fresh) (hp : Tables g p) (hj : 0 < jobs.toNat)
    (hfit : g.h + jobs.toNat ≤ 18446744073709551616) (n : Nat) (t : F) :
    Res (Hangs solve B jobs) (do let c ← mkConstraintGraph g p t; solve n c) fun r =>
      r.2 = false → ¬ ∃ L, g.FeasibleAt t L := by
  refine Res.bind (start_mk hg hp t).res ?_
  rintro c ⟨h1, h2, h3, h4, h5, -, h6⟩
  have hfit' : c.h + jobs.toNat ≤ 18446744073709551616 := by unfold ConstraintGraph.h; rw [h4]; exact hfit
  refine (solver_res hs hj n h1 h2 hfit').mono ?_
  rintro ⟨c', b⟩ hto hb ⟨L, hL⟩
  have hL' := (feasible_iff_consistent hg h3 h4 h5 h6).2 hL
  have harc := hL'.arc fun x y k hk => ⟨hk.nbx_lt, hk.nby_lt⟩
  have hal : AllAlive c.w c.h (labelingNodes c.w c.h L) := fun x y hx hy => ⟨L x y, hx, hy, rfl⟩
  have := (hto.keeps h1 hj hfit' h2 hL'.sub harc hal).1
  simp only at hb this
  rw [hb] at this
  cases this

/-- The search for the threshold. -/
theorem par_minimalThreshold (hs : solve.Possible B jobs) (hg : g.Fresh) (hj : 0 < jobs.toNat)
    (hfit : g.h + jobs.toNat ≤ 18446744073709551616) :
    Res (Hangs solve B jobs) (Par.minimalThreshold solve g) fun r => Tables g r.1 ∧ r.2.1 ∈ r.1.fetch ∧
      (∀ t, lt t r.2.1 = true → ¬ ∃ L, g.FeasibleAt t L) ∧ ∀ k, r.1.fetch.length ≤ 2 ^ k → r.2.2 ≤ k := by
  unfold Par.minimalThreshold
  refine Res.bind (tables_mk hg).res fun p hp => ?_
  rw [fetchAvailablePenalties_mk hp.valid, bind_ok]
  refine Res.bind (par_calculateMinimalConsistentThreshold (solve := solve) (p := p) (g := g) (arr := p.fetch.toArray)
    (bad := fun i => ∃ hi : i < p.fetch.length, ¬ ∃ L, g.FeasibleAt p.fetch[i] L) ?_ ?_ ?_ ?_) ?_
  · intro n i hi
    have hi' : i < p.fetch.length := by simpa using hi
    refine (par_infeasible hs hg hp hj hfit n _).mono fun r hr hb => ⟨hi', ?_⟩
    simpa using hr hb
  · rintro i j hij ⟨hj, hno⟩
    refine ⟨by omega, ?_⟩
    rintro ⟨L, hL⟩
    refine hno ⟨L, hL.mono ?_⟩
    rcases Nat.lt_or_eq_of_le hij with h | rfl
    · exact LawfulFloat.lt_le (List.pairwise_iff_getElem.1 fetch_ascending i j (by omega) hj h)
    · exact LawfulFloat.le_refl _
  · simpa using List.length_pos_of_ne_nil (fetch_ne_nil hp.valid)
  · simpa using fetch_length hg hp
  · rintro ⟨t, calls⟩ ⟨k, hk, h1, h2, h3⟩
    have hk' : k < p.fetch.length := by simpa using hk
    simp only [List.getElem_toArray] at h1
    subst h1
    refine ⟨hp, List.getElem_mem _, ?_, fun n hn => h3 n (by simpa using hn)⟩
    rintro t ht ⟨L, hL⟩
    obtain ⟨a, ha, hat, hLa⟩ := feasible_candidate hg hp hL
    obtain ⟨i, hi, rfl⟩ := List.getElem_of_mem ha
    have hlt : lt p.fetch[i] p.fetch[k] = true := LawfulFloat.lt_of_le_of_lt hat ht
    have hik : i < k := by
      refine Classical.byContradiction fun hn => ?_
      have hle : le p.fetch[k] p.fetch[i] = true := by
        rcases Nat.lt_or_eq_of_le (Nat.le_of_not_lt hn) with h | h
        · exact LawfulFloat.lt_le (List.pairwise_iff_getElem.1 fetch_ascending k i hk' hi h)
        · subst h; exact LawfulFloat.le_refl _
      rw [LawfulFloat.lt_iff, hle] at hlt
      cases hlt
    obtain ⟨_, hno⟩ := h2 i hik
    exact hno ⟨L, hLa⟩

/-- Sets of nodes that are never removed from a graph at the start, without reference to the graph of constraints. -/
theorem keepable_iff_local (hg : g.Fresh) {t : F} (hc : c.Plain) (hcg : c.disparityGraph = g) (ht : c.threshold = t)
    (hav : ∀ x y d, c.Av x y d ↔ g.IsNode x y d ∧ le (sub (g.nodeQ x y d) (g.lowPixel x y)) t = true) {T : NodeSet} :
    Keepable c T ↔ g.LocalAt t T := by
  have ew : c.w = g.w := by unfold ConstraintGraph.w; rw [hcg]
  have eh : c.h = g.h := by unfold ConstraintGraph.h; rw [hcg]
  constructor
  · rintro ⟨h1, h2, h3⟩
    rw [ew, eh] at h2 h3
    refine ⟨fun x y d hd => ?_, fun x y d hd k hk => ?_, h3⟩
    · have := (hav x y d).1 (h1 _ _ _ hd)
      exact ⟨this.1, (node_iff hg this.1).1 this.2⟩
    · obtain ⟨d', q1, q2⟩ := h2 x y d hd k hk
      exact ⟨d', q1, (edge_iff hg hc hcg ht hk).1 q2⟩
  · rintro ⟨h1, h2, h3⟩
    refine ⟨fun x y d hd => ?_, fun x y d hd k hk => ?_, by rw [ew, eh]; exact h3⟩
    · have := h1 x y d hd
      exact (hav x y d).2 ⟨this.1, (node_iff hg this.1).2 this.2⟩
    · rw [ew, eh] at hk
      obtain ⟨d', q1, q2⟩ := h2 x y d hd k hk
      exact ⟨d', q1, (edge_iff hg hc hcg ht hk).2 q2⟩

/-- What is known about the graph after the threshold has been found and the graph for it has been solved. -/
structure Solved (g : DisparityGraph F) (t : F) (c : ConstraintGraph F) : Prop where
  valid : c.Valid
  proper : c.Proper
  start : ∃ p c0, Tables g p ∧ mkConstraintGraph g p t = .ok c0 ∧ c0.Same c ∧ Sub c.Av c0.Av
  w_eq : c.w = g.w
  h_eq : c.h = g.h
  least : ∀ t' L, g.FeasibleAt t' L → le t t' = true
  keeps : ∀ L, g.FeasibleAt t L → Sub (labelingNodes g.w g.h L) c.Av
  keepable : ∀ T, Keepable c T ↔ g.LocalAt t T

theorem par_solvedGraph (hs : solve.Possible B jobs) (hg : g.Fresh) (hj : 0 < jobs.toNat)
    (hfit : g.h + jobs.toNat ≤ 18446744073709551616) :
    Res (fun e => Hangs solve B jobs e ∨ ∃ what, e = .exc (.logicError what)) (Par.solvedGraph solve g) fun r =>
      ∃ t, Solved g t r.1 ∧ Res (fun _ => False) (Par.minimalThreshold solve g) fun r => r.2.1 = t := by
  unfold Par.solvedGraph
  have hmt := par_minimalThreshold hs hg hj hfit
  cases hm : Par.minimalThreshold solve g with
  | error e => rw [hm] at hmt; exact .inl hmt
  | ok r =>
    obtain ⟨p, t, calls⟩ := r
    rw [hm] at hmt
    obtain ⟨htab, -, hmin, -⟩ := hmt
    simp only at htab hmin
    obtain ⟨c0, hc0, a1, a2, a3, a4, a5, -, a7⟩ := start_mk hg htab t
    simp only [bind_ok, hc0]
    have eh0 : c0.h = g.h := by unfold ConstraintGraph.h; rw [a4]
    have ew0 : c0.w = g.w := by unfold ConstraintGraph.w; rw [a4]
    have hfit0 : c0.h + jobs.toNat ≤ 18446744073709551616 := by rw [eh0]; exact hfit
    have h1 := solver_res hs hj calls a1 a2 hfit0
    cases hc1 : solve calls c0 with
    | error e => rw [hc1] at h1; exact .inl h1
    | ok r =>
      obtain ⟨c1, b1⟩ := r
      rw [hc1] at h1
      have h1' : SolveTo B jobs c0 c1 b1 := h1
      obtain ⟨k1, k2, k3⟩ := h1'.basic a1 hj hfit0
      rw [bind_ok]
      cases b1
      · exact .inr ⟨_, rfl⟩
      · refine ⟨t, ⟨k2, k1.proper a2 k3, ⟨p, c0, htab, hc0, k1, k3⟩, by rw [k1.w_eq, ew0], by rw [k1.h_eq, eh0],
          fun t' L hL => ?_, fun L hL => ?_, fun T => ?_⟩, rfl⟩
        · cases hle : le t t'
          · exact absurd ⟨L, hL⟩ (hmin t' ((LawfulFloat.lt_iff _ _).2 hle))
          · rfl
        · have hL' := (feasible_iff_consistent hg a3 a4 a5 a7).2 hL
          have := (h1'.keeps a1 hj hfit0 a2 hL'.sub (hL'.arc fun x y k hk => ⟨hk.nbx_lt, hk.nby_lt⟩)
            fun x y hx hy => ⟨L x y, hx, hy, rfl⟩).2
          rwa [ew0, eh0] at this
        · rw [← keepable_iff_local hg a3 a4 a5 a7]
          constructor
          · rintro ⟨q1, q2, q3⟩
            rw [k1.w_eq, k1.h_eq] at q2 q3
            rw [k1.E_eq] at q2
            exact ⟨q1.trans k3, q2, q3⟩
          · rintro ⟨q1, q2, q3⟩
            refine ⟨(h1'.keeps a1 hj hfit0 a2 q1 q2 q3).2, ?_, ?_⟩
            · rw [k1.w_eq, k1.h_eq, k1.E_eq]; exact q2
            · rw [k1.w_eq, k1.h_eq]; exact q3

/-- What a function that finds a labeling has to leave. -/
structure GoodLabel (c c' : ConstraintGraph F) : Prop where
  same : c.Same c'
  valid : c'.Valid
  sub : Sub c'.Av c.Av
  single : c'.Single
  arc : AllAlive c.w c.h c'.Av → ArcConsistent c.w c.h c.E c'.Av
  chosen : ChosenUpTo c c.w 0 c'.Av

/-- The map of a labeling found for a solved graph. -/
theorem Solved.map (hg : g.Fresh) {t : F} {c : ConstraintGraph F} (h : Solved g t c) {c' : ConstraintGraph F} (hl : GoodLabel c c') :
    Res (fun e => ∃ what, e = .exc (.logicError what)) (buildDisparityMap c') fun im =>
      im.width = g.right.width ∧ im.height = g.right.height ∧ im.maxValue = g.disparityLevels ∧
      im.data.size = g.w * g.h ∧ LexBest g.w g.h g.nodeQ (g.FeasibleAt t) (fun x y => im.at x y) ∧
      Reachable c (fun x y => im.at x y) := by
  obtain ⟨p, c0, htab, hc0, k1, k3⟩ := h.start
  obtain ⟨c0', hc0', a1, a2, a3, a4, a5, -, a7⟩ := start_mk hg htab t
  rw [hc0] at hc0'
  cases hc0'
  rcases buildDisparityMap_mk hl.valid (hl.same.proper h.proper hl.sub) with ⟨hal, -⟩ | ⟨-, he⟩
  · rw [hl.same.w_eq, hl.same.h_eq] at hal
    have harc := hl.arc hal
    rw [h.w_eq, h.h_eq] at hal
    rw [h.w_eq, h.h_eq, k1.E_eq] at harc
    refine ((map_of_single hg htab hc0 (k1.trans hl.same) hl.valid (hl.sub.trans k3) hal harc hl.single).mono ?_).res
    rintro im ⟨q1, q2, q3, q4, q5, q6⟩
    refine ⟨q1, q2, q3, q4, ?_⟩
    have hiff : ∀ L, Consistent c.w c.h c.E c.Av L ↔ g.FeasibleAt t L := by
      intro L
      rw [← feasible_iff_consistent hg a3 a4 a5 a7, k1.E_eq, k1.w_eq, k1.h_eq]
      constructor
      · exact fun hL x y hx hy => ⟨k3 _ _ _ (hL x y hx hy).1, (hL x y hx hy).2⟩
      · intro hL x y hx hy
        have := h.keeps L ((feasible_iff_consistent hg a3 a4 a5 a7).1 hL)
        rw [← h.w_eq, ← h.h_eq, k1.w_eq, k1.h_eq] at this
        exact ⟨this _ _ _ ⟨hx, hy, rfl⟩, (hL x y hx hy).2⟩
    have hreach := hl.chosen.reachable h.valid ((hiff _).2 q5) (by rw [h.w_eq, h.h_eq]; exact q6)
    refine ⟨?_, hreach⟩
    have := hl.chosen.lexBest ((hiff _).2 q5) (by rw [h.w_eq, h.h_eq]; exact q6)
    rw [h.w_eq, h.h_eq, show c.disparityGraph = g by rw [k1.1, a4]] at this
    refine this.congr fun L => ?_
    rw [← hiff L, h.w_eq, h.h_eq]
  · rw [he]
    exact ⟨_, rfl⟩

theorem Solved.graph_eq (hg : g.Fresh) {t : F} (h1 : Solved g t c) : c.disparityGraph = g := by
  obtain ⟨p, c0, htab, hc0, k1, -⟩ := h1.start
  obtain ⟨c0', hc0', -, -, -, a4, -⟩ := start_mk hg htab t
  rw [hc0] at hc0'
  cases hc0'
  rw [k1.1, a4]

/-- What can be found is the map of the best nodes. -/
theorem Solved.greedy (hg : g.Fresh) {t : F} (h : Solved g t c) {im : Image} (hb : BestMap g t im)
    (hr : Reachable c fun x y => im.at x y) : GreedyMap g t im where
  toBestMap := hb
  greedy T hT x y hx hy hall d hd := by
    have := hr.best x y (by rw [h.w_eq]; exact hx) (by rw [h.h_eq]; exact hy) T ((h.keepable T).2 hT) hall d hd
    unfold NotWorse at this
    rwa [h.graph_eq hg] at this

/-- The labeling when there is a map. -/
theorem GoodLabel.labeling {c' : ConstraintGraph F} (h : GoodLabel c c') (hp : c.Proper) {im : Image} (him : buildDisparityMap c' = .ok im) :
    ∃ L, Consistent c.w c.h c.E c.Av L ∧ c'.Av = labelingNodes c.w c.h L := by
  rcases buildDisparityMap_mk h.valid (h.same.proper hp h.sub) with ⟨hal, im', h0, -, -, -, -, h5⟩ | ⟨-, he⟩
  · rw [h.same.w_eq, h.same.h_eq] at hal h5
    have harc := h.arc hal
    refine ⟨fun x y => im'.at x y, fun x y hx hy => ⟨h.sub _ _ _ (h5 x y hx hy).1, fun k hk => ?_⟩, ?_⟩
    · obtain ⟨d', hd', he⟩ := harc x y _ (h5 x y hx hy).1 k hk
      simp only
      rwa [h.single _ _ _ _ (h5 _ _ hk.nbx_lt hk.nby_lt).1 hd']
    · funext x y d
      refine propext ⟨fun hd => ?_, ?_⟩
      · obtain ⟨hx, hy, -⟩ := h.sub _ _ _ hd
        exact ⟨hx, hy, h.single _ _ _ _ hd (h5 x y hx hy).1⟩
      · rintro ⟨hx, hy, rfl⟩
        exact (h5 x y hx hy).1
  · rw [him] at he
    cases he

/-- The whole computation with any function that finds a labeling. -/
theorem par_labeledMap {E : Err → Prop} {label : Nat → ConstraintGraph F → M (ConstraintGraph F × Bool)}
    (hs : solve.Possible B jobs) (hg : g.Fresh) (hj : 0 < jobs.toNat) (hfit : g.h + jobs.toNat ≤ 18446744073709551616)
    (hl : ∀ n c, c.Valid → c.Proper → c.disparityGraph = g → Res E (label n c) fun r => r.2 = true → GoodLabel c r.1) :
    Res (fun e => Hangs solve B jobs e ∨ (∃ what, e = .exc (.logicError what)) ∨ E e) (Par.labeledMap solve label g) fun im =>
      ∃ t, GreedyMap g t im ∧ Res (fun _ => False) (Par.minimalThreshold solve g) fun r => r.2.1 = t := by
  unfold Par.labeledMap
  refine Res.bind ((par_solvedGraph hs hg hj hfit).weaken fun e he => he.imp_right .inl) ?_
  rintro ⟨c1, calls⟩ ⟨t, h1, ht⟩
  simp only at h1
  have hgr := h1.graph_eq hg
  refine Res.bind ((hl calls c1 h1.valid h1.proper hgr).weaken fun e he => .inr (.inr he)) ?_
  rintro ⟨c2, b2⟩ h2
  simp only at h2
  cases b2
  · exact .inr (.inl ⟨_, rfl⟩)
  · simp only [Bool.not_true, Bool.false_eq_true, if_false]
    refine ((h1.map hg (h2 rfl)).weaken fun e he => .inr (.inl he)).mono ?_
    rintro im ⟨q1, q2, q3, q4, q5, q6⟩
    exact ⟨t, h1.greedy hg ⟨q1, q2, q3, q4, q5, h1.least⟩ q6, ht⟩

/-- The image has the size of the images of `g`, and its values are disparities. -/
structure SizedMap (g : DisparityGraph F) (im : Image) : Prop where
  width : im.width = g.right.width
  height : im.height = g.right.height
  levels : im.maxValue = g.disparityLevels
  size : im.data.size = g.w * g.h
  below : ∀ x y, x < g.w → y < g.h → im.at x y < g.levels

/-- The whole computation with any function that only makes nodes unavailable. -/
theorem par_labeledMap_sized {E : Err → Prop} {label : Nat → ConstraintGraph F → M (ConstraintGraph F × Bool)}
    (hs : solve.Possible B jobs) (hg : g.Fresh) (hj : 0 < jobs.toNat) (hfit : g.h + jobs.toNat ≤ 18446744073709551616)
    (hl : ∀ n c, c.Valid → c.Proper → c.disparityGraph = g →
      Res E (label n c) fun r => c.Same r.1 ∧ r.1.Valid ∧ Sub r.1.Av c.Av) :
    Res (fun e => Hangs solve B jobs e ∨ (∃ what, e = .exc (.logicError what)) ∨ E e) (Par.labeledMap solve label g) (SizedMap g) := by
  unfold Par.labeledMap
  refine Res.bind ((par_solvedGraph hs hg hj hfit).weaken fun e he => he.imp_right .inl) ?_
  rintro ⟨c1, calls⟩ ⟨t, h1, ht⟩
  simp only at h1
  have hgr := h1.graph_eq hg
  refine Res.bind ((hl calls c1 h1.valid h1.proper hgr).weaken fun e he => .inr (.inr he)) ?_
  rintro ⟨c2, b2⟩ ⟨k1, k2, k3⟩
  simp only at k1 k2 k3
  cases b2
  · exact .inr (.inl ⟨_, rfl⟩)
  · simp only [Bool.not_true, Bool.false_eq_true, if_false]
    have hp2 := k1.proper h1.proper k3
    have hgr2 : c2.disparityGraph = g := by rw [← hgr]; exact k1.1
    rcases buildDisparityMap_mk k2 hp2 with ⟨-, im, h0, q1, q2, q3, q4, q5⟩ | ⟨-, he⟩
    · rw [h0]
      rw [hgr2] at q1 q2 q3
      rw [k1.w_eq, k1.h_eq, h1.w_eq, h1.h_eq] at q4 q5
      refine ⟨q1, q2, q3, q4, fun x y hx hy => ?_⟩
      have := (q5 x y hx hy).1.2.2.1
      have e : c2.levels = g.levels := by unfold ConstraintGraph.levels; rw [hgr2]
      rwa [← e]
    · rw [he]
      exact .inr (.inl ⟨_, rfl⟩)

/-- What is found by the processor. -/
theorem par_labelCpu (hs : solve.Possible B jobs) (hg : g.Fresh) (hj : 0 < jobs.toNat) (hfit : g.h + jobs.toNat ≤ 18446744073709551616)
    (n : Nat) (hc : c.Valid) (hp : c.Proper) (hgr : c.disparityGraph = g) :
    Res (Hangs solve B jobs) (Par.labelCpu solve n c) fun r => r.2 = true → GoodLabel c r.1 := by
  have hfit' : c.h + jobs.toNat ≤ 18446744073709551616 := by unfold ConstraintGraph.h; rw [hgr]; exact hfit
  unfold Par.labelCpu
  have h1 := par_findLabeling hs hc hp hj hfit' n
  have h2 := par_findLabeling_chosen hs hc hp (by rw [hgr]; exact nodeQ_nonneg hg) hj hfit' n
  revert h1 h2
  cases Par.findLabeling solve n c with
  | error e => exact fun h _ => h
  | ok r =>
    rintro ⟨m1, m2, m3, m4⟩ h5 hb
    obtain ⟨-, harc, hsg⟩ := m4 hb
    exact ⟨m1, m2, m3, hsg, fun _ => harc, h5 hb⟩

omit [LawfulFloat F] in
theorem disparityMap_labeled (solve : Solver F) (g : DisparityGraph F) :
    Par.disparityMap solve g = Par.labeledMap solve (Par.labelCpu solve) g := by
  unfold Par.disparityMap Par.labeledMap Par.labelCpu
  cases Par.solvedGraph solve g with
  | error e => rfl
  | ok r =>
    obtain ⟨c, calls⟩ := r
    simp only [bind_ok]
    cases Par.findLabeling solve calls c with
    | error e => rfl
    | ok r => rfl

/-- The whole computation. -/
theorem par_disparityMap (hs : solve.Possible B jobs) (hg : g.Fresh) (hj : 0 < jobs.toNat)
    (hfit : g.h + jobs.toNat ≤ 18446744073709551616) :
    Res (fun e => Hangs solve B jobs e ∨ ∃ what, e = .exc (.logicError what)) (Par.disparityMap solve g) fun im =>
      ∃ t, GreedyMap g t im ∧ Res (fun _ => False) (Par.minimalThreshold solve g) fun r => r.2.1 = t := by
  rw [disparityMap_labeled]
  refine (par_labeledMap hs hg hj hfit fun n c => par_labelCpu hs hg hj hfit n).weaken ?_
  rintro e (h | h | h)
  · exact .inl h
  · exact .inr h
  · exact .inl h

end SP
