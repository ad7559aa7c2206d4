import Verif.Lemmas.Constraint
import Verif.Lemmas.Float
import Verif.Model.Lowest
/-!
# Refinement of the lowest penalties
-/
set_option linter.unusedSectionVars false

namespace SP
open FloatOps

/-- A loop whose body always computes a function of the state and of the counter is a fold. -/
theorem cfor_fold {σ : Type} {fuel : Nat} {i : UInt64} {cond : UInt64 → Bool}
    {body : UInt64 → σ → M (σ × Bool)} {s : σ} (lo n : Nat) (f : σ → Nat → σ)
    (hi : i = UInt64.ofNat lo) (hfuel : n - lo ≤ fuel)
    (hcond : ∀ k, lo ≤ k → k ≤ max lo n → cond (UInt64.ofNat k) = decide (k < n))
    (hbody : ∀ k s, lo ≤ k → k < n → body (UInt64.ofNat k) s = .ok (f s k, false)) :
    cfor fuel i cond inc body s = .ok ((List.range' lo (n - lo)).foldl f s) := by
  refine cfor_rule lo n (fun k s' => s' = (List.range' lo (k - lo)).foldl f s)
    (fun m => m = .ok ((List.range' lo (n - lo)).foldl f s)) hi hfuel hcond ?_ ?_ ?_
  · simp
  · rintro k s' h1 h2 rfl
    refine .inr (.inr ⟨_, hbody k _ h1 h2, ?_⟩)
    rw [show k + 1 - lo = (k - lo) + 1 by omega, List.range'_concat, List.foldl_append]
    simp only [List.foldl_cons, List.foldl_nil, Nat.one_mul]
    rw [show lo + (k - lo) = k by omega]
  · rintro s' rfl
    rw [show max lo n - lo = n - lo by omega]

/-- The first disparity of the neighbor visited by the loops over edges. -/
def scanLo (x x' d : Nat) : Nat := if d ≤ 1 ∨ x' = x then 0 else d - 1

theorem scanLo_of_ne {x x' : Nat} (h : x' ≠ x) (d : Nat) : scanLo x x' d = d - 1 := by
  unfold scanLo; split <;> omega

theorem scanLo_self (x d : Nat) : scanLo x x d = 0 := by simp [scanLo]

variable {F : Type} [FloatOps F] {g : DisparityGraph F}

/-- The pairs of disparities visited by the loops over edges. -/
def DisparityGraph.scan (g : DisparityGraph F) (x y k : Nat) : List (Nat × Nat) :=
  (List.range' 0 (min g.levels (g.w - x))).flatMap fun d =>
    (List.range' (scanLo x (nbx x k) d) (min g.levels (g.w - nbx x k) - scanLo x (nbx x k) d)).map (d, ·)

theorem mem_scan {x y k d d' : Nat} (hk : HasNb g.w g.h x y k) :
    (d, d') ∈ g.scan x y k ↔ g.IsNode x y d ∧ g.IsNode (nbx x k) (nby y k) d' ∧ scanLo x (nbx x k) d ≤ d' := by
  have h1 := hk.1
  have h2 := hk.2.1
  have h3 := hk.nbx_lt
  have h4 := hk.nby_lt
  unfold DisparityGraph.scan DisparityGraph.IsNode
  simp only [List.mem_flatMap, List.mem_range'_1, List.mem_map, Prod.mk.injEq]
  constructor
  · rintro ⟨e, he, e', he', rfl, rfl⟩
    omega
  · rintro ⟨a, b, c⟩
    exact ⟨d, by omega, d', by omega, rfl, rfl⟩

/-- Value computed by `calculate_lowest_pixel_penalty`. -/
def DisparityGraph.lowPixel (g : DisparityGraph F) (x y : Nat) : F :=
  (List.range' 0 (min g.levels (g.w - x))).foldl (fun m d => min' (g.nodeQ x y d) m) (g.nodeQ x y 0)

/-- Value computed by `calculate_lowest_neighborhood_penalty_fast`. -/
def DisparityGraph.lowEdge (g : DisparityGraph F) (x y k : Nat) : F :=
  (g.scan x y k).foldl (fun m p => min' (g.edgeQ x y k p.1 p.2) m) (g.edgeQ x y k 0 0)

theorem calculateLowestPixelPenalty_mk (hg : g.Valid) {x y : Nat} (hx : x < g.w) (hy : y < g.h) :
    calculateLowestPixelPenalty g (mkPixel x y) = .ok (g.lowPixel x y) := by
  have hb := hg.bounds
  have h1 := hb.bw
  have h3 := hb.bl
  have hwl : g.left.width.toNat = g.w := by rw [hg.width_eq]; rfl
  have hll : g.disparityLevels.toNat = g.levels := rfl
  have h0 : nodePenalty g { pixel := mkPixel x y, disparity := 0 } = .ok (g.nodeQ x y 0) :=
    nodePenalty_mk hg ⟨hx, hy, hg.levels_pos, by omega⟩
  unfold calculateLowestPixelPenalty
  rw [h0, bind_ok]
  refine cfor_fold 0 (min g.levels (g.w - x)) (fun m d => min' (g.nodeQ x y d) m) rfl ?_ ?_ ?_
  · rw [hll]; omega
  · intro k _ hk
    have : (mkPixel x y).x = UInt64.ofNat x := rfl
    simp only [this]
    rw [cond_two (by omega), hwl, hll]
  · intro d m _ hd
    have : nodePenalty g { pixel := mkPixel x y, disparity := UInt64.ofNat d } = .ok (g.nodeQ x y d) :=
      nodePenalty_mk hg ⟨hx, hy, by omega, by omega⟩
    simp only [this, bind_ok, pure_eq_ok]

theorem initialDisparity_mk {x y x' y' d : Nat} (hx : x < 18446744073709551616) (hx' : x' < 18446744073709551616)
    (hd : d < 18446744073709551616) :
    initialDisparity (mkPixel x y) (mkPixel x' y') (UInt64.ofNat d) = UInt64.ofNat (scanLo x x' d) := by
  unfold initialDisparity scanLo
  have c1 : (mkPixel x' y').x = (mkPixel x y).x ↔ x' = x := by
    simp only [mkPixel]; exact ofNat_inj hx' hx
  have c2 : UInt64.ofNat d ≤ 1 ↔ d ≤ 1 := by
    rw [UInt64.le_iff_toNat_le, toNat_ofNat_lt hd]; rfl
  simp only [c1, c2]
  by_cases h : d ≤ 1 ∨ x' = x
  · rw [if_pos h, if_pos h]; rfl
  · rw [if_neg h, if_neg h]; exact ofNat_pred (by omega)

theorem scanLo_le (x x' d : Nat) : scanLo x x' d ≤ d := by unfold scanLo; split <;> omega

theorem foldl_flatMap_map {σ : Type} (f : σ → Nat → Nat → σ) (g : Nat → List Nat) (l : List Nat) (s : σ) :
    l.foldl (fun s d => (g d).foldl (fun s d' => f s d d') s) s
      = (l.flatMap fun d => (g d).map (d, ·)).foldl (fun s p => f s p.1 p.2) s := by
  induction l generalizing s with
  | nil => rfl
  | cons a l ih =>
    simp only [List.foldl_cons, List.flatMap_cons, List.foldl_append, List.foldl_map]
    exact ih _

/-- The loops over pairs of disparities, for a body that computes a function of the penalty. -/
theorem edgeLoop_mk {σ : Type} (hg : g.Valid) {x y k : Nat} (hk : HasNb g.w g.h x y k) (f : σ → F → σ) (s : σ) :
    cfor g.disparityLevels.toNat 0
      (fun d => decide ((mkPixel x y).x + d < g.left.width) && decide (d < g.disparityLevels)) inc
      (fun d (s : σ) => do
        let s ← cfor g.disparityLevels.toNat
          (initialDisparity (mkPixel x y) (mkPixel (nbx x k) (nby y k)) d)
          (fun d' => decide ((mkPixel (nbx x k) (nby y k)).x + d' < g.left.width)
            && decide (d' < g.disparityLevels)) inc
          (fun d' (s : σ) => do
            let p ← edgePenalty g
              { node := { pixel := mkPixel x y, disparity := d }
                neighbor := { pixel := mkPixel (nbx x k) (nby y k), disparity := d' } }
            return (f s p, false))
          s
        return (s, false)) s
      = .ok ((g.scan x y k).foldl (fun s p => f s (g.edgeQ x y k p.1 p.2)) s) := by
  have hb := hg.bounds
  have h1 := hb.bw
  have h3 := hb.bl
  have hx := hk.1
  have hx' := hk.nbx_lt
  have hwl : g.left.width.toNat = g.w := by rw [hg.width_eq]; rfl
  have hll : g.disparityLevels.toNat = g.levels := rfl
  have := cfor_fold (body := fun d (s : σ) => do
        let s ← cfor g.disparityLevels.toNat
          (initialDisparity (mkPixel x y) (mkPixel (nbx x k) (nby y k)) d)
          (fun d' => decide ((mkPixel (nbx x k) (nby y k)).x + d' < g.left.width)
            && decide (d' < g.disparityLevels)) inc
          (fun d' (s : σ) => do
            let p ← edgePenalty g
              { node := { pixel := mkPixel x y, disparity := d }
                neighbor := { pixel := mkPixel (nbx x k) (nby y k), disparity := d' } }
            return (f s p, false))
          s
        return (s, false)) (fuel := g.disparityLevels.toNat) (i := 0)
    (cond := fun d => decide ((mkPixel x y).x + d < g.left.width) && decide (d < g.disparityLevels)) (s := s)
    0 (min g.levels (g.w - x))
    (fun s d => (List.range' (scanLo x (nbx x k) d)
        (min g.levels (g.w - nbx x k) - scanLo x (nbx x k) d)).foldl
      (fun s d' => f s (g.edgeQ x y k d d')) s) rfl ?_ ?_ ?_
  · rw [this, Nat.sub_zero]
    congr 1
    exact foldl_flatMap_map (fun s d d' => f s (g.edgeQ x y k d d')) _ _ s
  · rw [hll]; omega
  · intro k' _ hk'
    have : (mkPixel x y).x = UInt64.ofNat x := rfl
    simp only [this]
    rw [cond_two (by omega), hwl, hll]
  · intro d s _ hd
    have hs := scanLo_le x (nbx x k) d
    rw [cfor_fold (scanLo x (nbx x k) d) (min g.levels (g.w - nbx x k))
      (fun s d' => f s (g.edgeQ x y k d d'))
      (initialDisparity_mk (by omega) (by omega) (by omega)) ?_ ?_ ?_]
    · rfl
    · rw [hll]; omega
    · intro k' hk1 hk2
      have : (mkPixel (nbx x k) (nby y k)).x = UInt64.ofNat (nbx x k) := rfl
      simp only [this]
      rw [cond_two (by omega), hwl, hll]
    · intro d' s _ hd'
      have : edgePenalty g
          { node := { pixel := mkPixel x y, disparity := UInt64.ofNat d }
            neighbor := { pixel := mkPixel (nbx x k) (nby y k), disparity := UInt64.ofNat d' } }
          = .ok (g.edgeQ x y k d d') := edgePenalty_mk hg hk (by omega) (by omega)
      simp only [this, bind_ok, pure_eq_ok]

theorem calculateLowestNeighborhoodPenaltySlow_mk (hg : g.Valid) {x y k : Nat} (hk : HasNb g.w g.h x y k) :
    calculateLowestNeighborhoodPenaltySlow g (mkPixel x y) (UInt64.ofNat k) = .ok (g.lowEdge x y k) := by
  unfold calculateLowestNeighborhoodPenaltySlow
  rw [neighborByIndex_mk hk]
  unfold calculateLowestNeighborhoodPenaltyFast
  have h0 : edgePenalty g
      { node := { pixel := mkPixel x y, disparity := 0 }
        neighbor := { pixel := mkPixel (nbx x k) (nby y k), disparity := 0 } }
      = .ok (g.edgeQ x y k 0 0) := edgePenalty_mk hg hk hg.levels_pos hg.levels_pos
  rw [h0, bind_ok]
  exact edgeLoop_mk hg hk (fun m p => min' p m) _

/-- The table of pixels is filled where `D` holds. -/
def PixelTable (g : DisparityGraph F) (a : Array F) (D : Nat → Nat → Prop) : Prop :=
  a.size = g.w * g.h ∧ ∀ x y, x < g.w → y < g.h → D x y → a.getD (pidx g.w x y) zero = g.lowPixel x y

/-- The table of neighborhoods is filled where `D` holds. -/
def EdgeTable (g : DisparityGraph F) (a : Array F) (D : Nat → Nat → Nat → Prop) : Prop :=
  a.size = 4 * (g.h * g.w) ∧
  ∀ x y k, HasNb g.w g.h x y k → D x y k → a.getD (hidx g.h x y k) zero = g.lowEdge x y k

theorem PixelTable.set {a : Array F} {D : Nat → Nat → Prop} (ht : PixelTable g a D) {x y : Nat}
    (hx : x < g.w) (hy : y < g.h) :
    PixelTable g (a.setIfInBounds (pidx g.w x y) (g.lowPixel x y)) fun x' y' => D x' y' ∨ (x' = x ∧ y' = y) := by
  obtain ⟨h1, h2⟩ := ht
  refine ⟨by simpa using h1, fun x' y' hx' hy' hD => ?_⟩
  rw [ConstraintGraph.setIfInBounds_getD _ _ _ _ _ (by rw [h1]; exact pidx_lt hx hy)]
  split
  · rename_i he
    obtain ⟨rfl, rfl⟩ := pidx_inj hx hx' he
    rfl
  · rename_i he
    rcases hD with hD | ⟨rfl, rfl⟩
    · exact h2 x' y' hx' hy' hD
    · exact absurd rfl he

theorem EdgeTable.set {a : Array F} {D : Nat → Nat → Nat → Prop} (ht : EdgeTable g a D) {x y k : Nat}
    (hk : HasNb g.w g.h x y k) :
    EdgeTable g (a.setIfInBounds (hidx g.h x y k) (g.lowEdge x y k))
      fun x' y' k' => D x' y' k' ∨ (x' = x ∧ y' = y ∧ k' = k) := by
  obtain ⟨h1, h2⟩ := ht
  refine ⟨by simpa using h1, fun x' y' k' hk' hD => ?_⟩
  rw [ConstraintGraph.setIfInBounds_getD _ _ _ _ _ (by rw [h1]; exact hidx_lt hk.1 hk.2.1 hk.lt4)]
  split
  · rename_i he
    obtain ⟨rfl, rfl, rfl⟩ := hidx_inj hk.2.1 hk.lt4 hk'.2.1 hk'.lt4 he
    rfl
  · rename_i he
    rcases hD with hD | ⟨rfl, rfl, rfl⟩
    · exact h2 x' y' k' hk' hD
    · exact absurd rfl he

theorem PixelTable.mono {a : Array F} {D D' : Nat → Nat → Prop} (ht : PixelTable g a D)
    (h : ∀ x y, x < g.w → y < g.h → D' x y → D x y) : PixelTable g a D' :=
  ⟨ht.1, fun x y hx hy hd => ht.2 x y hx hy (h x y hx hy hd)⟩

theorem EdgeTable.mono {a : Array F} {D D' : Nat → Nat → Nat → Prop} (ht : EdgeTable g a D)
    (h : ∀ x y k, HasNb g.w g.h x y k → D' x y k → D x y k) : EdgeTable g a D' :=
  ⟨ht.1, fun x y k hk hd => ht.2 x y k hk (h x y k hk hd)⟩

theorem cond_neighbors (k : Nat) (hk : k ≤ 4) :
    decide (UInt64.ofNat k < NEIGHBORS_COUNT) = decide (k < 4) :=
  cond_lt NEIGHBORS_COUNT k hk

theorem lowestPenaltiesNeighbors_mk (hg : g.Valid) {x y : Nat} (hx : x < g.w) (hy : y < g.h) {a : Array F}
    {D : Nat → Nat → Nat → Prop} (ht : EdgeTable g a D) :
    Ok (lowestPenaltiesNeighbors g (mkPixel x y) a) fun a' =>
      EdgeTable g a' fun x' y' k' => D x' y' k' ∨ (x' = x ∧ y' = y) := by
  have hb := hg.bounds
  unfold lowestPenaltiesNeighbors
  refine (cfor_all 4 (fun n a' => EdgeTable g a' fun x' y' k' => D x' y' k' ∨ (x' = x ∧ y' = y ∧ k' < n))
    (Nat.le_refl _) cond_neighbors ?_ ?_).mono ?_
  · exact ht.mono (by rintro x' y' k' _ (h | h); exact h; omega)
  · intro n a' hn hs
    have hex := neighborhoodExistsFast_mk hg.toDims hx hy hn
    cases he : neighborhoodExistsFast g (mkPixel x y) (UInt64.ofNat n)
    · simp only [Bool.not_false, if_true]
      refine Ok.pure ⟨rfl, hs.mono ?_⟩
      rintro x' y' k' hk' (h | ⟨rfl, rfl, h⟩)
      · exact .inl h
      · refine .inr ⟨rfl, rfl, ?_⟩
        by_cases hkn : k' = n
        · subst hkn
          rw [← hex, he] at hk'
          simp at hk'
        · omega
    · have hk := hex.1 he
      have hi := hidx_lt hx hy hn
      simp only [Bool.not_true, Bool.false_eq_true, if_false]
      rw [calculateLowestNeighborhoodPenaltySlow_mk hg hk, bind_ok, neighborhoodIndexFast_mk,
        wr_ofNat (Nat.lt_trans hi hb.hw4) (by rw [hs.1]; exact hi), bind_ok]
      refine Ok.pure ⟨rfl, (hs.set hk).mono ?_⟩
      rintro x' y' k' _ (h | ⟨rfl, rfl, h⟩)
      · exact .inl (.inl h)
      · by_cases hkn : k' = n
        · exact .inr ⟨rfl, rfl, hkn⟩
        · exact .inl (.inr ⟨rfl, rfl, by omega⟩)
  · intro a' h
    refine h.mono ?_
    rintro x' y' k' hk' (h | ⟨rfl, rfl⟩)
    · exact .inl h
    · exact .inr ⟨rfl, rfl, hk'.lt4⟩

theorem mkLowestPenalties_mk (hg : g.Valid) :
    Ok (mkLowestPenalties g) fun p => p.graph = g ∧ p.Valid ∧
      (∀ x y, x < g.w → y < g.h → p.pixelMin x y = g.lowPixel x y) ∧
      (∀ x y k, HasNb g.w g.h x y k → p.edgeMin x y k = g.lowEdge x y k) := by
  have hb := hg.bounds
  have h1 := hb.bw
  have h2 := hb.bh
  have h3 := hb.bl
  have hN1 : (g.right.height * g.right.width).toNat = g.w * g.h := by
    rw [UInt64.toNat_mul, Nat.mul_comm, Nat.mod_eq_of_lt]
    · rfl
    · exact hb.wh
  have hN2 : (NEIGHBORS_COUNT * g.right.height * g.right.width).toNat = 4 * (g.h * g.w) := by
    have e4 : NEIGHBORS_COUNT.toNat = 4 := rfl
    rw [UInt64.toNat_mul, UInt64.toNat_mul, e4]
    simp only [Nat.reducePow, Nat.mod_mul_mod]
    rw [Nat.mod_eq_of_lt]
    · exact Nat.mul_assoc _ _ _
    · have := hb.hw4
      rw [← Nat.mul_assoc] at this
      exact this
  unfold mkLowestPenalties
  simp only
  rw [hN1, hN2]
  refine Ok.bind (cfor_all g.w (fun X r => PixelTable g r.1 (fun x _ => x < X) ∧
    EdgeTable g r.2 (fun x _ _ => x < X)) (Nat.le_refl _) (fun k hk => cond_lt _ _ hk) ?_ ?_) ?_
  · exact ⟨⟨by simp, fun x y _ _ h => absurd h (Nat.not_lt_zero _)⟩,
      ⟨by simp, fun x y k _ h => absurd h (Nat.not_lt_zero _)⟩⟩
  · rintro X ⟨px, nb⟩ hX ⟨hp, hn⟩
    refine Ok.bind (cfor_all g.h (fun Y r => PixelTable g r.1 (fun x y => x < X ∨ (x = X ∧ y < Y)) ∧
      EdgeTable g r.2 (fun x y _ => x < X ∨ (x = X ∧ y < Y)))
      (Nat.le_refl _) (fun k hk => cond_lt _ _ hk) ?_ ?_) ?_
    · exact ⟨hp.mono (by intro x y _ _ h; omega), hn.mono (by intro x y k _ h; omega)⟩
    · rintro Y ⟨px, nb⟩ hY ⟨hp, hn⟩
      have hi := pidx_lt hX hY
      have h0 := calculateLowestPixelPenalty_mk hg hX hY
      unfold mkPixel at h0
      simp only at hp hn
      simp only [h0, bind_ok]
      have hpi : pixelIndex g.right { x := UInt64.ofNat X, y := UInt64.ofNat Y }
          = UInt64.ofNat (pidx g.w X Y) := pixelIndex_mk g.right X Y
      rw [hpi, wr_ofNat (Nat.lt_trans hi hb.wh) (by rw [hp.1]; exact hi), bind_ok]
      refine Ok.bind (lowestPenaltiesNeighbors_mk hg hX hY hn) ?_
      intro nb' hn'
      refine Ok.pure ⟨rfl, (hp.set hX hY).mono ?_, hn'.mono ?_⟩
      · intro x y _ _ h; omega
      · intro x y k _ h; omega
    · rintro ⟨px, nb⟩ ⟨hp, hn⟩
      refine Ok.pure ⟨rfl, hp.mono ?_, hn.mono ?_⟩
      · intro x y _ hy h; omega
      · intro x y k hk h; have := hk.2.1; omega
  · rintro ⟨px, nb⟩ ⟨hp, hn⟩
    exact Ok.pure ⟨rfl, ⟨hg, hp.1, hn.1⟩, fun x y hx hy => hp.2 x y hx hy hx,
      fun x y k hk => hn.2 x y k hk hk.1⟩

/-! ## Minimality -/

theorem foldl_min_le [LawfulFloat F] {α : Type} (f : α → F) (l : List α) (m : F) :
    le (l.foldl (fun m a => min' (f a) m) m) m = true ∧
    ∀ a ∈ l, le (l.foldl (fun m a => min' (f a) m) m) (f a) = true := by
  induction l generalizing m with
  | nil => exact ⟨LawfulFloat.le_refl _, fun a h => by simp at h⟩
  | cons b l ih =>
    obtain ⟨h1, h2⟩ := ih (min' (f b) m)
    refine ⟨LawfulFloat.le_trans _ _ _ h1 (LawfulFloat.min'_le_right _ _), fun a ha => ?_⟩
    rcases List.mem_cons.1 ha with rfl | ha
    · exact LawfulFloat.le_trans _ _ _ h1 (LawfulFloat.min'_le_left _ _)
    · exact h2 a ha

theorem foldl_min_mem {α : Type} (f : α → F) (l : List α) (m : F) :
    l.foldl (fun m a => min' (f a) m) m = m ∨ ∃ a ∈ l, l.foldl (fun m a => min' (f a) m) m = f a := by
  induction l generalizing m with
  | nil => exact .inl rfl
  | cons b l ih =>
    simp only [List.foldl_cons]
    rcases ih (min' (f b) m) with h | ⟨a, ha, h⟩
    · rcases LawfulFloat.min'_eq (f b) m with h' | h'
      · exact .inr ⟨b, by simp, h.trans h'⟩
      · exact .inl (h.trans h')
    · exact .inr ⟨a, by simp [ha], h⟩

theorem lowPixel_attained (hg : g.Valid) {x y : Nat} (hx : x < g.w) (hy : y < g.h) :
    ∃ d, g.IsNode x y d ∧ g.lowPixel x y = g.nodeQ x y d := by
  rcases foldl_min_mem (g.nodeQ x y) (List.range' 0 (min g.levels (g.w - x))) (g.nodeQ x y 0) with h | ⟨d, hd, h⟩
  · exact ⟨0, ⟨hx, hy, hg.levels_pos, by omega⟩, h⟩
  · rw [List.mem_range'_1] at hd
    exact ⟨d, ⟨hx, hy, by omega, by omega⟩, h⟩

theorem lowPixel_le [LawfulFloat F] {x y d : Nat} (hn : g.IsNode x y d) :
    le (g.lowPixel x y) (g.nodeQ x y d) = true := by
  refine (foldl_min_le (g.nodeQ x y) _ _).2 d ?_
  obtain ⟨h1, h2, h3, h4⟩ := hn
  rw [List.mem_range'_1]
  omega

theorem lowEdge_attained (hg : g.Valid) {x y k : Nat} (hk : HasNb g.w g.h x y k) :
    ∃ d d', g.IsNode x y d ∧ g.IsNode (nbx x k) (nby y k) d' ∧ (k ≠ 1 → OrderOK k d d') ∧
      scanLo x (nbx x k) d ≤ d' ∧ g.lowEdge x y k = g.edgeQ x y k d d' := by
  have hx := hk.nbx_lt
  rcases foldl_min_mem (fun p : Nat × Nat => g.edgeQ x y k p.1 p.2) (g.scan x y k) (g.edgeQ x y k 0 0)
    with h | ⟨⟨d, d'⟩, hp, h⟩
  · refine ⟨0, 0, ⟨hk.1, hk.2.1, hg.levels_pos, hk.1⟩, ⟨hx, hk.nby_lt, hg.levels_pos, hx⟩, ?_, ?_, h⟩
    · intro _; unfold OrderOK; omega
    · exact scanLo_le _ _ _
  · rw [mem_scan hk] at hp
    refine ⟨d, d', hp.1, hp.2.1, ?_, hp.2.2, h⟩
    intro hk1
    refine ⟨?_, fun h => absurd h hk1⟩
    rintro rfl
    have := hp.2.2
    rw [show nbx x 0 = x + 1 from rfl, scanLo_of_ne (by omega)] at this
    omega

theorem lowEdge_le [LawfulFloat F] {x y k d d' : Nat} (he : g.IsEdge x y k d d') (hk1 : k ≠ 1 ∨ d ≤ d' + 1) :
    le (g.lowEdge x y k) (g.edgeQ x y k d d') = true := by
  refine (foldl_min_le (fun p : Nat × Nat => g.edgeQ x y k p.1 p.2) _ _).2 (d, d') ?_
  rw [mem_scan he.1]
  refine ⟨he.2.1, he.2.2.1, ?_⟩
  have ho := he.2.2.2
  obtain ⟨⟨_, _, hk⟩, -⟩ := he
  unfold OrderOK at ho
  rcases hk with ⟨rfl, hk⟩ | ⟨rfl, hk⟩ | ⟨rfl, hk⟩ | ⟨rfl, hk⟩
  · have := ho.1 rfl
    rw [show nbx x 0 = x + 1 from rfl, scanLo_of_ne (by omega)]
    omega
  · rw [show nbx x 1 = x - 1 from rfl, scanLo_of_ne (by omega)]
    omega
  · rw [show nbx x 2 = x from rfl, scanLo_self]; omega
  · rw [show nbx x 3 = x from rfl, scanLo_self]; omega

end SP
