import Verif.Lemmas.Finder
/-!
# Refinement of `build_disparity_map`
-/
set_option linter.unusedSectionVars false

namespace SP
open FloatOps ConstraintGraph
variable {F : Type} [FloatOps F] {c : ConstraintGraph F}

/-- `d` is the lowest available disparity of the pixel. -/
def Lowest (c : ConstraintGraph F) (x y d : Nat) : Prop := c.Av x y d ∧ ∀ d', c.Av x y d' → d ≤ d'

theorem mapPixel_mk (hc : c.Valid) (hp : c.Proper) {x y : Nat} (hx : x < c.w) (hy : y < c.h) {result : Image}
    (hrw : result.width.toNat = c.w) {data : Array UInt64} (hs : data.size = c.w * c.h) :
    Ok (mapPixel c result (mkPixel x y) (data, false)) fun r =>
      (∃ d, Lowest c x y d ∧ r = (data.setIfInBounds (pidx c.w x y) (UInt64.ofNat d), true)) ∨
      ((¬ ∃ d, c.Av x y d) ∧ r = (data, false)) := by
  have hb := hc.bounds
  have h1 := hb.bw
  have h3 := hb.bl
  have hll : c.disparityGraph.disparityLevels.toNat = c.levels := rfl
  have hwl : c.disparityGraph.left.width.toNat = c.w := by rw [hc.graph.width_eq]; rfl
  have hpi : pidx c.w x y < c.w * c.h := by
    unfold pidx
    calc x + c.w * y < c.w + c.w * y := by omega
      _ = c.w * (y + 1) := by rw [Nat.mul_add, Nat.mul_one, Nat.add_comm]
      _ ≤ c.w * c.h := Nat.mul_le_mul_left _ hy
  have hwh : c.w * c.h < 18446744073709551616 := hb.wh
  unfold mapPixel
  refine cfor_ok 0 (min c.levels (c.w - x))
    (fun j s => s = (data, false) ∧ ∀ d, d < j → ¬ c.Av x y d) rfl (by rw [hll]; omega) ?_ ⟨rfl, by omega⟩ ?_ ?_
  · intro k _ hk
    have : (mkPixel x y).x = UInt64.ofNat x := rfl
    simp only [this]
    rw [cond_two (by omega), hwl, hll]
  · rintro j s - hj ⟨rfl, hno⟩
    refine Ok.bind (isNodeAvailable_mk hc hx hy (show j < c.levels by omega)) ?_
    intro b hb
    cases b
    · have hna : ¬ c.Av x y j := fun h => by have := hb.2 h; simp at this
      simp only [Bool.false_eq_true, if_false]
      refine Ok.pure ?_
      simp only [Bool.false_eq_true, if_false, true_and]
      intro d hd
      by_cases e : d = j
      · subst e; exact hna
      · exact hno d (by omega)
    · simp only [if_true, Bool.false_eq_true, if_false]
      rw [pixelIndex_mk, hrw, wr_ofNat (by omega) (by omega)]
      refine Ok.pure ?_
      simp only [if_true]
      refine .inl ⟨j, ⟨hb.1 rfl, fun d' hd' => ?_⟩, rfl⟩
      by_contra hlt
      exact hno d' (by omega) hd'
  · rintro s ⟨rfl, hno⟩
    refine .inr ⟨?_, rfl⟩
    rintro ⟨d, hd⟩
    have hn := hp _ _ _ hd
    have l1 : d < c.levels := hn.2.2.1
    have l2 : x + d < c.w := hn.2.2.2
    exact hno d (by omega) hd

/-- The loop of `build_disparity_map` over rows. -/
def mapColumn (c : ConstraintGraph F) (result : Image) (x : UInt64) (s : Array UInt64 × Bool) :
    M (Array UInt64 × Bool) :=
  cfor c.disparityGraph.left.height.toNat 0 (fun y => decide (y < c.disparityGraph.left.height)) inc
    (fun y (s : Array UInt64 × Bool) => do
      let (data, found) ← mapPixel c result { x := x, y := y } s
      if !found then throw (.exc (.logicError "Cannot find label for the pixel"))
      return ((data, false), false)) s

/-- The loop of `build_disparity_map` over columns. -/
def mapAll (c : ConstraintGraph F) (result : Image) : M (Array UInt64 × Bool) :=
  cfor c.disparityGraph.left.width.toNat 0 (fun x => decide (x < c.disparityGraph.left.width)) inc
    (fun x (s : Array UInt64 × Bool) => do
      let s ← mapColumn c result x s
      return (s, false)) (result.data, false)

theorem buildDisparityMap_eq (c : ConstraintGraph F) :
    buildDisparityMap c = (do
      let result : Image :=
        { width := c.disparityGraph.left.width
          height := c.disparityGraph.left.height
          maxValue := c.disparityGraph.disparityLevels
          data := Array.replicate (c.disparityGraph.left.height * c.disparityGraph.left.width).toNat 0 }
      let r ← mapAll c result
      return { result with data := r.1 }) := rfl

/-- The error when a pixel has no available node. -/
def noLabel : Err := .exc (.logicError "Cannot find label for the pixel")

/-- Exact outcome of `build_disparity_map`. -/
theorem buildDisparityMap_mk (hc : c.Valid) (hp : c.Proper) :
    (AllAlive c.w c.h c.Av ∧ Ok (buildDisparityMap c) fun im =>
      im.width = c.disparityGraph.right.width ∧ im.height = c.disparityGraph.right.height ∧
      im.maxValue = c.disparityGraph.disparityLevels ∧ im.data.size = c.w * c.h ∧
      ∀ x y, x < c.w → y < c.h → Lowest c x y (im.at x y)) ∨
    (¬ AllAlive c.w c.h c.Av ∧ buildDisparityMap c = .error noLabel) := by
  have hwl : c.disparityGraph.left.width.toNat = c.w := by rw [hc.graph.width_eq]; rfl
  have hhl : c.disparityGraph.left.height.toNat = c.h := by rw [hc.graph.height_eq]; rfl
  have hb := hc.bounds
  have hwh : c.w * c.h < 18446744073709551616 := hb.wh
  have hsize : (c.disparityGraph.left.height * c.disparityGraph.left.width).toNat = c.w * c.h := by
    rw [UInt64.toNat_mul, hwl, hhl, Nat.mul_comm c.h, Nat.mod_eq_of_lt hwh]
  -- the invariant: pixels before `(X, Y)` have labels and these are stored
  let P : Nat → Nat → Array UInt64 × Bool → Prop := fun X Y s => s.2 = false ∧ s.1.size = c.w * c.h ∧
    ∀ x y, x < c.w → y < c.h → Before X Y x y → Lowest c x y (s.1.getD (pidx c.w x y) 0).toNat
  rw [buildDisparityMap_eq]
  dsimp only
  generalize hres : (Image.mk c.disparityGraph.left.width c.disparityGraph.left.height
    c.disparityGraph.disparityLevels
    (Array.replicate (c.disparityGraph.left.height * c.disparityGraph.left.width).toNat 0)) = result
  have hrw : result.width.toNat = c.w := by rw [← hres]; exact hwl
  have hrd : result.data.size = c.w * c.h := by rw [← hres]; simpa using hsize
  -- the inner loop
  have inner : ∀ X s, X < c.w → P X 0 s →
      let m := mapColumn c result (UInt64.ofNat X) s
      (Ok m (P X c.h)) ∨ ((∃ y, y < c.h ∧ ¬ ∃ d, c.Av X y d) ∧ m = .error noLabel) := by
    intro X s hX hs
    unfold mapColumn
    refine cfor_rule 0 c.h (fun Y s => P X Y s)
      (fun m => Ok m (P X c.h) ∨ ((∃ y, y < c.h ∧ ¬ ∃ d, c.Av X y d) ∧ m = .error noLabel))
      rfl (by omega) ?_ hs ?_ ?_
    · intro k _ hk
      rw [cond_lt _ _ (by omega), hhl]
    · rintro Y ⟨data, b⟩ - hY ⟨rfl, hsz, hst⟩
      obtain ⟨r, hr, hcase⟩ := mapPixel_mk hc hp hX hY hrw hsz
      have e : mapPixel c result { x := UInt64.ofNat X, y := UInt64.ofNat Y } (data, false) = .ok r := hr
      simp only [e, bind_ok]
      rcases hcase with ⟨d, hd, rfl⟩ | ⟨hno, rfl⟩
      · right; right
        refine ⟨(data.setIfInBounds (pidx c.w X Y) (UInt64.ofNat d), false), rfl, rfl, by simpa using hsz, ?_⟩
        intro x y hx hy hbef
        have hpi : pidx c.w X Y < data.size := by
          rw [hsz]
          unfold pidx
          calc X + c.w * Y < c.w + c.w * Y := by omega
            _ = c.w * (Y + 1) := by rw [Nat.mul_add, Nat.mul_one, Nat.add_comm]
            _ ≤ c.w * c.h := Nat.mul_le_mul_left _ hY
        simp only [setIfInBounds_getD _ _ _ _ _ hpi]
        by_cases e : pidx c.w x y = pidx c.w X Y
        · obtain ⟨rfl, rfl⟩ := pidx_inj hx hX e
          rw [if_pos rfl]
          have hdl : d < c.levels := (hp _ _ _ hd.1).2.2.1
          have := hb.bl
          rw [toNat_ofNat_lt (by omega)]
          exact hd
        · rw [if_neg (fun h => e h.symm)]
          refine hst x y hx hy ?_
          rcases hbef with h | ⟨rfl, h⟩
          · exact .inl h
          · refine .inr ⟨rfl, ?_⟩
            have : y ≠ Y := fun e' => e (by rw [e'])
            omega
      · left
        refine ⟨noLabel, rfl, .inr ⟨⟨Y, hY, hno⟩, rfl⟩⟩
    · intro s hs
      rw [Nat.max_eq_right (Nat.zero_le _)] at hs
      exact .inl (Ok.pure hs)
  -- the outer loop
  have outer : ∀ m, m = mapAll c result →
      Ok m (P c.w 0) ∨ (¬ AllAlive c.w c.h c.Av ∧ m = .error noLabel) := by
    rintro m rfl
    unfold mapAll
    refine cfor_rule 0 c.w (fun X s => P X 0 s)
      (fun m => Ok m (P c.w 0) ∨ (¬ AllAlive c.w c.h c.Av ∧ m = .error noLabel)) rfl (by omega) ?_ ?_ ?_ ?_
    · intro k _ hk
      rw [cond_lt _ _ (by omega), hwl]
    · refine ⟨rfl, hrd, ?_⟩
      rintro x y - - (h | ⟨-, h⟩) <;> omega
    · intro X s _ hX hs
      rcases inner X s hX hs with ⟨s', hs', h1, h2, h3⟩ | ⟨⟨y, hy, hno⟩, he⟩
      · right; right
        refine ⟨s', by simp only [hs', bind_ok, pure_eq_ok], h1, h2, ?_⟩
        intro x y hx hy hbef
        refine h3 x y hx hy ?_
        rcases hbef with h | ⟨-, h⟩
        · rcases Nat.lt_or_eq_of_le (Nat.le_of_lt_succ h) with h | h
          · exact .inl h
          · exact .inr ⟨h, hy⟩
        · omega
      · left
        refine ⟨noLabel, by simp only [he, bind_error], .inr ⟨fun hal => hno (hal X y hX hy), rfl⟩⟩
    · intro s hs
      rw [Nat.max_eq_right (Nat.zero_le _)] at hs
      exact .inl (Ok.pure hs)
  rcases outer _ rfl with ⟨s, hs, h1, h2, h3⟩ | ⟨h1, h2⟩
  · left
    have hl : ∀ x y, x < c.w → y < c.h → Lowest c x y (s.1.getD (pidx c.w x y) 0).toNat :=
      fun x y hx hy => h3 x y hx hy (.inl hx)
    refine ⟨fun x y hx hy => ⟨_, (hl x y hx hy).1⟩, ?_⟩
    rw [hs, bind_ok]
    refine Ok.pure ⟨?_, ?_, ?_, h2, ?_⟩
    · exact hc.graph.width_eq
    · exact hc.graph.height_eq
    · rfl
    · intro x y hx hy
      unfold Image.at
      simp only [hwl]
      exact hl x y hx hy
  · right
    exact ⟨h1, by rw [h2]; rfl⟩

end SP
