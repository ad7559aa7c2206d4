import Verif.Lemmas.Sort
import Verif.Lemmas.Lowest
import Verif.Lemmas.Fresh
/-!
# Refinement of the functions that fetch thresholds
-/
set_option linter.unusedSectionVars false

namespace SP
open FloatOps
variable {F : Type} [FloatOps F] {g : DisparityGraph F} {p : LowestPenalties F}

instance (w h x y k : Nat) : Decidable (HasNb w h x y k) := by unfold HasNb; infer_instance

theorem foldl_append_map {α β : Type} (f : α → β) (l : List α) (s : List β) :
    l.foldl (fun s a => s ++ [f a]) s = s ++ l.map f := by
  induction l generalizing s with
  | nil => simp
  | cons a l ih => simp [ih]

/-- `cfor_fold` from zero -/
theorem cfor_fold0 {σ : Type} {fuel : Nat} {cond : UInt64 → Bool}
    {body : UInt64 → σ → M (σ × Bool)} {s : σ} (n : Nat) (f : σ → Nat → σ) (hfuel : n ≤ fuel)
    (hcond : ∀ k, k ≤ n → cond (UInt64.ofNat k) = decide (k < n))
    (hbody : ∀ k s, k < n → body (UInt64.ofNat k) s = .ok (f s k, false)) :
    cfor fuel 0 cond inc body s = .ok ((List.range' 0 n).foldl f s) :=
  cfor_fold 0 n f rfl hfuel (fun k _ hk => hcond k (by omega)) fun k s _ hk => hbody k s hk

/-- differences computed for a pixel -/
def DisparityGraph.pixelDiffs (g : DisparityGraph F) (x y : Nat) (m : F) : List F :=
  (List.range' 0 (min g.levels (g.w - x))).map fun d => sub (g.nodeQ x y d) m

/-- differences computed for a neighborhood -/
def DisparityGraph.edgeDiffs (g : DisparityGraph F) (x y k : Nat) (m : F) : List F :=
  (g.scan x y k).map fun q => sub (g.edgeQ x y k q.1 q.2) m

theorem fetchPixelAvailablePenalties_mk (hg : g.Valid) {x y : Nat} (hx : x < g.w) (hy : y < g.h) (m : F) :
    fetchPixelAvailablePenalties g (mkPixel x y) m = .ok (uniqueF (sortF (g.pixelDiffs x y m))) := by
  have hb := hg.bounds
  have h1 := hb.bw
  have h3 := hb.bl
  have hl := hg.levels_le
  have hw62 : g.w * 4 < 18446744073709551616 := by
    have hf := hg.fits
    have hh := hg.height_pos
    have hp := hg.levels_pos
    calc g.w * 4 ≤ g.w * g.h * 4 * g.levels := by
          have e1 : g.w * 1 * 4 * 1 ≤ g.w * g.h * 4 * g.levels :=
            Nat.mul_le_mul (Nat.mul_le_mul (Nat.mul_le_mul (Nat.le_refl _) hh) (Nat.le_refl _)) hp
          simpa using e1
      _ < _ := hf
  have hwl : g.left.width.toNat = g.w := by rw [hg.width_eq]; rfl
  have hll : g.disparityLevels.toNat = g.levels := rfl
  have hpx : (mkPixel x y).x = UInt64.ofNat x := rfl
  have hsz : (if UInt64.ofNat x + g.disparityLevels < g.left.width + 1 then g.disparityLevels
      else g.left.width - UInt64.ofNat x) = UInt64.ofNat (min g.levels (g.w - x)) := by
    have e1 : (UInt64.ofNat x + g.disparityLevels).toNat = x + g.levels := by
      rw [UInt64.toNat_add, toNat_ofNat_lt (by omega), hll]
      exact Nat.mod_eq_of_lt (by omega)
    have e2 : (g.left.width + 1).toNat = g.w + 1 := by
      rw [UInt64.toNat_add, hwl]
      exact Nat.mod_eq_of_lt (by show g.w + 1 < 18446744073709551616; omega)
    have e3 : UInt64.ofNat x + g.disparityLevels < g.left.width + 1 ↔ x + g.levels < g.w + 1 := by
      rw [UInt64.lt_iff_toNat_lt, e1, e2]
    simp only [e3]
    split
    · rw [Nat.min_eq_left (by omega), ← hll]
      exact u64_eq_ofNat _
    · rw [Nat.min_eq_right (by omega), ← UInt64.toNat_inj, toNat_ofNat_lt (by omega),
        UInt64.toNat_sub_of_le, hwl, toNat_ofNat_lt (by omega)]
      rw [UInt64.le_iff_toNat_le, toNat_ofNat_lt (by omega), hwl]
      omega
  unfold fetchPixelAvailablePenalties
  simp only [hpx]
  rw [hsz]
  rw [cfor_fold0 (min g.levels (g.w - x)) (fun s d => s ++ [sub (g.nodeQ x y d) m])]
  · rw [bind_ok, foldl_append_map]
    rfl
  · rw [toNat_ofNat_lt (by omega)]; omega
  · intro k hk
    rw [decide_eq_decide, UInt64.lt_iff_toNat_lt, toNat_ofNat_lt (by omega), toNat_ofNat_lt (by omega)]
  · intro d s hd
    have : nodePenalty g { pixel := mkPixel x y, disparity := UInt64.ofNat d } = .ok (g.nodeQ x y d) :=
      nodePenalty_mk hg ⟨hx, hy, by omega, by omega⟩
    simp only [this, bind_ok, pure_eq_ok]

theorem fetchEdgeAvailablePenalties_mk (hg : g.Valid) {x y k : Nat} (hk : HasNb g.w g.h x y k) (a b : UInt64) (m : F) :
    fetchEdgeAvailablePenalties g ⟨⟨mkPixel x y, a⟩, ⟨mkPixel (nbx x k) (nby y k), b⟩⟩ m
      = .ok (uniqueF (sortF (g.edgeDiffs x y k m))) := by
  unfold fetchEdgeAvailablePenalties
  have := edgeLoop_mk hg hk (fun (s : List F) q => s ++ [sub q m]) []
  dsimp only at this ⊢
  rw [this, bind_ok]
  have e := foldl_append_map (fun q : Nat × Nat => sub (g.edgeQ x y k q.1 q.2) m) (g.scan x y k) []
  rw [e]
  rfl

/-- merge, sort and remove duplicates -/
def joinF (s l : List F) : List F := uniqueF (sortF (mergeF s l))

/-- The neighborhoods of a pixel in `fetch_available_penalties`. -/
def LowestPenalties.fetchNb (p : LowestPenalties F) (x y : Nat) (s : List F) : List F :=
  (List.range' 0 4).foldl (fun s k => if HasNb p.graph.w p.graph.h x y k then
    joinF s (uniqueF (sortF (p.graph.edgeDiffs x y k (p.edgeMin x y k)))) else s) s

/-- A pixel in `fetch_available_penalties`. -/
def LowestPenalties.fetchPx (p : LowestPenalties F) (x y : Nat) (s : List F) : List F :=
  p.fetchNb x y (joinF s (uniqueF (sortF (p.graph.pixelDiffs x y (p.pixelMin x y)))))

/-- The value of `fetch_available_penalties`. -/
def LowestPenalties.fetch (p : LowestPenalties F) : List F :=
  (List.range' 0 p.graph.w).foldl (fun s x => (List.range' 0 p.graph.h).foldl (fun s y => p.fetchPx x y s) s) []

theorem fetchAvailablePenalties_mk (hp : p.Valid) : fetchAvailablePenalties p = .ok p.fetch := by
  have hg := hp.graph
  have hb := hg.bounds
  unfold fetchAvailablePenalties
  dsimp only
  rw [cfor_fold0 p.graph.w (fun s x => (List.range' 0 p.graph.h).foldl (fun s y => p.fetchPx x y s) s)]
  · rfl
  · exact Nat.le_refl _
  · exact fun k hk => cond_lt _ _ hk
  · intro x s hx
    rw [cfor_fold0 p.graph.h (fun s y => p.fetchPx x y s)]
    · rfl
    · exact Nat.le_refl _
    · exact fun k hk => cond_lt _ _ hk
    · intro y s hy
      have e1 : lowestPixelPenalty p { x := UInt64.ofNat x, y := UInt64.ofNat y } = .ok (p.pixelMin x y) :=
        lowestPixelPenalty_mk hp hx hy
      have e2 : fetchPixelAvailablePenalties p.graph { x := UInt64.ofNat x, y := UInt64.ofNat y } (p.pixelMin x y)
        = _ := fetchPixelAvailablePenalties_mk hg hx hy _
      rw [e1, bind_ok, e2, bind_ok]
      rw [cfor_fold0 4 (fun s k => if HasNb p.graph.w p.graph.h x y k then
        joinF s (uniqueF (sortF (p.graph.edgeDiffs x y k (p.edgeMin x y k)))) else s) (Nat.le_refl _)]
      · rfl
      · exact fun k hk => cond_neighbors k hk
      · intro k s hk
        have hex := neighborhoodExistsFast_mk hg.toDims hx hy hk
        unfold mkPixel at hex
        cases he : neighborhoodExistsFast p.graph { x := UInt64.ofNat x, y := UInt64.ofNat y } (UInt64.ofNat k)
        · rw [he] at hex
          have hn : ¬ HasNb p.graph.w p.graph.h x y k := fun h => by simp [h] at hex
          simp only [Bool.not_false, if_true, if_neg hn]
          rfl
        · have hn := hex.1 he
          have e3 := neighborByIndex_mk hn
          unfold mkPixel at e3
          simp only [Bool.not_true, Bool.false_eq_true, if_false, if_pos hn, e3]
          have e4 : lowestNeighborhoodPenalty p
              { node := { pixel := { x := UInt64.ofNat x, y := UInt64.ofNat y }, disparity := 0 }
                neighbor := { pixel := { x := UInt64.ofNat (nbx x k), y := UInt64.ofNat (nby y k) }, disparity := 0 } }
              = .ok (p.edgeMin x y k) := lowestNeighborhoodPenalty_mk hp hn (d := 0) (d' := 0)
          have e5 := fetchEdgeAvailablePenalties_mk hg hn 0 0 (p.edgeMin x y k)
          unfold mkPixel at e5
          rw [e4, bind_ok, e5, bind_ok]
          rfl

/-! ## Contents -/

theorem mem_foldl_iff {α : Type} {a : F} {f : List F → α → List F} {P : α → Prop}
    (hf : ∀ s k, a ∈ f s k ↔ a ∈ s ∨ P k) (l : List α) (s : List F) :
    a ∈ l.foldl f s ↔ a ∈ s ∨ ∃ k ∈ l, P k := by
  induction l generalizing s with
  | nil => simp
  | cons b l ih =>
    rw [List.foldl_cons, ih, hf]
    simp [or_assoc]

theorem foldl_keeps {α β : Type} {f : β → α → β} {P : β → Prop} (hf : ∀ s k, P s → P (f s k)) (l : List α) {s : β}
    (hs : P s) : P (l.foldl f s) := by
  induction l generalizing s with
  | nil => exact hs
  | cons b l ih => exact ih (hf _ _ hs)

theorem mem_pixelDiffs {x y : Nat} (hx : x < g.w) (hy : y < g.h) {m a : F} :
    a ∈ g.pixelDiffs x y m ↔ ∃ d, g.IsNode x y d ∧ a = sub (g.nodeQ x y d) m := by
  unfold DisparityGraph.pixelDiffs DisparityGraph.IsNode
  simp only [List.mem_map, List.mem_range'_1]
  constructor
  · rintro ⟨d, hd, rfl⟩; exact ⟨d, by omega, rfl⟩
  · rintro ⟨d, hd, rfl⟩; exact ⟨d, by omega, rfl⟩

theorem mem_edgeDiffs {x y k : Nat} (hk : HasNb g.w g.h x y k) {m a : F} :
    a ∈ g.edgeDiffs x y k m ↔ ∃ d d', g.IsNode x y d ∧ g.IsNode (nbx x k) (nby y k) d' ∧ scanLo x (nbx x k) d ≤ d' ∧
      a = sub (g.edgeQ x y k d d') m := by
  unfold DisparityGraph.edgeDiffs
  simp only [List.mem_map]
  constructor
  · rintro ⟨⟨d, d'⟩, h, rfl⟩
    rw [mem_scan hk] at h
    exact ⟨d, d', h.1, h.2.1, h.2.2, rfl⟩
  · rintro ⟨d, d', h1, h2, h3, rfl⟩
    exact ⟨(d, d'), (mem_scan hk).2 ⟨h1, h2, h3⟩, rfl⟩

theorem joinF_ne_nil {s l : List F} (h : s ≠ [] ∨ l ≠ []) : joinF s l ≠ [] := by
  obtain ⟨a, ha⟩ : ∃ a, a ∈ mergeF s l := by
    rcases h with h | h
    · obtain ⟨a, ha⟩ := List.exists_mem_of_ne_nil _ h
      exact ⟨a, mem_mergeF.2 (.inl ha)⟩
    · obtain ⟨a, ha⟩ := List.exists_mem_of_ne_nil _ h
      exact ⟨a, mem_mergeF.2 (.inr ha)⟩
  unfold joinF
  rw [Ne, uniqueF_nil]
  rw [← mem_sortF] at ha
  exact List.ne_nil_of_mem ha

theorem fetchPx_ne_nil (hg : p.graph.Valid) {x y : Nat} (hx : x < p.graph.w) (hy : y < p.graph.h) (s : List F) :
    p.fetchPx x y s ≠ [] := by
  unfold LowestPenalties.fetchPx LowestPenalties.fetchNb
  refine foldl_keeps (P := (· ≠ [])) ?_ _ ?_
  · intro s k hs
    split
    · exact joinF_ne_nil (.inl hs)
    · exact hs
  · refine joinF_ne_nil (.inr ?_)
    rw [Ne, uniqueF_nil]
    refine List.ne_nil_of_mem (a := sub (p.graph.nodeQ x y 0) (p.pixelMin x y)) (mem_sortF.2 ?_)
    exact (mem_pixelDiffs hx hy).2 ⟨0, ⟨hx, hy, hg.levels_pos, by omega⟩, rfl⟩

theorem fetch_ne_nil (hp : p.Valid) : p.fetch ≠ [] := by
  have hw := hp.graph.width_pos
  have hh := hp.graph.height_pos
  have key : ∀ (n m : Nat) (s : List F), n < p.graph.w → 0 < m → m ≤ p.graph.h →
      (List.range' 0 m).foldl (fun s y => p.fetchPx n y s) s ≠ [] := by
    intro n m s hn hm hmh
    obtain ⟨m, rfl⟩ : ∃ k, m = k + 1 := ⟨m - 1, by omega⟩
    rw [List.range'_concat, List.foldl_append]
    exact fetchPx_ne_nil hp.graph hn (by omega) _
  unfold LowestPenalties.fetch
  obtain ⟨n, hn⟩ : ∃ n, p.graph.w = n + 1 := ⟨p.graph.w - 1, by omega⟩
  rw [hn, List.range'_concat, List.foldl_append]
  exact key _ _ _ (by omega) hh (Nat.le_refl _)

section
variable [LawfulFloat F]

theorem mem_joinF {a : F} {s l : List F} : a ∈ joinF s l ↔ a ∈ s ∨ a ∈ l := by
  unfold joinF
  rw [mem_uniqueF, mem_sortF, mem_mergeF]

theorem joinF_ascending (s l : List F) : Ascending (joinF s l) := uniqueF_ascending (sortF_sorted _)

theorem fetchPx_ascending (x y : Nat) (s : List F) : Ascending (p.fetchPx x y s) := by
  unfold LowestPenalties.fetchPx LowestPenalties.fetchNb
  refine foldl_keeps (P := Ascending) ?_ _ (joinF_ascending _ _)
  intro s k hs
  split
  · exact joinF_ascending _ _
  · exact hs

theorem fetch_ascending : Ascending p.fetch := by
  unfold LowestPenalties.fetch
  refine foldl_keeps (P := Ascending) ?_ _ List.Pairwise.nil
  exact fun s x hs => foldl_keeps (P := Ascending) (fun s y _ => fetchPx_ascending x y s) _ hs

theorem mem_fetchPx {a : F} {x y : Nat} {s : List F} :
    a ∈ p.fetchPx x y s ↔ a ∈ s ∨ (a ∈ p.graph.pixelDiffs x y (p.pixelMin x y) ∨
      ∃ k, HasNb p.graph.w p.graph.h x y k ∧ a ∈ p.graph.edgeDiffs x y k (p.edgeMin x y k)) := by
  unfold LowestPenalties.fetchPx LowestPenalties.fetchNb
  rw [mem_foldl_iff (P := fun k => HasNb p.graph.w p.graph.h x y k ∧ a ∈ p.graph.edgeDiffs x y k (p.edgeMin x y k)),
    mem_joinF, mem_uniqueF, mem_sortF, or_assoc]
  · refine or_congr_right (or_congr_right ⟨?_, ?_⟩)
    · rintro ⟨k, -, h⟩; exact ⟨k, h⟩
    · rintro ⟨k, h⟩
      exact ⟨k, by rw [List.mem_range'_1]; have := h.1.lt4; omega, h⟩
  · intro s k
    split
    · rename_i h
      rw [mem_joinF, mem_uniqueF, mem_sortF]
      simp [h]
    · rename_i h
      simp [h]

theorem mem_fetch {a : F} :
    a ∈ p.fetch ↔ ∃ x y, x < p.graph.w ∧ y < p.graph.h ∧ (a ∈ p.graph.pixelDiffs x y (p.pixelMin x y) ∨
      ∃ k, HasNb p.graph.w p.graph.h x y k ∧ a ∈ p.graph.edgeDiffs x y k (p.edgeMin x y k)) := by
  unfold LowestPenalties.fetch
  rw [mem_foldl_iff (P := fun x => ∃ y ∈ List.range' 0 p.graph.h,
    (a ∈ p.graph.pixelDiffs x y (p.pixelMin x y) ∨
      ∃ k, HasNb p.graph.w p.graph.h x y k ∧ a ∈ p.graph.edgeDiffs x y k (p.edgeMin x y k)))]
  · simp only [List.mem_range'_1, List.not_mem_nil, false_or]
    constructor
    · rintro ⟨x, hx, y, hy, h⟩; exact ⟨x, y, by omega, by omega, h⟩
    · rintro ⟨x, y, hx, hy, h⟩; exact ⟨x, by omega, y, by omega, h⟩
  · intro s x
    exact mem_foldl_iff (f := fun s y => p.fetchPx x y s)
      (P := fun y => a ∈ p.graph.pixelDiffs x y (p.pixelMin x y) ∨
        ∃ k, HasNb p.graph.w p.graph.h x y k ∧ a ∈ p.graph.edgeDiffs x y k (p.edgeMin x y k))
      (fun s y => mem_fetchPx) _ _

end
end SP
