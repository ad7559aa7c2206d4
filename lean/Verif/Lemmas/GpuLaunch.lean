import Verif.Lemmas.GpuCount
/-!
# Launches of kernels
-/
set_option linter.unusedSectionVars false

namespace SP
open FloatOps ConstraintGraph
variable {F : Type} [FloatOps F] {c c' : ConstraintGraph F} {n : Nat} {fresh : Bool} {group : Nat → Nat}

namespace Gpu

/-- Work items of the kernel are in one to one correspondence with pixels. -/
structure CoversAt (kernel : Kernel F) (cl : Bool) (c : ConstraintGraph F) (px py : Nat → Nat) : Prop where
  item : ∀ i, i < c.w * c.h → px i < c.w ∧ py i < c.h ∧ IsItem c (px i) (py i) cl (kernel c (UInt64.ofNat i))
  surj : ∀ x y, x < c.w → y < c.h → ∃ i, i < c.w * c.h ∧ px i = x ∧ py i = y
  inj : ∀ i j, i < c.w * c.h → j < c.w * c.h → px i = px j → py i = py j → i = j

/-- So for all graphs. -/
def Covers (kernel : Kernel F) (cl : Bool) : Prop := ∀ c, c.Valid → ∃ px py, CoversAt kernel cl c px py

/-- The pixel of a work item. -/
theorem itemPixel_mk {c : ConstraintGraph F} (hc : c.Valid) {i : Nat} (hi : i < c.w * c.h) :
    itemPixel c (UInt64.ofNat i) = mkPixel (i % c.w) (i / c.w) := by
  have hwt : c.disparityGraph.right.width.toNat = c.w := rfl
  have hi64 : i < 18446744073709551616 := Nat.lt_trans hi hc.bounds.wh
  unfold itemPixel mkPixel
  congr 1
  · apply UInt64.toNat.inj
    rw [UInt64.toNat_mod, hwt, toNat_ofNat, toNat_ofNat, Nat.mod_eq_of_lt hi64]
    exact (Nat.mod_eq_of_lt (Nat.lt_of_le_of_lt (Nat.mod_le _ _) hi64)).symm
  · apply UInt64.toNat.inj
    rw [UInt64.toNat_div, hwt, toNat_ofNat, toNat_ofNat, Nat.mod_eq_of_lt hi64, Nat.mod_eq_of_lt]
    exact Nat.lt_of_le_of_lt (Nat.div_le_self _ _) hi64

theorem coversAt_cl (hc : c.Valid) : CoversAt cspIteration true c (fun i => i % c.w) fun i => i / c.w := by
  have hb := hc.bounds
  have hw : 0 < c.w := hc.graph.width_pos
  have hwt : c.disparityGraph.right.width.toNat = c.w := rfl
  refine ⟨?_, ?_, ?_⟩
  · intro i hi
    have hlt : i / c.w < c.h := Nat.div_lt_of_lt_mul hi
    refine ⟨Nat.mod_lt _ hw, hlt, ?_⟩
    have e := itemPixel_mk hc hi
    have : cspIteration c (UInt64.ofNat i) = .store (changedWord c 0) (fun _ => false) (.store (changedWord c 1)
        (fun _ => false) (rounds c (markCl c) (itemPixel c (UInt64.ofNat i)) (roundsLimit c))) := rfl
    rw [this, e]
    exact .cl
  · intro x y hx hy
    refine ⟨y * c.w + x, ?_, ?_, ?_⟩
    · have : (y + 1) * c.w ≤ c.h * c.w := Nat.mul_le_mul_right _ hy
      rw [Nat.add_mul] at this
      rw [Nat.mul_comm c.w]
      omega
    · simp only [Nat.mul_add_mod_self_right, Nat.mod_eq_of_lt hx]
    · rw [Nat.mul_comm, Nat.mul_add_div hw, Nat.div_eq_of_lt hx, Nat.add_zero]
  · intro i j _ _ h1 h2
    rw [← Nat.mod_add_div i c.w, ← Nat.mod_add_div j c.w, h1, h2]

/-- The pixel of a thread. -/
theorem threadPixel_mk {c : ConstraintGraph F} (hc : c.Valid) {i : Nat} (hi : i < c.w * c.h) :
    threadPixel c (UInt64.ofNat i) = mkPixel (i / c.h) (i % c.h) := by
  have hht : c.disparityGraph.right.height.toNat = c.h := rfl
  have hi64 : i < 18446744073709551616 := Nat.lt_trans hi hc.bounds.wh
  unfold threadPixel mkPixel
  congr 1
  · apply UInt64.toNat.inj
    rw [UInt64.toNat_div, hht, toNat_ofNat, toNat_ofNat, Nat.mod_eq_of_lt hi64, Nat.mod_eq_of_lt]
    exact Nat.lt_of_le_of_lt (Nat.div_le_self _ _) hi64
  · apply UInt64.toNat.inj
    rw [UInt64.toNat_mod, hht, toNat_ofNat, toNat_ofNat, Nat.mod_eq_of_lt hi64]
    exact (Nat.mod_eq_of_lt (Nat.lt_of_le_of_lt (Nat.mod_le _ _) hi64)).symm

theorem covers_cl : Covers (F := F) cspIteration true := fun _ hc => ⟨_, _, coversAt_cl hc⟩

theorem coversAt_cuda (hc : c.Valid) : CoversAt cspIterationCuda false c (fun i => i / c.h) fun i => i % c.h := by
  have hb := hc.bounds
  have hh : 0 < c.h := hc.graph.height_pos
  have hht : c.disparityGraph.right.height.toNat = c.h := rfl
  refine ⟨?_, ?_, ?_⟩
  · intro i hi
    have hlt : i / c.h < c.w := Nat.div_lt_of_lt_mul (by rw [Nat.mul_comm]; exact hi)
    refine ⟨hlt, Nat.mod_lt _ hh, ?_⟩
    have e := threadPixel_mk hc hi
    have : cspIterationCuda c (UInt64.ofNat i) = rounds c (markCuda c) (threadPixel c (UInt64.ofNat i)) (roundsLimit c) := rfl
    rw [this, e]
    exact .cuda
  · intro x y hx hy
    refine ⟨x * c.h + y, ?_, ?_, ?_⟩
    · have : (x + 1) * c.h ≤ c.w * c.h := Nat.mul_le_mul_right _ hx
      rw [Nat.add_mul] at this
      omega
    · rw [Nat.mul_comm, Nat.mul_add_div hh, Nat.div_eq_of_lt hy, Nat.add_zero]
    · simp only [Nat.mul_add_mod_self_right, Nat.mod_eq_of_lt hy]
  · intro i j _ _ h1 h2
    rw [← Nat.mod_add_div i c.h, ← Nat.mod_add_div j c.h, h1, h2]

theorem covers_cuda : Covers (F := F) cspIterationCuda false := fun _ hc => ⟨_, _, coversAt_cuda hc⟩

end Gpu

open Gpu
variable {kernel : Kernel F} {cl : Bool} {d d' : Device F} {P : Pool Unit}

theorem Device.items_eq (hc : d.graph.Valid) : d.items = d.graph.w * d.graph.h := hc.graph.right_size

theorem Device.flags_flag {w : Nat} (h : IsFlag d.graph w) : d.flags w = flagsOf d.graph.nodesAvailability w := by
  unfold Device.flags; exact if_pos h

theorem launch_mem (kernel : Kernel F) (d : Device F) (w : Nat) : (d.launch kernel).mem w = [d.flags] := rfl

theorem get_single {β : Type} {a v : β} {t : Nat} (h : [a][t]? = some v) : v = a ∧ t = 0 := by
  rw [List.getElem?_singleton] at h
  split at h
  · simp at h; exact ⟨h.symm, by assumption⟩
  · simp at h

section
variable (hk : Covers kernel cl) (hc : d.graph.Valid) (hs : Steps fresh group d.items (d.launch kernel) P)
include hk hc hs

/-- In all executions flags are only cleared, only those that were set, and nobody fails except for going on for too long. -/
theorem launch_clear :
    (∀ (w t : Nat) (v : Flags), IsFlag d.graph w → (P.mem w)[t]? = some v →
      (t = 0 ∧ v w = flagsOf d.graph.nodesAvailability w) ∨
      (1 ≤ t ∧ v w = false ∧ flagsOf d.graph.nodesAvailability w = true)) ∧
    (∀ i er, i < d.items → P.prog i = .fail er → er = .nonterm) := by
  obtain ⟨px, py, hcov⟩ := hk _ hc
  let A := flagsOf d.graph.nodesAvailability
  have := hs.sound' (e := envClear d.graph A (· = .nonterm)) (Q := fun _ _ _ => True) (Pool.start_ok _ _)
    (by
      intro s w t v hv hf htrue
      rw [launch_mem] at hv
      obtain ⟨rfl, rfl⟩ := get_single hv
      rw [Device.flags_flag hf] at htrue
      exact ⟨htrue, rfl⟩)
    (by
      intro s w t v _ hg hf htrue
      rw [(hg hf).1] at htrue
      cases htrue)
    (by
      intro w t v ht
      rw [launch_mem] at ht
      exact ht)
    (by
      intro i hi
      rw [d.items_eq hc] at hi
      obtain ⟨hx, hy, hit⟩ := hcov.item i hi
      refine item_flags_wp hit rfl (fun k b _ hf => absurd hf (changed_notFlag _ _)) fun s => ?_
      refine (processPixel_clear (A := A) hc hx hy (fun _ _ _ _ h => h) (fun _ _ _ h => h) ?_).mono fun _ _ _ _ => trivial
      exact fun w v _ h1 h2 _ => ⟨h1, h2⟩)
  refine ⟨?_, ?_⟩
  · intro w t v hf hv
    obtain ⟨l, hl, hg⟩ := this.1 w
    rw [launch_mem] at hl
    rw [hl] at hv
    cases t with
    | zero =>
      simp at hv
      rw [← hv, Device.flags_flag hf]
      exact .inl ⟨rfl, rfl⟩
    | succ t =>
      simp at hv
      have := hg v (List.mem_of_getElem? hv) hf
      exact .inr ⟨by omega, this⟩
  · intro i er hi he
    have := this.2 i hi
    rw [he] at this
    exact this

/-- Nodes of an arc consistent set are never removed. -/
theorem launch_keep (hp : d.graph.Proper) {S : NodeSet} (hS : Sub S d.graph.Av)
    (harc : ArcConsistent d.graph.w d.graph.h d.graph.E S) :
    ∀ (w t : Nat) (v : Flags), IsFlag d.graph w → (P.mem w)[t]? = some v → Above 1 d.graph S w v := by
  obtain ⟨px, py, hcov⟩ := hk _ hc
  have h0 : ∀ w, IsFlag d.graph w → Above 1 d.graph S w d.flags := by
    intro w hf x y dd h hw
    have : d.graph.ix x y dd = w := by rw [← hw, Nat.div_one]
    rw [this, Device.flags_flag hf, ← this]
    exact (hS x y dd h).2.2.2
  have := hs.sound' (e := envKeep d.graph S) (Q := fun _ _ _ => True) (Pool.start_ok _ _)
    (by
      intro s w t v hv hf
      rw [launch_mem] at hv
      obtain ⟨rfl, rfl⟩ := get_single hv
      exact h0 w hf)
    (fun _ _ _ _ _ h => h) (fun _ _ _ _ => trivial)
    (by
      intro i hi
      rw [d.items_eq hc] at hi
      obtain ⟨hx, hy, hit⟩ := hcov.item i hi
      refine item_flags_wp hit trivial (fun k b _ hf => absurd hf (changed_notFlag _ _)) fun s => ?_
      exact processPixel_keep hc hx hy (fun x y dd h => hp _ _ _ (hS _ _ _ h)) harc)
  intro w t v hf hv
  obtain ⟨l, hl, hg⟩ := this.1 w
  rw [launch_mem] at hl
  rw [hl] at hv
  rcases List.mem_append.1 (List.mem_of_getElem? hv) with h | h
  · rw [List.mem_singleton] at h
    subst h
    exact h0 w hf
  · exact hg v h hf

/-- There are never more than enough rounds: nobody goes on for too long. -/
theorem launch_rounds : ∀ i er, i < d.items → P.prog i ≠ .fail er := by
  obtain ⟨px, py, hcov⟩ := hk _ hc
  intro i er hi he
  have hnt := (launch_clear hk hc hs).2 i er hi he
  subst hnt
  let A := flagsOf d.graph.nodesAvailability
  have hbud := hs.budget (e := envClear d.graph A fun _ => True) (w0 := changedWord d.graph 0) (K := fun _ => d.graph.levels)
    (Q := fun _ _ _ _ => True) (Pool.start_ok _ _)
    (by
      intro P'' hs'' s w t v hv hf htrue
      rcases (launch_clear hk hc hs'').1 w t v hf hv with ⟨h1, h2⟩ | ⟨_, h2, _⟩
      · rw [h2] at htrue; exact ⟨htrue, h1⟩
      · rw [h2] at htrue; cases htrue)
    (by
      intro w t v ht
      rw [launch_mem] at ht
      exact ht)
    (by
      intro j hj
      rw [d.items_eq hc] at hj
      obtain ⟨hx, hy, hit⟩ := hcov.item j hj
      exact item_budget (A := A) hit hc hx hy (fun _ _ _ _ h => h) (fun _ _ _ h => h))
  obtain ⟨K', -, hsum⟩ := hbud
  have hle : sumTo (fun _ => d.graph.levels) d.items ≤ d.items * d.graph.levels := sumTo_le fun _ _ => Nat.le_refl _
  have hone : trues (changedWord d.graph 0) ((d.launch kernel).mem (changedWord d.graph 0)) ≤ 1 := by
    rw [launch_mem]; exact List.countP_le_length
  have hsz : d.items * d.graph.levels = d.graph.nodesAvailability.size := by
    rw [d.items_eq hc, hc.size]; rfl
  have hdrop : trues (changedWord d.graph 0) ((P.mem (changedWord d.graph 0)).drop 1)
      ≤ trues (changedWord d.graph 0) (P.mem (changedWord d.graph 0)) := by
    exact (List.drop_sublist 1 _).countP_le
  obtain ⟨own, -, hloc⟩ := hs.local (Pool.start_ok _ _)
  have hi' := hi
  rw [d.items_eq hc] at hi'
  obtain ⟨hx, hy, hit⟩ := hcov.item i hi'
  have := hloc i hi
    { R := fun _ w t v => (P.mem w)[t]? = some v
      St := fun w t v => (P.mem w)[t]? = some v
      G := fun _ _ => True
      E := fun er => er ≠ .nonterm } (fun _ _ => True) (fun s w t v hv _ => hv) (fun w t v hv _ _ => hv)
    (item_count (l := P.mem (changedWord d.graph 0)) hit hc hx hy (fun _ _ _ h => h) (fun _ _ h => h) (fun _ _ => trivial)
      (by omega))
  rw [he] at this
  exact this rfl

/-- What is known when nothing has been stored in flags. -/
theorem launch_still (hp : d.graph.Proper) (hlen : ∀ w, IsFlag d.graph w → (P.mem w).length = 1) :
    ((∀ i, i < d.items → P.prog i = .ret ()) →
      ArcConsistent d.graph.w d.graph.h d.graph.E d.graph.Av) ∧
    (∀ (k t : Nat) (v : Flags), k ≤ 1 → 1 ≤ t → (P.mem (changedWord d.graph k))[t]? = some v → v (changedWord d.graph k) = false) := by
  obtain ⟨px, py, hcov⟩ := hk _ hc
  obtain ⟨own, hown, hloc⟩ := hs.local' (Pool.start_ok _ _)
  let A := flagsOf d.graph.nodesAvailability
  let e : Env :=
    { R := fun _ w _ v => IsFlag d.graph w → v w = A w
      St := fun w _ _ => ¬ IsFlag d.graph w
      G := fun w v => ¬ IsFlag d.graph w → v w = false
      E := fun _ => True }
  have key : ∀ i, i < d.items → Wp e (P.prog i) (P.seen i)
        (fun _ _ => ∀ dd, d.graph.Av (px i) (py i) dd → Supported d.graph.w d.graph.h d.graph.E d.graph.Av (px i) (py i) dd) ∧
      ∀ (w t : Nat) (v : Flags), (P.mem w)[t]? = some v → 1 ≤ t → own w t = i → e.G w v := by
    intro i hi
    have hi' := hi
    rw [d.items_eq hc] at hi'
    obtain ⟨hx, hy, hit⟩ := hcov.item i hi'
    refine hloc i hi e _ ?_ ?_ ?_
    · intro s w t v hv _ hf
      have h1 := hlen w hf
      have := (List.getElem?_eq_some_iff.1 hv).1
      rcases (launch_clear hk hc hs).1 w t v hf hv with ⟨_, h⟩ | ⟨h, _⟩
      · exact h
      · omega
    · intro w t v hv ht _ hf
      have h1 := hlen w hf
      have := (List.getElem?_eq_some_iff.1 hv).1
      rw [launch_mem] at ht
      simp at ht
      omega
    · have hst : ∀ s, Wp e (Par.cspProcessPixel 1 d.graph (mkPixel (px i) (py i))) s fun ch _ =>
          ch = false ∧ ∀ dd, d.graph.Av (px i) (py i) dd →
            Supported d.graph.w d.graph.h d.graph.E d.graph.Av (px i) (py i) dd :=
        fun s => processPixel_still (A := A) hc hx hy hp (fun _ _ _ _ h => h) (fun _ _ _ h => h) (fun w v hf hnf => absurd hf hnf)
      refine item_wp hit trivial (fun _ => rfl) (fun _ _ => rfl) fun s => ?_
      exact (hst s).mono fun ch _ _ h => ⟨h.2, fun hch => by rw [h.1] at hch; cases hch⟩
  refine ⟨fun hr x y dd hav => ?_, fun k t v _ ht hv => ?_⟩
  · obtain ⟨i, hi, rfl, rfl⟩ := hcov.surj x y hav.1 hav.2.1
    rw [← d.items_eq hc] at hi
    have := (key i hi).1
    rw [hr i hi] at this
    exact this dd hav
  · have hlt := (List.getElem?_eq_some_iff.1 hv).1
    exact (key _ (hown _ t (by rw [launch_mem]; exact ht) hlt).1).2 _ t v hv ht rfl (changed_notFlag _ _)

/-- If nothing is missing in the end then nothing has been stored in flags. -/
theorem launch_same (hsame : Sub d.graph.Av (d.withFlags (current 1 P.mem)).graph.Av) :
    ∀ w, IsFlag d.graph w → (P.mem w).length = 1 := by
  intro w hf
  obtain ⟨t, v, hv, hlen, hcur⟩ := current_get (B := 1) hs w
  rcases (launch_clear hk hc hs).1 w t v hf hv with ⟨h, _⟩ | ⟨_, h1, h2⟩
  · omega
  · exfalso
    have hf' := hf
    unfold IsFlag at hf'
    rw [hc.size] at hf'
    obtain ⟨x, y, dd, hx, hy, hd, he⟩ := nidx_surj (w := d.graph.w) (h := d.graph.h) (l := d.graph.levels) (i := w) hf'
    have hav : d.graph.Av x y dd := ⟨hx, hy, hd, by rw [← he] at h2; exact h2⟩
    have := hsame x y dd hav
    change (d.graph.withFlags _).Av x y dd at this
    rw [withFlags_av hc] at this
    have h3 := this.2.2.2
    change current 1 P.mem (nidx _ _ _ _ _) = true at h3
    rw [he, hcur w (Nat.div_one w), h1] at h3
    cases h3

/-- When an OpenCL kernel is over, something has been stored in `changed[1]`. -/
theorem launch_reset (hcl : cl = true) (hr : ∀ i, i < d.items → P.prog i = .ret ()) :
    1 < (P.mem (changedWord d.graph 1)).length := by
  subst hcl
  obtain ⟨px, py, hcov⟩ := hk _ hc
  obtain ⟨own, -, hloc⟩ := hs.local (Pool.start_ok _ _)
  have h0 : 0 < d.graph.w * d.graph.h := Nat.mul_pos hc.graph.width_pos hc.graph.height_pos
  have h0' : 0 < d.items := by rw [d.items_eq hc]; exact h0
  obtain ⟨hx, hy, hit⟩ := hcov.item 0 h0
  let e : Env :=
    { R := fun _ _ _ _ => True
      St := fun _ t _ => 1 ≤ t
      G := fun _ _ => True
      E := fun _ => True }
  have := hloc 0 h0' e (fun _ s => 1 ≤ s (changedWord d.graph 1)) (fun _ _ _ _ _ _ => trivial)
    (fun w t v _ ht _ => by rw [launch_mem] at ht; exact ht) ?_
  · rw [hr 0 h0'] at this
    have h2 : 1 ≤ P.seen 0 (changedWord d.graph 1) := this
    have := hs.ok (Pool.start_ok _ _) 0 (changedWord d.graph 1) h0'
    omega
  · change Wp e (kernel d.graph (UInt64.ofNat 0)) _ _
    generalize kernel d.graph (UInt64.ofNat 0) = p at hit
    cases hit with
    | cl =>
      refine ⟨trivial, fun t _ _ => ⟨trivial, fun t' _ (ht' : 1 ≤ t') => ?_⟩⟩
      have hb : ∀ s, Wp e (Par.cspProcessPixel 1 d.graph (mkPixel (px 0) (py 0))) s fun ch s' =>
          True ∧ (ch = true → Wp e (markCl d.graph) s' fun _ _ => True) := by
        intro s
        refine cspProcessPixel_wp hc hx hy (fun _ _ _ => True) trivial ?_
          (fun _ _ _ _ => ⟨trivial, fun _ => mark_wp (cl := true) trivial fun _ => trivial⟩)
        intro dd ch s2 _ hn _
        refine (shouldRemoveNode_wp hc hn).mono ?_
        intro b s3 _ _
        cases b
        · simp
        · simp only [if_true]
          exact fun _ _ _ _ => ⟨trivial, fun _ _ _ => trivial⟩
      refine (rounds_wp (Fact := True) trivial trivial hb).mono ?_
      intro _ s' hs' _
      have := hs' (changedWord d.graph 1)
      rw [setAt_self] at this
      omega

end

theorem LaunchTo.basic (hk : Covers kernel cl) (hc : d.graph.Valid) (h : LaunchTo kernel group d d') :
    d.graph.Same d'.graph ∧ d'.graph.Valid ∧ Sub d'.graph.Av d.graph.Av := by
  obtain ⟨P, hs, hr, rfl⟩ := h
  refine ⟨withFlags_same _ _, withFlags_valid hc _, ?_⟩
  intro x y dd hav
  change (d.graph.withFlags _).Av x y dd at hav
  rw [withFlags_av hc] at hav
  obtain ⟨hx, hy, hd, hav⟩ := hav
  refine ⟨hx, hy, hd, ?_⟩
  obtain ⟨t, v, hv, _, hcur⟩ := current_get (B := 1) hs (d.graph.ix x y dd)
  rw [hcur _ (Nat.div_one _)] at hav
  rcases (launch_clear hk hc hs).1 _ t v (ix_flag hc hx hy hd) hv with ⟨_, h⟩ | ⟨_, h, _⟩
  · rw [h] at hav; exact hav
  · rw [h] at hav; cases hav

/-- Arc consistent sets survive. -/
theorem LaunchTo.keeps (hk : Covers kernel cl) (hc : d.graph.Valid) (hp : d.graph.Proper) (h : LaunchTo kernel group d d')
    {S : NodeSet} (hS : Sub S d.graph.Av) (harc : ArcConsistent d.graph.w d.graph.h d.graph.E S) : Sub S d'.graph.Av := by
  obtain ⟨P, hs, hr, rfl⟩ := h
  intro x y dd hSd
  obtain ⟨hx, hy, hd, _⟩ := hS x y dd hSd
  show (d.graph.withFlags _).Av x y dd
  rw [withFlags_av hc]
  refine ⟨hx, hy, hd, ?_⟩
  obtain ⟨t, v, hv, _, hcur⟩ := current_get (B := 1) hs (d.graph.ix x y dd)
  rw [hcur _ (Nat.div_one _)]
  exact launch_keep hk hc hs hp hS harc _ t v (ix_flag hc hx hy hd) hv x y dd hSd (Nat.div_one _)

/-- A launch that changes nothing: the graph is arc consistent and no change is reported. -/
theorem LaunchTo.stable (hk : Covers kernel cl) (hc : d.graph.Valid) (hp : d.graph.Proper) (h : LaunchTo kernel group d d')
    (hsame : Sub d.graph.Av d'.graph.Av) :
    ArcConsistent d.graph.w d.graph.h d.graph.E d.graph.Av ∧ (cl = true → d'.changed 1 = false) := by
  obtain ⟨P, hs, hr, rfl⟩ := h
  have hst := launch_still hk hc hs hp (launch_same hk hc hs hsame)
  refine ⟨hst.1 hr, fun hcl => ?_⟩
  suffices h : current 1 P.mem (changedWord d.graph 1) = false by simp [Device.withFlags, h]
  obtain ⟨t, v, hv, hlen, hcur⟩ := current_get (B := 1) hs (changedWord d.graph 1)
  rw [hcur _ (Nat.div_one _)]
  have h1 := launch_reset hk hc hs hcl hr
  exact hst.2 1 t v (by omega) (by omega) hv

end SP
