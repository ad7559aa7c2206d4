import Verif.Lemmas.Images
import Verif.Props.Double
import Verif.Props.CudaKernel
/-!
# Property C104: only differences of intensities matter

If both images are made lighter or darker by the same amount, or both are replaced by negatives, then the map does not change.
-/
set_option maxRecDepth 1000000
namespace SP
open FloatOps Gpu

/-- Two pairs of images of the same size with the same contrast between each pixel of the right image and each pixel of the left one. -/
structure KeepsDifferences (left right left' right' : Image) : Prop where
  width : left'.width = left.width ∧ right'.width = right.width
  height : left'.height = left.height ∧ right'.height = right.height
  maxValue : left.maxValue = right.maxValue ∧ left'.maxValue = right'.maxValue
  before : left.Meaningful ∧ right.Meaningful
  after : left'.Meaningful ∧ right'.Meaningful
  differences : ∀ i j, i < left.data.size → j < right.data.size →
    |((right'.data.getD j 0).toNat : ℤ) - (left'.data.getD i 0).toNat| = |((right.data.getD j 0).toNat : ℤ) - (left.data.getD i 0).toNat|

/-- The square of a difference of numbers that are exact depends on the absolute value of the difference only. -/
theorem Ieee.square_abs {fmt : Format} {u v u' v' : ℕ} (hu : u ≤ 2 ^ fmt.digits) (hv : v ≤ 2 ^ fmt.digits) (hu' : u' ≤ 2 ^ fmt.digits)
    (hv' : v' ≤ 2 ^ fmt.digits) (h : |(v' : ℤ) - u'| = |(v : ℤ) - u|) :
    (sqr (sub (ofNat v') (ofNat u')) : Ieee fmt) = sqr (sub (ofNat v) (ofNat u)) := by
  have ag : fmt.Agree fmt fmt.digits := (Format.Within.refl fmt).agree
  have key : ∀ {a b : ℕ}, a ≤ 2 ^ fmt.digits → b ≤ 2 ^ fmt.digits → ∃ x : fmt.Num, x.1 = (((b : ℤ) - a : ℤ) : ℚ) ∧
      (sub (ofNat b) (ofNat a) : Ieee fmt) = Ieee.of ag.toWithin x := by
    intro a b ha hb
    have h1 := Format.ofNat_exact (fmt := fmt) le_rfl ha
    have h2 := Format.ofNat_exact (fmt := fmt) le_rfl hb
    have hd : |(b : ℤ) - a| ≤ 2 ^ fmt.digits := by
      have : (a : ℤ) ≤ 2 ^ fmt.digits := by exact_mod_cast ha
      have : (b : ℤ) ≤ 2 ^ fmt.digits := by exact_mod_cast hb
      rw [abs_le]
      constructor <;> omega
    refine ⟨sub (ofNat b) (ofNat a), Format.sub_exact le_rfl (by rw [h2]; simp) (by rw [h1]; simp) hd, ?_⟩
    rw [Ieee.sub_of ag (m := b) (n := a) (by rw [h2]; simp) (by rw [h1]; simp) hd, (Ieee.ofNat_of ag ha le_rfl).1, (Ieee.ofNat_of ag hb le_rfl).1]
  obtain ⟨x, hx, ex⟩ := key hu hv
  obtain ⟨x', hx', ex'⟩ := key hu' hv'
  rw [ex, ex']
  have hm : Ieee.magnitudeOf ag.toWithin x' = Ieee.magnitudeOf ag.toWithin x := by
    apply Subtype.ext
    rw [Ieee.magnitudeOf_val, Ieee.magnitudeOf_val, hx, hx', ← Int.cast_abs, ← Int.cast_abs, h]
  show Ieee.rounded (_ ^^ _) (_ * _) = Ieee.rounded (_ ^^ _) (_ * _)
  rw [Bool.xor_self, Bool.xor_self, hm]

section
variable {left right left' right' : Image}

theorem KeepsDifferences.squares (h : KeepsDifferences left right left' right') {fmt : Format} {b : ℕ} (hb : b ≤ 2 ^ fmt.digits)
    (hm : left.maxValue.toNat ≤ b) (hm' : left'.maxValue.toNat ≤ b) :
    SameSquares (Ieee fmt) left.data right.data left'.data right'.data := by
  intro i j u v u' v' h1 h2 h3 h4
  obtain ⟨i1, rfl⟩ := Array.getElem?_eq_some_iff.1 h1
  obtain ⟨i2, rfl⟩ := Array.getElem?_eq_some_iff.1 h2
  obtain ⟨i3, rfl⟩ := Array.getElem?_eq_some_iff.1 h3
  obtain ⟨i4, rfl⟩ := Array.getElem?_eq_some_iff.1 h4
  have hd := h.differences i j i1 i2
  simp only [Array.getD, i1, i2, i3, i4, dif_pos] at hd
  refine Ieee.square_abs (((h.before.1.2.2.2 _ (Array.getElem_mem i1)).trans hm).trans hb)
    (((h.before.2.2.2.2 _ (Array.getElem_mem i2)).trans (h.maxValue.1 ▸ hm)).trans hb)
    (((h.after.1.2.2.2 _ (Array.getElem_mem i3)).trans hm').trans hb)
    (((h.after.2.2.2.2 _ (Array.getElem_mem i4)).trans (h.maxValue.2 ▸ hm')).trans hb) hd

theorem KeepsDifferences.symm (h : KeepsDifferences left right left' right') (hs : left.Sized ∧ right.Sized ∧ left'.Sized ∧ right'.Sized) :
    KeepsDifferences left' right' left right where
  width := ⟨h.width.1.symm, h.width.2.symm⟩
  height := ⟨h.height.1.symm, h.height.2.symm⟩
  maxValue := ⟨h.maxValue.2, h.maxValue.1⟩
  before := h.after
  after := h.before
  differences i j hi hj := by
    refine (h.differences i j ?_ ?_).symm
    · rwa [hs.1.size, ← h.width.1, ← h.height.1, ← hs.2.2.1.size]
    · rwa [hs.2.1.size, ← h.width.2, ← h.height.2, ← hs.2.2.2.size]

theorem imageValid_meaningful {im : Image} (hs : im.Sized) (hm : im.Meaningful) : imageValid im = .ok true := by
  obtain ⟨b, eb, hb⟩ := imageValid_mk im hs.size hs.small
  rw [eb, hb.2 hm]

theorem KeepsDifferences.same {F : Type} [FloatOps F] (h : KeepsDifferences left right left' right')
    (hs : left.Sized ∧ right.Sized ∧ left'.Sized ∧ right'.Sized) (hq : SameSquares F left.data right.data left'.data right'.data) :
    SameDifferences F left right left' right' where
  leftWidth := h.width.1
  leftHeight := h.height.1
  rightWidth := h.width.2
  rightHeight := h.height.2
  leftSize := by rw [hs.1.size, hs.2.2.1.size, h.width.1, h.height.1]
  rightSize := by rw [hs.2.1.size, hs.2.2.2.size, h.width.2, h.height.2]
  maxValue := iff_of_true h.maxValue.2 h.maxValue.1
  leftValid := by rw [imageValid_meaningful hs.1 h.before.1, imageValid_meaningful hs.2.2.1 h.after.1]
  rightValid := by rw [imageValid_meaningful hs.2.1 h.before.2, imageValid_meaningful hs.2.2.2 h.after.2]
  squares := hq

end

/-! ## Any arithmetic -/

section
variable {F D : Type} [FloatOps F] [FloatOps D] {B : Nat} {jobs : UInt64} {world : World F} {left right left' right' : Image} {l r : Text}
  {files : Text → Option Text}

/-- Whatever the arithmetic, the number of threads, their schedules and devices are, the program may do with other images what it does with the
given ones, if squares of differences of intensities are computed to be the same. -/
theorem C104_any_arithmetic {conv : F → D} {allowed : (Nat → Nat) → Prop} (hruns : world.Runs B jobs) (hdev : world.Devices conv allowed)
    (hl : readImage world l = .ok left) (hr : readImage world r = .ok right) (hl' : readImage { world with file := files } l = .ok left')
    (hr' : readImage { world with file := files } r = .ok right') (hd : SameDifferences F left right left' right')
    (hd' : SameSquares D left.data right.data left'.data right'.data) {o : Options} (h1 : o.leftImage = some l) (h2 : o.rightImage = some r) :
    ∃ world' : World F, world'.file = files ∧ world'.writable = world.writable ∧ world'.memory = world.memory ∧ world'.room = world.room ∧
      world'.Runs B jobs ∧ (world.solve.Possible B jobs → world'.solve.Possible B jobs) ∧ world'.Devices conv allowed ∧
      (world.CpuOnly → world'.CpuOnly) ∧ program world' (.parsed o) = program world (.parsed o) := by
  obtain ⟨world', he, hf, hm, hruns', hp, hdev'⟩ := World.images hd.symm (fun i j u v u' v' h1 h2 h3 h4 => (hd' i j u' v' u v h3 h4 h1 h2).symm) hruns hdev files
  have hread : ∀ path, readImage world' path = readImage { world with file := files } path := by
    intro path
    unfold readImage
    rw [hf, hm]
  refine ⟨world', hf, he.writable, hm, he.room, hruns', hp, hdev', ?_, ?_⟩
  · rintro ⟨c1, c2⟩
    refine ⟨?_, ?_⟩
    · rcases he.openCL with h | ⟨_, _, _, h, _⟩
      · exact h.1
      · rw [c1] at h; cases h
    · rcases he.cuda with h | ⟨_, _, _, h, _⟩
      · exact h.1
      · rw [c2] at h; cases h
  · exact (program_images hd.symm he ((hread l).trans hl') ((hread r).trans hr') hl hr h1 h2).symm

/-- Without OpenCL and CUDA, if workers are executed one after another (or there is one thread), the program does the same. -/
theorem C104_in_order (hs : world.solve = fun _ => solveCsp jobs) (hcpu : world.CpuOnly)
    (hl : readImage world l = .ok left) (hr : readImage world r = .ok right) (hl' : readImage { world with file := files } l = .ok left')
    (hr' : readImage { world with file := files } r = .ok right') (hd : SameDifferences F left right left' right')
    {o : Options} (h1 : o.leftImage = some l) (h2 : o.rightImage = some r) :
    program { world with file := files } (.parsed o) = program world (.parsed o) := by
  refine (program_images (world := world) (world' := { world with file := files }) hd.symm ⟨rfl, rfl, fun n c hc => ?_, .inl ⟨hcpu.1, hcpu.1⟩, .inl ⟨hcpu.2, hcpu.2⟩⟩ hl' hr' hl hr h1 h2).symm
  rw [hs]
  exact solveCsp_transfer (Recode.images_hom _ _) hc.graph hc.lowest jobs ⟨rfl, rfl, rfl, rfl⟩

end

/-! ## `double`, and `float` on devices -/

section
variable {B : Nat} {jobs : UInt64} {world : World Double} {left right left' right' : Image} {l r : Text} {files : Text → Option Text}

/-- The greatest value in a file. -/
theorem readImage_max {F : Type} [FloatOps F] {world : World F} {path : Text} {im : Image} (h : readImage world path = .ok im) :
    im.maxValue.toNat ≤ 65536 := by
  obtain ⟨text, -, ⟨a, b, c, ds, -, -, -, -, hmax, -⟩, -⟩ := readImage_ok h
  exact UInt64.le_iff_toNat_le.1 hmax

theorem readImage_sized {F : Type} [FloatOps F] {world : World F} {path : Text} {im : Image} (hm : world.memory < 2147483648)
    (h : readImage world path = .ok im) : im.Sized := by
  obtain ⟨tx, -, pl, sl⟩ := readImage_ok h
  exact pgmOf_sized pl sl hm

/-- **C104**. Let both images be replaced by others, such that absolute values of differences between intensities of the right image and
those of the left one are the same. Whatever the weights, the number of levels, the number of threads, schedules, the technology, failures
of devices with `float`, the program may do with the new images what it does with the old ones. -/
theorem C104_program {allowed : (Nat → Nat) → Prop} (hw : world.memory < 2147483648) (hruns : world.Runs B jobs)
    (hdev : world.Devices (Ieee.convert : Double → Single) allowed)
    (hl : readImage world l = .ok left) (hr : readImage world r = .ok right) (hl' : readImage { world with file := files } l = .ok left')
    (hr' : readImage { world with file := files } r = .ok right') (hd : KeepsDifferences left right left' right')
    {o : Options} (h1 : o.leftImage = some l) (h2 : o.rightImage = some r) :
    ∃ world' : World Double, world'.file = files ∧ world'.writable = world.writable ∧ world'.memory = world.memory ∧ world'.room = world.room ∧
      world'.Runs B jobs ∧ (world.solve.Possible B jobs → world'.solve.Possible B jobs) ∧
      world'.Devices (Ieee.convert : Double → Single) allowed ∧
      (world.CpuOnly → world'.CpuOnly) ∧ program world' (.parsed o) = program world (.parsed o) :=
  C104_any_arithmetic hruns hdev hl hr hl' hr'
    (hd.same ⟨readImage_sized hw hl, readImage_sized hw hr, readImage_sized (world := { world with file := files }) hw hl',
      readImage_sized (world := { world with file := files }) hw hr'⟩
      (hd.squares (b := 65536) (by decide) (readImage_max hl) (readImage_max hl')))
    (hd.squares (b := 65536) (by decide) (readImage_max hl) (readImage_max hl')) h1 h2

/-- The same text is written for both pairs of images by the program without OpenCL and CUDA, whatever the threads do in both executions. -/
theorem C104_same_file {world' : World Double} {B' : Nat} {jobs' : UInt64} (hw : world.Reasonable jobs) (hw' : world'.Reasonable jobs')
    (hruns : world.Runs B jobs) (hruns' : world'.Runs B' jobs') (hcpu : world.CpuOnly) (hcpu' : world'.CpuOnly)
    (hl : readImage world l = .ok left) (hr : readImage world r = .ok right)
    (hl' : readImage { world with file := world'.file } l = .ok left') (hr' : readImage { world with file := world'.file } r = .ok right')
    (hd : KeepsDifferences left right left' right')
    {o : Options} (h1 : o.leftImage = some l) (h2 : o.rightImage = some r) (out out' : Outcome)
    (h : program world (.parsed o) = .ok out) (h' : program world' (.parsed o) = .ok out')
    (path text path' text' : Text) (hwr : out.written = some (path, text)) (hwr' : out'.written = some (path', text')) : text = text' := by
  have hdev : world.Devices (Ieee.convert : Double → Single) fun _ => False :=
    ⟨fun f hf => (by rw [hcpu.1] at hf; cases hf), fun f hf => (by rw [hcpu.2] at hf; cases hf)⟩
  obtain ⟨w, e1, -, e2, e3, r1, -, -, c1, e4⟩ := C104_program hw.memory hruns hdev hl hr hl' hr' hd h1 h2
  exact C91_same_file (world := w) (world' := world') ⟨e2 ▸ hw.memory, hw.jobs_pos, hw.jobs_small, e3 ▸ hw.room⟩ hw' r1 hruns' (c1 hcpu) hcpu'
    e1.symm o o.parallel o.outputImage o.help out out' (e4.trans h) h' path text path' text' hwr hwr'

end

/-! ## Lighter images, negatives -/

/-- Intensities are changed by a function. -/
def Image.changed (f : UInt64 → UInt64) (maxValue : UInt64) (im : Image) : Image := { im with data := im.data.map f, maxValue := maxValue }

theorem KeepsDifferences.changed {left right : Image} {f : UInt64 → UInt64} {m : UInt64} (hl : left.Meaningful) (hr : right.Meaningful)
    (hm : left.maxValue = right.maxValue) (h0 : 0 < m.toNat) (hf : ∀ v : UInt64, v.toNat ≤ left.maxValue.toNat → (f v).toNat ≤ m.toNat)
    (hd : ∀ u v : UInt64, u.toNat ≤ left.maxValue.toNat → v.toNat ≤ left.maxValue.toNat →
      |((f v).toNat : ℤ) - (f u).toNat| = |(v.toNat : ℤ) - u.toNat|) :
    KeepsDifferences left right (left.changed f m) (right.changed f m) where
  width := ⟨rfl, rfl⟩
  height := ⟨rfl, rfl⟩
  maxValue := ⟨hm, rfl⟩
  before := ⟨hl, hr⟩
  after := by
    refine ⟨⟨hl.1, hl.2.1, h0, ?_⟩, ⟨hr.1, hr.2.1, h0, ?_⟩⟩
    · intro v hv
      obtain ⟨u, hu, rfl⟩ := Array.mem_map.1 hv
      exact hf u (hl.2.2.2 u hu)
    · intro v hv
      obtain ⟨u, hu, rfl⟩ := Array.mem_map.1 hv
      exact hf u (hm ▸ hr.2.2.2 u hu)
  differences i j hi hj := by
    have h1 := hl.2.2.2 _ (Array.getElem_mem hi)
    have h2 := hr.2.2.2 _ (Array.getElem_mem hj)
    rw [← hm] at h2
    have key : ∀ {im : Image} {i : ℕ} (hi : i < im.data.size),
        im.data.getD i 0 = im.data[i] ∧ (im.changed f m).data.getD i 0 = f im.data[i] := by
      intro im i hi
      rw [Array.getD_eq_getD_getElem?, Array.getD_eq_getD_getElem?, Image.changed, Array.getElem?_map, Array.getElem?_eq_getElem hi]
      exact ⟨rfl, rfl⟩
    rw [(key hi).1, (key hi).2, (key hj).1, (key hj).2]
    exact hd _ _ h1 h2

/-- Both images are made lighter by `k`. -/
theorem C104_lighter {left right : Image} {k : UInt64} (hl : left.Meaningful) (hr : right.Meaningful) (hm : left.maxValue = right.maxValue)
    (hk : left.maxValue.toNat + k.toNat < 2 ^ 64) :
    KeepsDifferences left right (left.changed (· + k) (left.maxValue + k)) (right.changed (· + k) (left.maxValue + k)) := by
  have hadd : ∀ v : UInt64, v.toNat ≤ left.maxValue.toNat → (v + k).toNat = v.toNat + k.toNat := by
    intro v hv
    rw [UInt64.toNat_add]
    exact Nat.mod_eq_of_lt (by omega)
  have h0 := hl.2.2.1
  refine .changed hl hr hm ?_ ?_ ?_
  · rw [hadd _ le_rfl]
    omega
  · intro v hv
    rw [hadd v hv, hadd _ le_rfl]
    omega
  · intro u v hu hv
    rw [hadd u hu, hadd v hv]
    congr 1
    push_cast
    ring

/-- Both images are replaced by negatives. -/
theorem C104_negative {left right : Image} (hl : left.Meaningful) (hr : right.Meaningful) (hm : left.maxValue = right.maxValue) :
    KeepsDifferences left right (left.changed (left.maxValue - ·) left.maxValue) (right.changed (left.maxValue - ·) left.maxValue) := by
  have hsub : ∀ v : UInt64, v.toNat ≤ left.maxValue.toNat → (left.maxValue - v).toNat = left.maxValue.toNat - v.toNat := fun v hv =>
    UInt64.toNat_sub_of_le _ _ (UInt64.le_iff_toNat_le.2 hv)
  refine .changed hl hr hm hl.2.2.1 ?_ ?_
  · intro v hv
    rw [hsub v hv]
    omega
  · intro u v hu hv
    rw [hsub u hu, hsub v hv, Nat.cast_sub hu, Nat.cast_sub hv, abs_sub_comm (v.toNat : ℤ)]
    congr 1
    ring

/-! ## Examples -/

/-- Negatives of the images of `smallWorld`. -/
def negatives : Text → Option Text := fun p =>
  if p = bytes "l" then some (bytes "P2 3 2 3 2 1 0 3 2 1") else if p = bytes "r" then some (bytes "P2 3 2 3 1 0 0 2 1 1") else none

/-- The left image is lighter, the right one is the same. -/
def oneLighter : Text → Option Text := fun p =>
  if p = bytes "l" then some (bytes "P2 3 2 4 2 3 4 1 2 3") else if p = bytes "r" then some (bytes "P2 3 2 4 2 3 3 1 2 2") else none

-- negatives give the same map; if one image only becomes lighter, the map is different
example : program { smallWorld with file := negatives } (.parsed (smallOptions "o")) = program smallWorld (.parsed (smallOptions "o")) ∧
    program { smallWorld with file := oneLighter } (.parsed (smallOptions "o")) ≠ program smallWorld (.parsed (smallOptions "o")) := by
  decide +kernel

/-- The same images with `double`. -/
def lightWorld : World Double :=
  { file := smallWorld.file, writable := smallWorld.writable, memory := 100, solve := fun _ => solveCsp 1 }

-- what `C104_program` asks for is met
example : ∃ left right left' right', readImage lightWorld (bytes "l") = .ok left ∧ readImage lightWorld (bytes "r") = .ok right ∧
    readImage { lightWorld with file := negatives } (bytes "l") = .ok left' ∧
    readImage { lightWorld with file := negatives } (bytes "r") = .ok right' ∧ KeepsDifferences left right left' right' :=
  ⟨⟨3, 2, 3, #[1, 2, 3, 0, 1, 2]⟩, ⟨3, 2, 3, #[2, 3, 3, 1, 2, 2]⟩, _, _, by decide +kernel, by decide +kernel, by decide +kernel,
    by decide +kernel, C104_negative ⟨by decide, by decide, by decide, by decide⟩ ⟨by decide, by decide, by decide, by decide⟩ rfl⟩

end SP
