import Verif.Props.ClearDevice
/-!
# C126: noise

A scene without noise is given by two images of rational numbers such that corresponding pixels are equal and all others differ by at least `D`.
If intensities of the images that are read differ from it by at most `n`, and `D * (D - 4 * n)` multiplied by cleanness is greater than smoothness multiplied by
the greatest square of a difference between neighbors of the labeling, then the labeling of the scene is clear.
-/
set_option maxRecDepth 1000000
namespace SP
open FloatOps ConstraintGraph Gpu

/-- The images differ by at most `n` from images of a scene, where pixels connected by `L` are equal, and the others differ by at least `D`. -/
structure Noisy (left right : Image) (levels : ℕ) (L : ℕ → ℕ → ℕ) (D n : ℚ) (trueLeft trueRight : ℕ → ℕ → ℚ) : Prop where
  leftNoise : ∀ x y, x < right.width.toNat → y < right.height.toNat → |(left.at x y : ℚ) - trueLeft x y| ≤ n
  rightNoise : ∀ x y, x < right.width.toNat → y < right.height.toNat → |(right.at x y : ℚ) - trueRight x y| ≤ n
  same : ∀ x y, x < right.width.toNat → y < right.height.toNat → trueRight x y = trueLeft (x + L x y) y
  contrast : ∀ x y d, x + d < right.width.toNat → y < right.height.toNat → d < levels → d ≠ L x y → D ≤ |trueRight x y - trueLeft (x + d) y|

section
variable {left right : Image} {levels c : ℕ} {L : ℕ → ℕ → ℕ} {D n b : ℚ} {trueLeft trueRight : ℕ → ℕ → ℚ}

/-- If there is not much noise, then the labeling of the scene is clear. -/
theorem Noisy.clear (h : Noisy left right levels L D n trueLeft trueRight) (hL : Labels right levels L) (hn : 2 * n ≤ D) (hb : b < c * (D * (D - 4 * n))) :
    Clear left right levels c L b := by
  intro x y d hx hy hd hne
  have hx' : x < right.width.toNat := by omega
  have h1 := h.rightNoise x y hx' hy
  have h2 := h.leftNoise (x + L x y) y (hL.node x y hx' hy).2 hy
  have h3 := h.leftNoise (x + d) y hx hy
  have h4 := h.contrast x y d hx hy hd hne
  have h5 := h.same x y hx' hy
  have hc : (0 : ℚ) ≤ c := Nat.cast_nonneg c
  have e1 : ((right.at x y : ℚ) - left.at (x + L x y) y) ^ 2 ≤ (2 * n) ^ 2 := by
    refine sq_le_sq' ?_ ?_ <;> rw [abs_le] at h1 h2 <;> linarith [h1.1, h1.2, h2.1, h2.2]
  have e2 : (D - 2 * n) ^ 2 ≤ ((right.at x y : ℚ) - left.at (x + d) y) ^ 2 := by
    rw [← sq_abs ((right.at x y : ℚ) - left.at (x + d) y)]
    refine pow_le_pow_left₀ (by linarith) ?_ 2
    rw [abs_le] at h1 h3
    rcases le_abs.1 h4 with h4 | h4
    · exact le_trans (by linarith [h1.1, h3.2]) (le_abs_self _)
    · exact le_trans (by linarith [h1.2, h3.1]) (neg_le_abs _)
  have e3 := mul_le_mul_of_nonneg_left e1 hc
  have e4 := mul_le_mul_of_nonneg_left e2 hc
  have e5 : (c : ℚ) * (D - 2 * n) ^ 2 = c * (2 * n) ^ 2 + c * (D * (D - 4 * n)) := by ring
  linarith

end

/-! ## The program -/

/-- If the images are those of a scene with not much noise (also but for the part `part` of the largest penalty), then the text is that of the map of the scene. -/
def World.NoiseRemoved {F : Type} [FloatOps F] (part : ℚ) (world : World F) (cl : CommandLine) (text : Text) : Prop :=
  ∃ (o : Options) (l r : Text) (left right : Image) (levels c s : UInt64) (im : Image), cl = .parsed o ∧ o.leftImage = some l ∧ o.rightImage = some r ∧
    readImage world l = .ok left ∧ readImage world r = .ok right ∧ levelsOption left o.disparityLevels = .ok levels ∧
    weightNumber o.cleanness = .ok c ∧ weightNumber o.smoothness = .ok s ∧ writePgm (some im) = .ok text ∧
    im.width = right.width ∧ im.height = right.height ∧ im.maxValue = levels ∧
    ∀ L b D n trueLeft trueRight, 0 ≤ b → Labels right levels.toNat L → Rough right L b → Noisy left right levels.toNat L D n trueLeft trueRight → 2 * n ≤ D →
      s.toNat * b + part * largestPenalty left.maxValue.toNat levels c.toNat s.toNat < c.toNat * (D * (D - 4 * n)) →
      ∀ x y, x < right.width.toNat → y < right.height.toNat → im.at x y = L x y

theorem World.ClearFound.noise {F : Type} [FloatOps F] {world : World F} {cl : CommandLine} {text : Text} {part : ℚ} (h : world.ClearFound part cl text) :
    world.NoiseRemoved part cl text := by
  obtain ⟨o, l, r, left, right, levels, c, s, im, q1, q2, q3, q4, q5, q6, q7, q8, q9, q10, q11, q12, h⟩ := h
  exact ⟨o, l, r, left, right, levels, c, s, im, q1, q2, q3, q4, q5, q6, q7, q8, q9, q10, q11, q12,
    fun L b D n tl tr h0 hL hr hn h2 hb => h L b h0 hL hr (hn.clear hL h2 hb)⟩

section
variable {B : Nat} {jobs : UInt64} {world : World Double} {allowed : (Nat → Nat) → Prop}

/-- **C126**. If the images are those of a scene with not much noise and a map is written, then it is the map of the scene, whatever the weights, threads and
schedules. -/
theorem C126_noise (hw : world.Reasonable jobs) (hruns : world.Runs B jobs) (hcpu : world.CpuOnly) (cl : CommandLine) (out : Outcome)
    (h : program world cl = .ok out) (path text : Text) (hwr : out.written = some (path, text)) : world.NoiseRemoved (1 / 2 ^ 47) cl text :=
  (C125_clear hw hruns hcpu cl out h path text hwr).noise

/-- The same with `float` on devices. -/
theorem C126_noise_device (hw : world.Reasonable jobs) (hruns : world.Runs B jobs)
    (hdev : world.Devices (Ieee.convert : Double → Single) allowed) (cl : CommandLine) (out : Outcome)
    (h : program world cl = .ok out) (path text : Text) (hwr : out.written = some (path, text)) : world.NoiseRemoved (1 / 2 ^ 19) cl text :=
  (C125_clear_device hw hruns hdev cl out h path text hwr).noise

/-- Without errors, if weights multiplied by squares of differences of intensities or levels are at most `2^53`. -/
theorem C126_noise_exact (hw : world.Reasonable jobs) (hruns : world.Runs B jobs) (hcpu : world.CpuOnly) (cl : CommandLine)
    (hr : ∀ o l r, cl = .parsed o → o.leftImage = some l → o.rightImage = some r → world.InRange 53 o l r) (out : Outcome)
    (h : program world cl = .ok out) (path text : Text) (hwr : out.written = some (path, text)) : world.NoiseRemoved 0 cl text :=
  (C125_clear_exact hw hruns hcpu cl hr out h path text hwr).noise

/-- The same with `float` on devices, if they are at most `2^24`. -/
theorem C126_noise_device_exact (hw : world.Reasonable jobs) (hruns : world.Runs B jobs)
    (hdev : world.Devices (Ieee.convert : Double → Single) allowed) (cl : CommandLine)
    (hr : ∀ o l r, cl = .parsed o → o.leftImage = some l → o.rightImage = some r → world.InRange 24 o l r) (out : Outcome)
    (h : program world cl = .ok out) (path text : Text) (hwr : out.written = some (path, text)) : world.NoiseRemoved 0 cl text :=
  (C125_clear_device_exact hw hruns hdev cl hr out h path text hwr).noise

variable {o : Options} {l r p : Text} {g : DisparityGraph Double} {left right : Image} {levels c s : UInt64} {L : ℕ → ℕ → ℕ} {b D n : ℚ}
  {trueLeft trueRight : ℕ → ℕ → ℚ}

/-- With one thread the map of the scene is always found. -/
theorem C126_program (hw : world.Reasonable 1) (hruns : world.Runs B 1) (hcpu : world.CpuOnly)
    (hl : o.leftImage = some l) (hr : o.rightImage = some r) (hp : o.outputImage = some p) (hnone : o.parallel = none) (hrange : world.InRange 53 o l r)
    (hg : readGraph world o l r = .ok g) (hleft : readImage world l = .ok left) (hright : readImage world r = .ok right)
    (hlevels : levelsOption left o.disparityLevels = .ok levels) (hc : weightNumber o.cleanness = .ok c) (hsm : weightNumber o.smoothness = .ok s)
    (h0 : 0 ≤ b) (hL : Labels right levels.toNat L) (hb : Rough right L b) (h : Noisy left right levels.toNat L D n trueLeft trueRight)
    (hn : 2 * n ≤ D) (hD : s.toNat * b < c.toNat * (D * (D - 4 * n))) :
    ∃ out im text, program world (.parsed o) = .ok out ∧ out.exit = 0 ∧ out.err = [] ∧ im.width = right.width ∧ im.height = right.height ∧
      im.maxValue = levels ∧ (∀ x y, x < right.width.toNat → y < right.height.toNat → im.at x y = L x y) ∧
      writePgm (some im) = .ok text ∧ out.written = if world.writable p then some (p, text) else none :=
  C125_program hw hruns hcpu hl hr hp hnone hrange hg hleft hright hlevels hc hsm h0 hL hb (h.clear hL hn hD)

/-- It is found by devices as well, unless they fail. -/
theorem C126_program_device (hw : world.Reasonable 1) (hruns : world.Runs B 1) (hdev : world.Devices (Ieee.convert : Double → Single) allowed)
    (hl : o.leftImage = some l) (hr : o.rightImage = some r) (hp : o.outputImage = some p) (hrange : world.InRange 24 o l r)
    (hg : readGraph world o l r = .ok g) (hleft : readImage world l = .ok left) (hright : readImage world r = .ok right)
    (hlevels : levelsOption left o.disparityLevels = .ok levels) (hc : weightNumber o.cleanness = .ok c) (hsm : weightNumber o.smoothness = .ok s)
    (h0 : 0 ≤ b) (hL : Labels right levels.toNat L) (hb : Rough right L b) (h : Noisy left right levels.toNat L D n trueLeft trueRight)
    (hn : 2 * n ≤ D) (hD : s.toNat * b < c.toNat * (D * (D - 4 * n))) :
    world.FindsOrFails o p (LabelingMap right levels L) :=
  C125_program_device hw hruns hdev hl hr hp hrange hg hleft hright hlevels hc hsm h0 hL hb (h.clear hL hn hD)

end

/-! ## Non-vacuity -/

/-- Images `3 × 2` of a scene with contrast `20`, noise `4`, and the map of the scene. -/
example : program (imagesWorld "P2 3 2 99 4 16 44 0 24 40" "P2 3 2 99 24 24 36 4 36 44" (fun _ => solveCsp 1) none) (.parsed (imagesOptions "2" "1" "79" none)) =
      .ok { exit := 0, written := some (bytes "o", bytes "P2\n3 2\n2\n1 0 0\n0 1 0\n") } ∧
    Noisy ⟨3, 2, 99, #[4, 16, 44, 0, 24, 40]⟩ ⟨3, 2, 99, #[24, 24, 36, 4, 36, 44]⟩ 2 (fun x y => if x = y then 1 else 0) 20 4
      (fun x _ => 20 * x) (fun x y => 20 * (x + if x = y then 1 else 0 : ℕ)) ∧
    2 * (4 : ℚ) ≤ 20 ∧ ((79 : ℕ) : ℚ) * 1 < (1 : ℕ) * (20 * (20 - 4 * 4)) := by
  refine ⟨by decide +kernel, ⟨fun x y hx hy => ?_, fun x y hx hy => ?_, fun x y _ _ => rfl, fun x y d hx hy hd hne => ?_⟩, by norm_num, by norm_num⟩
  · have h : ∀ (x : Fin 3) (y : Fin 2), |((Image.mk 3 2 99 #[4, 16, 44, 0, 24, 40]).at x y : ℚ) - 20 * (x.1 : ℚ)| ≤ 4 := by decide +kernel
    exact h ⟨x, hx⟩ ⟨y, hy⟩
  · have h : ∀ (x : Fin 3) (y : Fin 2), |((Image.mk 3 2 99 #[24, 24, 36, 4, 36, 44]).at x y : ℚ) - 20 * ((x.1 + if x.1 = y.1 then 1 else 0 : ℕ) : ℚ)| ≤ 4 := by
      decide +kernel
    exact h ⟨x, hx⟩ ⟨y, hy⟩
  · have h : ∀ (x : Fin 3) (y d : Fin 2), d.1 ≠ (if x.1 = y.1 then 1 else 0) →
        (20 : ℚ) ≤ |20 * ((x.1 + if x.1 = y.1 then 1 else 0 : ℕ) : ℚ) - 20 * ((x.1 + d.1 : ℕ) : ℚ)| := by decide +kernel
    change x + d < 3 at hx
    exact h ⟨x, by omega⟩ ⟨y, hy⟩ ⟨d, hd⟩ hne

/-- Noise above a quarter of the contrast is too much: a scene of two pixels with contrast `20` and the map of zeros, noise `6`, and another map. -/
example : program (imagesWorld "P2 2 1 99 14 34" "P2 2 1 99 26 40" (fun _ => solveCsp 1) none) (.parsed (imagesOptions "2" "1" "1" none)) =
      .ok { exit := 0, written := some (bytes "o", bytes "P2\n2 1\n2\n1 0\n") } ∧
    Noisy ⟨2, 1, 99, #[14, 34]⟩ ⟨2, 1, 99, #[26, 40]⟩ 2 (fun _ _ => 0) 20 6 (fun x _ => 20 * x + 20) (fun x _ => 20 * x + 20) := by
  refine ⟨by decide +kernel, ⟨fun x y hx hy => ?_, fun x y hx hy => ?_, fun x y _ _ => rfl, fun x y d hx hy hd hne => ?_⟩⟩
  · have h : ∀ (x : Fin 2) (y : Fin 1), |((Image.mk 2 1 99 #[14, 34]).at x y : ℚ) - (20 * (x.1 : ℚ) + 20)| ≤ 6 := by decide +kernel
    exact h ⟨x, hx⟩ ⟨y, hy⟩
  · have h : ∀ (x : Fin 2) (y : Fin 1), |((Image.mk 2 1 99 #[26, 40]).at x y : ℚ) - (20 * (x.1 : ℚ) + 20)| ≤ 6 := by decide +kernel
    exact h ⟨x, hx⟩ ⟨y, hy⟩
  · have h : ∀ x d : Fin 2, d.1 ≠ 0 → (20 : ℚ) ≤ |20 * (x.1 : ℚ) + 20 - (20 * ((x.1 + d.1 : ℕ) : ℚ) + 20)| := by decide +kernel
    change x + d < 2 at hx
    exact h ⟨x, by omega⟩ ⟨d, hd⟩ hne

end SP
