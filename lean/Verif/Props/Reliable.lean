import Verif.Props.Tradeoff
/-!
# C127: reliable pixels

A labeling with misfit `a` and roughness `b` is a certificate for single pixels: where all other disparities are worse than one of them by more than
`max (c * a) (s * b)`, the map has this disparity, whatever there is in other pixels. The map cannot go away from it quickly.
-/
set_option maxRecDepth 1000000
namespace SP
open FloatOps ConstraintGraph

/-- In the pixel other disparities than `d` are worse by more than `t`. -/
def ReliableAt (left right : Image) (levels c : ℕ) (x y d : ℕ) (t : ℚ) : Prop :=
  ∀ d', x + d' < right.width.toNat → d' < levels → d' ≠ d → c * ((right.at x y : ℚ) - left.at (x + d) y) ^ 2 + t < c * ((right.at x y : ℚ) - left.at (x + d') y) ^ 2

section
variable {left right im : Image} {c s : ℕ} {t : ℚ} {k : ℕ}

theorem near_of_sq {u v : ℕ} (h : (s : ℚ) * ((u : ℚ) - v) ^ 2 ≤ t) (hk : t < s * ((k : ℚ) + 1) ^ 2) : |(u : ℤ) - v| ≤ k := by
  by_contra hn
  have h1 : (k : ℤ) + 1 ≤ |(u : ℤ) - v| := by omega
  have h2 : (k : ℚ) + 1 ≤ |(u : ℚ) - v| := by exact_mod_cast h1
  have h3 : ((k : ℚ) + 1) ^ 2 ≤ ((u : ℚ) - v) ^ 2 := by
    rw [← sq_abs ((u : ℚ) - v)]
    exact pow_le_pow_left₀ (by positivity) h2 2
  have h4 := mul_le_mul_of_nonneg_left h3 (Nat.cast_nonneg (α := ℚ) s)
  linarith

theorem Image.Within.along_row (h : im.Within left right c s t) (hk : t < s * ((k : ℚ) + 1) ^ 2) {x y : ℕ} (hy : y < im.height.toNat) :
    ∀ n, x + n < im.width.toNat → |(im.at x y : ℤ) - im.at (x + n) y| ≤ k * n := by
  intro n
  induction n with
  | zero => intro _; simp
  | succ n ih =>
    intro hx
    have h1 := ih (by omega)
    have h2 := near_of_sq (h.row (x + n) y (by omega) hy) hk
    rw [show x + (n + 1) = x + n + 1 from rfl]
    have h3 := abs_sub_le (im.at x y : ℤ) (im.at (x + n) y) (im.at (x + n + 1) y)
    push_cast
    linarith

theorem Image.Within.along_column (h : im.Within left right c s t) (hk : t < s * ((k : ℚ) + 1) ^ 2) {x y : ℕ} (hx : x < im.width.toNat) :
    ∀ n, y + n < im.height.toNat → |(im.at x y : ℤ) - im.at x (y + n)| ≤ k * n := by
  intro n
  induction n with
  | zero => intro _; simp
  | succ n ih =>
    intro hy
    have h1 := ih (by omega)
    have h2 := near_of_sq (h.column x (y + n) hx (by omega)) hk
    rw [show y + (n + 1) = y + n + 1 from rfl]
    have h3 := abs_sub_le (im.at x y : ℤ) (im.at x (y + n)) (im.at x (y + n + 1))
    push_cast
    linarith

/-- Values of the map differ at most by `k` times the number of steps between pixels. -/
theorem Image.Within.far (h : im.Within left right c s t) (hk : t < s * ((k : ℚ) + 1) ^ 2) {x y x' y' : ℕ} (hx : x < im.width.toNat) (hy : y < im.height.toNat)
    (hx' : x' < im.width.toNat) (hy' : y' < im.height.toNat) : |(im.at x y : ℤ) - im.at x' y'| ≤ k * (|(x : ℤ) - x'| + |(y : ℤ) - y'|) := by
  have h1 : |(im.at x y : ℤ) - im.at x' y| ≤ k * |(x : ℤ) - x'| := by
    rcases Nat.le_total x x' with hle | hle
    · obtain ⟨n, rfl⟩ := Nat.exists_eq_add_of_le hle
      have := h.along_row hk hy n hx'
      rwa [show |(x : ℤ) - (x + n : ℕ)| = n by push_cast; rw [abs_sub_comm, add_sub_cancel_left, Nat.abs_cast]]
    · obtain ⟨n, rfl⟩ := Nat.exists_eq_add_of_le hle
      have := h.along_row hk hy n hx
      rwa [show |((x' + n : ℕ) : ℤ) - x'| = n by push_cast; rw [add_sub_cancel_left, Nat.abs_cast], abs_sub_comm]
  have h2 : |(im.at x' y : ℤ) - im.at x' y'| ≤ k * |(y : ℤ) - y'| := by
    rcases Nat.le_total y y' with hle | hle
    · obtain ⟨n, rfl⟩ := Nat.exists_eq_add_of_le hle
      have := h.along_column hk hx' n hy'
      rwa [show |(y : ℤ) - (y + n : ℕ)| = n by push_cast; rw [abs_sub_comm, add_sub_cancel_left, Nat.abs_cast]]
    · obtain ⟨n, rfl⟩ := Nat.exists_eq_add_of_le hle
      have := h.along_column hk hx' n hy
      rwa [show |((y' + n : ℕ) : ℤ) - y'| = n by push_cast; rw [add_sub_cancel_left, Nat.abs_cast], abs_sub_comm]
  have h3 := abs_sub_le (im.at x y : ℤ) (im.at x' y) (im.at x' y')
  rw [mul_add]
  linarith

end

/-! ## The program -/

/-- Reliable pixels (also but for the part `part` of the largest penalty) have their disparities, and others differ from them by at most `k` for each step. -/
def World.KeepsReliable {F : Type} [FloatOps F] (part : ℚ) (world : World F) (cl : CommandLine) (text : Text) : Prop :=
  ∃ (o : Options) (l r : Text) (left right : Image) (levels c s : UInt64) (im : Image), cl = .parsed o ∧ o.leftImage = some l ∧ o.rightImage = some r ∧
    readImage world l = .ok left ∧ readImage world r = .ok right ∧ levelsOption left o.disparityLevels = .ok levels ∧
    weightNumber o.cleanness = .ok c ∧ weightNumber o.smoothness = .ok s ∧ writePgm (some im) = .ok text ∧
    im.width = right.width ∧ im.height = right.height ∧ im.maxValue = levels ∧
    ∀ L a b t, Labels right levels.toNat L → Misfit left right levels.toNat L a → Rough right L b →
      t = max (c.toNat * a) (s.toNat * b) + part * largestPenalty left.maxValue.toNat levels c.toNat s.toNat →
      ∀ x y d, x + d < right.width.toNat → y < right.height.toNat → d < levels.toNat → ReliableAt left right levels.toNat c.toNat x y d t →
        im.at x y = d ∧ ∀ k : ℕ, t < s.toNat * ((k : ℚ) + 1) ^ 2 → ∀ x' y', x' < right.width.toNat → y' < right.height.toNat →
          |(d : ℤ) - im.at x' y'| ≤ k * (|(x : ℤ) - x'| + |(y : ℤ) - y'|)

theorem World.NotWorse.reliable {F : Type} [FloatOps F] {world : World F} {cl : CommandLine} {text : Text} {part : ℚ} (h : world.NotWorse part cl text) :
    world.KeepsReliable part cl text := by
  obtain ⟨o, l, r, left, right, levels, c, s, im, q1, q2, q3, q4, q5, q6, q7, q8, q9, q10, q11, q12, -, hL, h⟩ := h
  refine ⟨o, l, r, left, right, levels, c, s, im, q1, q2, q3, q4, q5, q6, q7, q8, q9, q10, q11, q12, ?_⟩
  rintro L a b t hl hm hr rfl x y d hx hy hd hrel
  have hwi := (h L a b hl hm hr).1
  have he : im.at x y = d := by
    by_contra hne
    obtain ⟨h1, h2⟩ := hL.node x y (by omega) hy
    exact absurd (hrel _ h2 h1 hne) (not_lt.2 (hwi.pixel x y d (q10 ▸ hx) (q11 ▸ hy) (q12 ▸ hd)))
  refine ⟨he, fun k hk x' y' hx' hy' => ?_⟩
  have := hwi.far hk (x := x) (y := y) (by rw [q10]; omega) (q11 ▸ hy) (q10 ▸ hx') (q11 ▸ hy')
  rwa [he] at this

section
variable {B : Nat} {jobs : UInt64} {world : World Double} {allowed : (Nat → Nat) → Prop}

/-- **C127**. Reliable pixels have their disparities in the written map, whatever the weights, threads and schedules. -/
theorem C127_reliable (hw : world.Reasonable jobs) (hruns : world.Runs B jobs) (hcpu : world.CpuOnly) (cl : CommandLine) (out : Outcome)
    (h : program world cl = .ok out) (path text : Text) (hwr : out.written = some (path, text)) : world.KeepsReliable (1 / 2 ^ 47) cl text :=
  (C123_not_worse hw hruns hcpu cl out h path text hwr).reliable

/-- The same with `float` on devices. -/
theorem C127_reliable_device (hw : world.Reasonable jobs) (hruns : world.Runs B jobs)
    (hdev : world.Devices (Ieee.convert : Double → Single) allowed) (cl : CommandLine) (out : Outcome)
    (h : program world cl = .ok out) (path text : Text) (hwr : out.written = some (path, text)) : world.KeepsReliable (1 / 2 ^ 19) cl text :=
  (C123_not_worse_device hw hruns hdev cl out h path text hwr).reliable

/-- Without errors, if weights multiplied by squares of differences of intensities or levels are at most `2^53`. -/
theorem C127_reliable_exact (hw : world.Reasonable jobs) (hruns : world.Runs B jobs) (hcpu : world.CpuOnly) (cl : CommandLine)
    (hr : ∀ o l r, cl = .parsed o → o.leftImage = some l → o.rightImage = some r → world.InRange 53 o l r) (out : Outcome)
    (h : program world cl = .ok out) (path text : Text) (hwr : out.written = some (path, text)) : world.KeepsReliable 0 cl text :=
  (C123_not_worse_exact hw hruns hcpu cl hr out h path text hwr).reliable

/-- The same with `float` on devices, if they are at most `2^24`. -/
theorem C127_reliable_device_exact (hw : world.Reasonable jobs) (hruns : world.Runs B jobs)
    (hdev : world.Devices (Ieee.convert : Double → Single) allowed) (cl : CommandLine)
    (hr : ∀ o l r, cl = .parsed o → o.leftImage = some l → o.rightImage = some r → world.InRange 24 o l r) (out : Outcome)
    (h : program world cl = .ok out) (path text : Text) (hwr : out.written = some (path, text)) : world.KeepsReliable 0 cl text :=
  (C123_not_worse_device_exact hw hruns hdev cl hr out h path text hwr).reliable

end

/-! ## Non-vacuity -/

/-- Images of three columns. The first pixel is reliable, both disparities of the second one fit equally (so the labeling is not clear). -/
example : program (imagesWorld "P2 3 1 99 0 50 52" "P2 3 1 99 50 51 52" (fun _ => solveCsp 1) none) (.parsed (imagesOptions "2" "1" "1" none)) =
      .ok { exit := 0, written := some (bytes "o", bytes "P2\n3 1\n2\n1 0 0\n") } ∧
    Labels ⟨3, 1, 99, #[50, 51, 52]⟩ 2 (fun x _ => if x = 0 then 1 else 0) ∧
    Misfit ⟨3, 1, 99, #[0, 50, 52]⟩ ⟨3, 1, 99, #[50, 51, 52]⟩ 2 (fun x _ => if x = 0 then 1 else 0) 0 ∧
    Rough ⟨3, 1, 99, #[50, 51, 52]⟩ (fun x _ => if x = 0 then 1 else 0) 1 ∧
    ReliableAt ⟨3, 1, 99, #[0, 50, 52]⟩ ⟨3, 1, 99, #[50, 51, 52]⟩ 2 1 0 0 1 (max ((1 : ℕ) * 0) ((1 : ℕ) * 1)) ∧
    max (((1 : ℕ) : ℚ) * 0) ((1 : ℕ) * 1) < (1 : ℕ) * (((1 : ℕ) : ℚ) + 1) ^ 2 := by
  refine ⟨by decide +kernel, ⟨fun x y hx hy => ?_, fun x y hx hy => ?_⟩, fun x y d hx hy hd => ?_, ⟨fun x y hx hy => ?_, fun x y hx hy => ?_⟩, fun d hx hd hne => ?_, by norm_num⟩
  · change x < 3 at hx
    show (if x = 0 then 1 else 0) < 2 ∧ x + (if x = 0 then 1 else 0) < 3
    split_ifs <;> omega
  · show (if x = 0 then 1 else 0) ≤ (if x + 1 = 0 then 1 else 0) + 1
    split_ifs <;> omega
  · have h : ∀ (x : Fin 3) (y : Fin 1) (d : Fin 2), x.1 + d.1 < 3 →
        (((Image.mk 3 1 99 #[50, 51, 52]).at x y : ℚ) - (Image.mk 3 1 99 #[0, 50, 52]).at (x.1 + if x.1 = 0 then 1 else 0) y) ^ 2 ≤
          (((Image.mk 3 1 99 #[50, 51, 52]).at x y : ℚ) - (Image.mk 3 1 99 #[0, 50, 52]).at (x.1 + d.1) y) ^ 2 + 0 := by decide +kernel
    change x + d < 3 at hx
    exact h ⟨x, by omega⟩ ⟨y, hy⟩ ⟨d, hd⟩ hx
  · simp only
    split_ifs <;> norm_num
  · simp only
    split_ifs <;> norm_num
  · obtain rfl : d = 0 := by omega
    have h : ((1 : ℕ) : ℚ) * (((Image.mk 3 1 99 #[50, 51, 52]).at 0 0 : ℚ) - (Image.mk 3 1 99 #[0, 50, 52]).at (0 + 1) 0) ^ 2 + max (((1 : ℕ) : ℚ) * 0) (((1 : ℕ) : ℚ) * 1) <
        ((1 : ℕ) : ℚ) * (((Image.mk 3 1 99 #[50, 51, 52]).at 0 0 : ℚ) - (Image.mk 3 1 99 #[0, 50, 52]).at (0 + 0) 0) ^ 2 := by decide +kernel
    exact h

/-- The bound matters: the first of two pixels has a disparity that is better than the other one by `2500`. The map has it with smoothness `2499`, but not with
`2501`. -/
example : program (imagesWorld "P2 2 1 99 0 50" "P2 2 1 99 50 50" (fun _ => solveCsp 1) none) (.parsed (imagesOptions "2" "1" "2499" none)) =
      .ok { exit := 0, written := some (bytes "o", bytes "P2\n2 1\n2\n1 0\n") } ∧
    program (imagesWorld "P2 2 1 99 0 50" "P2 2 1 99 50 50" (fun _ => solveCsp 1) none) (.parsed (imagesOptions "2" "1" "2501" none)) =
      .ok { exit := 0, written := some (bytes "o", bytes "P2\n2 1\n2\n0 0\n") } := by
  refine ⟨by decide +kernel, by decide +kernel⟩

end SP
