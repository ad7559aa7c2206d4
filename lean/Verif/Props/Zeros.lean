import Verif.Props.CudaLimits
import Verif.Props.DoubleRefuted
import Verif.Props.NearDevice
import Verif.Props.Perfect
/-!
# C116: pixels that cannot have another disparity

The disparity of a pixel of the right image is limited by the number of columns to the right of it. So the last column of each map consists of
zeros, and images of one column have no map at all (there must be at least two levels and not more than columns). If rows of the left
image have no details, then nothing tells disparities from each other and the map consists of zeros, whatever the right image.
-/
namespace SP
open FloatOps ConstraintGraph Gpu
set_option maxRecDepth 1000000

/-- Each row of the image has one intensity. -/
def Image.PlainRows (im : Image) : Prop := ∀ x x' y, x < im.width.toNat → x' < im.width.toNat → y < im.height.toNat → im.at x y = im.at x' y

section
variable {allowed : (Nat → Nat) → Prop} {B : Nat} {jobs : UInt64} {world : World Double} {o : Options} {l r p : Text} {g : DisparityGraph Double}

/-- **C116**. If each row of the left image has one intensity, then the map consists of zeros, whatever the right image, weights, threads,
technology and schedules (with the exceptions known from C101). -/
theorem C116_plain_rows (hw : world.Reasonable jobs) (hs : world.solve.Possible B jobs)
    (hdev : world.Devices (Ieee.convert : Double → Single) allowed) (hl : o.leftImage = some l) (hr : o.rightImage = some r)
    (hp : o.outputImage = some p) (hg : readGraph world o l r = .ok g) {left : Image} (hleft : readImage world l = .ok left)
    (hplain : left.PlainRows) : world.Finds Single B jobs allowed o p (MapOf g fun _ _ => 0) := by
  refine C101_zeros hw hs hdev hl hr hp hg (.inr fun x y d hd => ?_)
  obtain ⟨left', right, levels, c, s, q1, -, -, -, -, ha, -, -, -, rfl⟩ := readGraph_ok hw hg
  cases q1.symm.trans hleft
  obtain ⟨h1, h2, -, h3⟩ := hd
  have e1 : right.width = left.width := ha.2.2.2.2.1.symm
  have e2 : right.height = left.height := ha.2.2.2.2.2.1.symm
  have h1' : x < left.width.toNat := by rw [← e1]; exact h1
  have h2' : y < left.height.toNat := by rw [← e2]; exact h2
  have h3' : x + d < left.width.toNat := by rw [← e1]; exact h3
  show ((right.at x y : Int) - left.at (x + 0) y).natAbs ≤ ((right.at x y : Int) - left.at (x + d) y).natAbs
  rw [hplain (x + 0) (x + d) y h1' h3' h2']

end

section
variable {F : Type} [FloatOps F]

/-- Values of a feasible labeling: each of them is less than the number of columns beginning with this one, and than the number of levels; the
last column consists of zeros; in a row values decrease at most by one from a column to the next one. -/
theorem FeasibleAt.limits {g : DisparityGraph F} {t : F} {L : ℕ → ℕ → ℕ} (h : g.FeasibleAt t L) :
    (∀ x y, x < g.w → y < g.h → L x y < g.w - x ∧ L x y < g.levels) ∧
    (∀ y, 0 < g.w → y < g.h → L (g.w - 1) y = 0) ∧
    (∀ x y, x + 1 < g.w → y < g.h → L x y ≤ L (x + 1) y + 1) := by
  have key : ∀ x y, x < g.w → y < g.h → L x y < g.w - x ∧ L x y < g.levels := by
    intro x y hx hy
    obtain ⟨⟨-, -, h1, h2⟩, -⟩ := h x y hx hy
    exact ⟨by change x + L x y < g.w at h2; omega, h1⟩
  refine ⟨key, fun y h0 hy => ?_, fun x y hx hy => ?_⟩
  · have := (key (g.w - 1) y (by omega) hy).1
    omega
  · obtain ⟨-, -, h1⟩ := h x y (by omega) hy
    obtain ⟨⟨-, -, -, h2, -⟩, -⟩ := h1 0 ⟨by omega, hy, .inl ⟨rfl, hx⟩⟩
    exact h2 rfl

end

/-- Finitely many numbers have a bound. -/
theorem bounded_below (f : ℕ → ℚ) (n : ℕ) : ∃ t, 0 ≤ t ∧ ∀ i, i < n → f i ≤ t := by
  induction n with
  | zero => exact ⟨0, le_rfl, fun i hi => absurd hi i.not_lt_zero⟩
  | succ n ih =>
    obtain ⟨t, h0, h1⟩ := ih
    refine ⟨max t (f n), h0.trans (le_max_left _ _), fun i hi => ?_⟩
    rcases Nat.lt_succ_iff_lt_or_eq.1 hi with h | rfl
    · exact (h1 i h).trans (le_max_left _ _)
    · exact le_max_right _ _

theorem bounded (f : ℕ → ℕ → ℚ) (w h : ℕ) : ∃ t, 0 ≤ t ∧ ∀ x y, x < w → y < h → f x y ≤ t := by
  choose row _ h1 using fun x => bounded_below (f x) h
  obtain ⟨t, h2, h3⟩ := bounded_below row w
  exact ⟨t, h2, fun x y hx hy => (h1 x y hy).trans (h3 x hx)⟩

/-- In exact arithmetic zeros are feasible at some threshold. -/
theorem zeros_feasible {g : DisparityGraph ℚ} (hg : g.Fresh) : ∃ t, g.FeasibleAt t fun _ _ => 0 := by
  have hle : ∀ {a b : ℚ}, le a b = true ↔ a ≤ b := decide_eq_true_iff
  have n0 : ∀ x y d, 0 ≤ g.nodeQ x y d := fun x y d => hle.1 (nodeQ_nonneg hg x y d)
  have e0 : ∀ x y k d d', 0 ≤ g.edgeQ x y k d d' := fun x y k d d' => hle.1 (edgeQ_nonneg hg x y k d d')
  have hI := DisparityGraph.Ideal.zeros hg.toValid (c := 0) (s := 0) (.inl rfl)
  obtain ⟨t, t0, ht⟩ := bounded (g.nodeQ · · 0) g.w g.h
  refine ⟨t, fun x y hx hy => ⟨(hI.node x y hx hy).1, fun d _ => hle.2 ?_, fun k hk => ⟨(hI.edge x y k hk).1, fun d d' _ => hle.2 ?_⟩⟩⟩
  · have h1 := ht x y hx hy
    have h2 := n0 x y d
    change g.nodeQ x y 0 - g.nodeQ x y d ≤ t
    linarith
  · have h2 := e0 x y k d d'
    have h3 : g.edgeQ x y k 0 0 = 0 := edgeQ_eq hg x y k 0
    change g.edgeQ x y k 0 0 - g.edgeQ x y k d d' ≤ t
    rw [h3]
    linarith

/-- What values in a map are like. -/
structure Image.MapLike (im : Image) : Prop where
  below : ∀ x y, x < im.width.toNat → y < im.height.toNat → im.at x y < im.width.toNat - x ∧ im.at x y < im.maxValue.toNat
  last : ∀ y, y < im.height.toNat → im.at (im.width.toNat - 1) y = 0
  next : ∀ x y, x + 1 < im.width.toNat → y < im.height.toNat → im.at x y ≤ im.at (x + 1) y + 1

/-- **C116**, values. In each file written by the program with `double`, whatever the technology (devices with `float`), threads and schedules: the
disparity in a column is less than the number of columns beginning with this one, and than the maximal value; the last column consists of
zeros; in a row disparities decrease at most by one from a column to the next one. -/
theorem C116_limits {world : World Double} {B : Nat} {jobs : UInt64} {allowed : (Nat → Nat) → Prop} (hw : world.Reasonable jobs)
    (hruns : world.Runs B jobs) (hdev : world.Devices (Ieee.convert : Double → Single) allowed) (cl : CommandLine) (out : Outcome)
    (h : program world cl = .ok out) (path text : Text) (hwr : out.written = some (path, text)) :
    ∃ im : Image, writePgm (some im) = .ok text ∧ im.MapLike := by
  obtain ⟨-, -, o, l, r, left, right, levels, c, s, im, -, -, -, -, q5, q6, -, -, -, ha, q11, -, q12, q13, q14, q15⟩ :=
    C99_near_optimal_float hw hruns hdev cl out h path text hwr
  obtain ⟨tl, -, pl, sl⟩ := readImage_ok q5
  obtain ⟨tr, -, pr, sr⟩ := readImage_ok q6
  have hl := pgmOf_sized pl sl hw.memory
  have hr := pgmOf_sized pr sr hw.memory
  obtain ⟨t, ht⟩ := zeros_feasible (freshGraph_fresh hl hr ha (accepted_fits ha hl (sl.trans_lt hw.memory)))
  obtain ⟨h1, h2, h3⟩ := FeasibleAt.limits (q15 _ _ ht)
  have hpos : 0 < right.width.toNat := ha.2.1.1
  refine ⟨im, q11, ?_, ?_, ?_⟩
  · rw [q12, q13, q14]
    exact h1
  · rw [q12, q13]
    exact fun y hy => h2 y hpos hy
  · rw [q12, q13]
    exact h3

/-- Images of one column have no map. -/
theorem C116_one_column {F : Type} [FloatOps F] {world : World F} {jobs : UInt64} (hw : world.Reasonable jobs) {o : Options} {l : Text} {left : Image}
    (hl : o.leftImage = some l) (hleft : readImage world l = .ok left) (hone : left.width.toNat ≤ 1) {out : Outcome}
    (h : program world (.parsed o) = .ok out) : out.written = none := by
  rcases program_cases world (.parsed o) with ⟨e, h1, h2⟩ | ⟨h1, -⟩ | ⟨h1, -⟩ | ⟨o', l', r, p, ms, f, hcl, hl', hr, hp, hc, h1⟩
  · rw [h] at h1; cases h1; rfl
  · rw [h] at h1; cases h1; rfl
  · rw [h] at h1; cases h1; rfl
  · cases hcl
    cases hl.symm.trans hl'
    rw [h1] at h
    cases hg : readGraph world o l r with
    | ok g =>
      obtain ⟨left', right, levels, c, s, q1, -, -, -, -, ha, -⟩ := readGraph_ok hw hg
      cases q1.symm.trans hleft
      have h2 := ha.2.2.1
      have h3 := ha.2.2.2.1
      omega
    | error e =>
      have : compute world o f l r p = .error e := by unfold compute; rw [hg]; rfl
      rw [this] at h
      exact handle_error h

/-! ## Non-vacuity -/

/-- An image with plain rows, and the map of zeros for it. -/
example : (img 3 2 9 [5, 5, 5, 2, 2, 2]).PlainRows ∧
    program (imagesWorld "P2 3 2 9 5 5 5 2 2 2" "P2 3 2 9 1 0 1 0 0 2" (fun _ => solveCsp 1) none) (.parsed (imagesOptions "3" "1" "1" none)) =
      .ok { exit := 0, written := some (bytes "o", bytes "P2\n3 2\n3\n0 0 0\n0 0 0\n") } := by
  refine ⟨?_, by decide +kernel⟩
  have h : ∀ x x' : Fin 3, ∀ y : Fin 2, (img 3 2 9 [5, 5, 5, 2, 2, 2]).at x y = (img 3 2 9 [5, 5, 5, 2, 2, 2]).at x' y := by decide +kernel
  exact fun x x' y hx hx' hy => h ⟨x, hx⟩ ⟨x', hx'⟩ ⟨y, hy⟩

/-- Plain columns are not enough: the map for this left image is not of zeros. -/
example : program (imagesWorld "P2 3 1 9 5 2 9" "P2 3 1 9 2 9 9" (fun _ => solveCsp 1) none) (.parsed (imagesOptions "3" "1" "1" none)) =
    .ok { exit := 0, written := some (bytes "o", bytes "P2\n3 1\n3\n1 1 0\n") } := by decide +kernel

/-- A map in which values decrease by one. -/
example : (img 3 1 3 [2, 1, 0]).MapLike ∧ ¬ (img 3 1 3 [2, 0, 0]).MapLike := by
  constructor
  · have h : (∀ x : Fin 3, (img 3 1 3 [2, 1, 0]).at x 0 < 3 - x ∧ (img 3 1 3 [2, 1, 0]).at x 0 < 3) ∧
        ∀ x : Fin 2, (img 3 1 3 [2, 1, 0]).at x 0 ≤ (img 3 1 3 [2, 1, 0]).at (x + 1 : ℕ) 0 + 1 := by decide +kernel
    refine ⟨fun x y hx hy => ?_, fun y hy => ?_, fun x y hx hy => ?_⟩
    · obtain rfl : y = 0 := Nat.lt_one_iff.1 hy
      exact h.1 ⟨x, hx⟩
    · obtain rfl : y = 0 := Nat.lt_one_iff.1 hy
      rfl
    · obtain rfl : y = 0 := Nat.lt_one_iff.1 hy
      exact h.2 ⟨x, Nat.lt_of_succ_lt_succ hx⟩
  · intro h
    exact absurd (h.next 0 0 (by decide) (by decide)) (by decide +kernel)

/-- Images of one column. -/
example : program (imagesWorld "P2 1 2 9 5 5" "P2 1 2 9 1 0" (fun _ => solveCsp 1) none)
    (.parsed { imagesOptions "1" "1" "1" none with disparityLevels := none }) =
      .ok { exit := 0, err := [.invalidArgument "Number of disparity levels should be greater than one."] } := by decide +kernel

end SP
