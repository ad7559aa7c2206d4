import Verif.Lemmas.Power
import Verif.Props.Ratio
/-!
# C108: weights multiplied by a power of two

Rounding commutes with the multiplication by a power of two. So the ratio of weights matters only (C105), even if penalties are rounded, as
long as it is changed by powers of two.
-/
namespace SP
open FloatOps ConstraintGraph Gpu Format
set_option maxRecDepth 1000000

/-- Intensities are multiplied by `2^a`, and weights are such that all penalties are multiplied by `2^z`. Intensities of the program have at
most 16 bits, so `small` matters for black images only. -/
structure SamePower (a : ℕ) (z : ℤ) (left right left' right' : Image) (c s c' s' : ℕ) : Prop where
  small : a ≤ 64
  width : right'.width = right.width
  height : right'.height = right.height
  left : ∀ x y, left'.at x y = 2 ^ a * left.at x y
  right : ∀ x y, right'.at x y = 2 ^ a * right.at x y
  cleanness : (c' : ℚ) * 2 ^ (2 * a) = 2 ^ z * c
  smoothness : (s' : ℚ) = 2 ^ z * s

/-- What is known about the two runs: images, levels and weights. -/
def World.SamePower {F G : Type} [FloatOps F] [FloatOps G] (world : World F) (world' : World G) (o o' : Options) : Prop :=
  ∃ (l r l' r' : Text) (left right left' right' : Image) (levels c s c' s' : UInt64) (a : ℕ) (z : ℤ),
    o.leftImage = some l ∧ o.rightImage = some r ∧ o'.leftImage = some l' ∧ o'.rightImage = some r' ∧
    readImage world l = .ok left ∧ readImage world r = .ok right ∧ readImage world' l' = .ok left' ∧ readImage world' r' = .ok right' ∧
    levelsOption left o.disparityLevels = .ok levels ∧ levelsOption left' o'.disparityLevels = .ok levels ∧
    weightNumber o.cleanness = .ok c ∧ weightNumber o.smoothness = .ok s ∧
    weightNumber o'.cleanness = .ok c' ∧ weightNumber o'.smoothness = .ok s' ∧
    SP.SamePower a z left right left' right' c.toNat s.toNat c'.toNat s'.toNat

section
variable {left right left' right' : Image} {levels : UInt64} {a k c s c' s' : ℕ}

theorem Image.at_le (image : Image) (x y : ℕ) : image.at x y ≤ 2 ^ 64 := by
  unfold Image.at
  exact (UInt64.toNat_lt _).le

theorem penalty_whole {u v w : ℕ} (hu : u ≤ 2 ^ 64) (hv : v ≤ 2 ^ 64) (hw : w ≤ 2 ^ 64) :
    Whole 130 (sqr (sub (ofNat u : Format.binary64.Num) (ofNat v))) ∧
    Whole 194 (mul (ofNat w : Format.binary64.Num) (sqr (sub (ofNat u) (ofNat v)))) := by
  have h := (whole_ofNat (fmt := .binary64) (B := 64) (by decide) hu).sub (by decide) (whole_ofNat (by decide) hv)
  have h2 : Whole 130 (sqr (sub (ofNat u : Format.binary64.Num) (ofNat v))) := h.mul (by decide) h
  exact ⟨h2, (whole_ofNat (fmt := .binary64) (B := 64) (by decide) hw).mul (by decide) h2⟩

theorem penalty_times (ha : a ≤ 64) (hk : k ≤ 192) {u v w w' : ℕ} (hu : u ≤ 2 ^ 64) (hv : v ≤ 2 ^ 64) (hw : w ≤ 2 ^ 64) (hw' : w' ≤ 2 ^ 128)
    (h : w' * 2 ^ (2 * a) = 2 ^ k * w) :
    Times k (mul (ofNat w : Format.binary64.Num) (sqr (sub (ofNat u) (ofNat v))))
      (mul (ofNat w') (sqr (sub (ofNat (2 ^ a * u)) (ofNat (2 ^ a * v))))) := by
  have ht : (Format.binary64).top = 1024 := rfl
  have wu := whole_ofNat (fmt := .binary64) (B := 64) (by decide) hu
  have wv := whole_ofNat (fmt := .binary64) (B := 64) (by decide) hv
  have hd := Times.sub (by omega) wu wv (times_ofNat (k := a) (B := 64) (by omega) hu) (times_ofNat (k := a) (B := 64) (by omega) hv)
  have ws := wu.sub (by decide) wv
  have hs : Times (2 * a) (sqr (sub (ofNat u : Format.binary64.Num) (ofNat v))) (sqr (sub (ofNat (2 ^ a * u)) (ofNat (2 ^ a * v)))) := by
    refine times_mul (B := 65) (C := 65) (by omega) ws ws ?_
    rw [hd]
    ring
  refine times_mul (B := 64) (C := 130) (by omega) (whole_ofNat (by decide) hw) (penalty_whole hu hv hw).1 ?_
  have h1 : Times (2 * a) (ofNat w' : Format.binary64.Num) (ofNat (2 ^ (2 * a) * w')) := times_ofNat (B := 128) (by omega) hw'
  have h2 : Times k (ofNat w : Format.binary64.Num) (ofNat (2 ^ k * w)) := times_ofNat (B := 64) (by omega) hw
  rw [mul_comm (2 ^ (2 * a)) w', h] at h1
  have h3 : 2 ^ (2 * a) * (ofNat w' : Format.binary64.Num).1 = 2 ^ k * (ofNat w : Format.binary64.Num).1 := h1.symm.trans h2
  rw [hs]
  rw [← mul_assoc, mul_comm (ofNat w' : Format.binary64.Num).1, h3, mul_assoc]

/-- All penalties are multiplied by `2^k`. -/
theorem powers_related (ha : a ≤ 64) (hk : k ≤ 192) (hw : right'.width = right.width) (hh : right'.height = right.height)
    (hl : ∀ x y, left'.at x y = 2 ^ a * left.at x y) (hr : ∀ x y, right'.at x y = 2 ^ a * right.at x y)
    (hc : c ≤ 2 ^ 64) (hs : s ≤ 2 ^ 64) (hc' : c' ≤ 2 ^ 128) (hs' : s' ≤ 2 ^ 128) (h1 : c' * 2 ^ (2 * a) = 2 ^ k * c) (h2 : s' = 2 ^ k * s) :
    Related (Times k) (freshGraph left right levels (ofNat c : Format.binary64.Num) (ofNat s))
      (freshGraph left' right' levels (ofNat c' : Format.binary64.Num) (ofNat s')) := by
  have ht : (Format.binary64).top = 1024 := rfl
  have hlev : ∀ {d}, d < (freshGraph left right levels (ofNat c : Format.binary64.Num) (ofNat s)).levels → d ≤ 2 ^ 64 := fun h =>
    le_trans (le_of_lt h) (UInt64.toNat_lt _).le
  have hnode : ∀ x y d, Times k ((freshGraph left right levels (ofNat c : Format.binary64.Num) (ofNat s)).nodeQ x y d)
      ((freshGraph left' right' levels (ofNat c' : Format.binary64.Num) (ofNat s')).nodeQ x y d) := by
    intro x y d
    rw [fresh_nodeQ, fresh_nodeQ, hl, hr]
    exact penalty_times ha hk (Image.at_le _ _ _) (Image.at_le _ _ _) hc hc' h1
  have hjump : ∀ d d', d ≤ 2 ^ 64 → d' ≤ 2 ^ 64 → Times k (mul (ofNat s : Format.binary64.Num) (sqr (sub (ofNat d) (ofNat d'))))
      (mul (ofNat s') (sqr (sub (ofNat d) (ofNat d')))) := by
    intro d d' hd hd'
    have := penalty_times (a := 0) (k := k) (by omega) hk hd hd' hs hs' (by rw [h2]; simp)
    simpa using this
  refine ⟨Times.le, hw, hh, rfl, fun x y d _ => hnode x y d, fun x y d e _ _ => ?_, fun x y j d d' e e' hd he => ?_,
    fun d d' hd hd' => hjump d d' (hlev hd) (hlev hd')⟩
  · refine Times.sub (B := 194) (by omega) ?_ ?_ (hnode x y d) (hnode x y e) <;> rw [fresh_nodeQ] <;>
      exact (penalty_whole (Image.at_le _ _ _) (Image.at_le _ _ _) hc).2
  · have b1 := hlev hd.2.1.2.2.1
    have b2 := hlev hd.2.2.1.2.2.1
    have b3 := hlev he.2.1.2.2.1
    have b4 := hlev he.2.2.1.2.2.1
    simp only [fresh_edgeQ]
    exact Times.sub (B := 194) (by omega) (penalty_whole b1 b2 hs).2 (penalty_whole b3 b4 hs).2 (hjump _ _ b1 b2) (hjump _ _ b3 b4)

/-- A run without rounding of weights: the graph for weights multiplied by a power of two is fresh as well. -/
theorem fresh_of_accepted {n m : ℕ} (hl : left.Sized) (hr : right.Sized) (hsize : left.data.size < 2147483648)
    (h : AcceptedInput left right levels (ofNat c : Format.binary64.Num) (ofNat s)) (hn : c ≤ n) (hm : s ≤ m) :
    (freshGraph left right levels (ofNat n : Format.binary64.Num) (ofNat m)).Fresh := by
  have h' : AcceptedInput left right levels (ofNat n : Format.binary64.Num) (ofNat m) := by
    obtain ⟨a1, a2, a3, a4, a5, a6, a7, a8, a9, a10⟩ := h
    have key : ∀ {p q : ℕ} {x : Format.binary64.Num}, p ≤ q → lt (ofNat p) x = false → lt (ofNat q) x = false := by
      intro p q x hpq hp
      rw [LawfulFloat.not_lt_iff] at hp ⊢
      exact LawfulFloat.le_trans _ _ _ hp (LawfulFloat.ofNat_mono _ _ hpq)
    exact ⟨a1, a2, a3, a4, a5, a6, a7, key hn a8, key hm a9, a10.imp (key hn) (key hm)⟩
  exact freshGraph_fresh hl hr h' (accepted_fits h' hl hsize)

theorem AcceptedInput.some_positive (h : AcceptedInput left right levels (ofNat c : Format.binary64.Num) (ofNat s)) : c ≠ 0 ∨ s ≠ 0 := by
  by_contra hn
  push_neg at hn
  obtain ⟨rfl, rfl⟩ := hn
  obtain ⟨-, -, -, -, -, -, -, -, -, h10⟩ := h
  have : lt (ofNat 0 : Format.binary64.Num) epsilon = true := LawfulFloat.epsilon_pos
  rw [this] at h10
  simp at h10

/-- An integer power as two natural ones. -/
theorem SamePower.split {z : ℤ} (h : SamePower a z left right left' right' c s c' s') (h0 : c ≠ 0 ∨ s ≠ 0) (hc : c < 2 ^ 64) (hs : s < 2 ^ 64)
    (hc' : c' < 2 ^ 64) (hs' : s' < 2 ^ 64) :
    ∃ k m : ℕ, k ≤ 192 ∧ m ≤ 64 ∧ (2 ^ m * c') * 2 ^ (2 * a) = 2 ^ k * c ∧ 2 ^ m * s' = 2 ^ k * s := by
  have ha := h.small
  rcases z.le_total 0 with hz | hz
  · obtain ⟨m, rfl⟩ := Int.exists_eq_neg_ofNat hz
    have h1 := h.cleanness
    have h2 := h.smoothness
    rw [zpow_neg, zpow_natCast] at h1 h2
    have e1 : (2 ^ m * c') * 2 ^ (2 * a) = c := by
      have : (2 ^ m * c' : ℚ) * 2 ^ (2 * a) = c := by
        rw [mul_assoc, h1]
        field_simp
      exact_mod_cast this
    have e2 : 2 ^ m * s' = s := by
      have : (2 ^ m * s' : ℚ) = s := by
        rw [h2]
        field_simp
      exact_mod_cast this
    refine ⟨0, m, by omega, ?_, by rw [pow_zero, one_mul]; exact e1, by rw [pow_zero, one_mul]; exact e2⟩
    have hlt : 2 ^ m < 2 ^ 64 := by
      rcases h0 with h0 | h0
      · refine lt_of_le_of_lt ?_ hc
        rw [← e1, mul_assoc]
        exact Nat.le_mul_of_pos_right _ (Nat.pos_of_ne_zero fun h => h0 (by rw [← e1, mul_assoc, h, mul_zero]))
      · refine lt_of_le_of_lt ?_ hs
        rw [← e2]
        exact Nat.le_mul_of_pos_right _ (Nat.pos_of_ne_zero fun h => h0 (by rw [← e2, h, mul_zero]))
    exact ((Nat.pow_lt_pow_iff_right (by norm_num)).1 hlt).le
  · obtain ⟨k, rfl⟩ := Int.eq_ofNat_of_zero_le hz
    have h1 := h.cleanness
    have h2 := h.smoothness
    rw [zpow_natCast] at h1 h2
    have e1 : c' * 2 ^ (2 * a) = 2 ^ k * c := by exact_mod_cast h1
    have e2 : s' = 2 ^ k * s := by exact_mod_cast h2
    refine ⟨k, 0, ?_, by omega, by rw [pow_zero, one_mul]; exact e1, by rw [pow_zero, one_mul]; exact e2⟩
    have hlt : 2 ^ k < 2 ^ 192 := by
      rcases h0 with h0 | h0
      · calc 2 ^ k ≤ 2 ^ k * c := Nat.le_mul_of_pos_right _ (Nat.pos_of_ne_zero h0)
          _ = c' * 2 ^ (2 * a) := e1.symm
          _ < 2 ^ 64 * 2 ^ (2 * a) := Nat.mul_lt_mul_of_pos_right hc' (by positivity)
          _ ≤ 2 ^ 64 * 2 ^ 128 := Nat.mul_le_mul_left _ (Nat.pow_le_pow_right (by norm_num) (by omega))
          _ = 2 ^ 192 := by rw [← pow_add]
      · calc 2 ^ k ≤ 2 ^ k * s := Nat.le_mul_of_pos_right _ (Nat.pos_of_ne_zero h0)
          _ = s' := e2.symm
          _ < 2 ^ 64 := hs'
          _ ≤ 2 ^ 192 := Nat.pow_le_pow_right (by norm_num) (by norm_num)
    exact ((Nat.pow_lt_pow_iff_right (by norm_num)).1 hlt).le

/-- **C108** for maps. The best maps with rounding are the same. -/
theorem C108_best_map {z : ℤ} (h : SamePower a z left right left' right' c s c' s') (hc : c < 2 ^ 64) (hs : s < 2 ^ 64)
    (hc' : c' < 2 ^ 64) (hs' : s' < 2 ^ 64) (hl : left.Sized) (hr : right.Sized) (hsize : left.data.size < 2147483648)
    (hl' : left'.Sized) (hr' : right'.Sized) (hsize' : left'.data.size < 2147483648)
    (hin : AcceptedInput left right levels (ofNat c : Format.binary64.Num) (ofNat s))
    (hin' : AcceptedInput left' right' levels (ofNat c' : Format.binary64.Num) (ofNat s')) {t t' : Format.binary64.Num} {im im' : Image}
    (hb : BestMap (freshGraph left right levels (ofNat c : Format.binary64.Num) (ofNat s)) t im)
    (hb' : BestMap (freshGraph left' right' levels (ofNat c' : Format.binary64.Num) (ofNat s')) t' im') : im = im' := by
  obtain ⟨k, m, hk, hm, e1, e2⟩ := h.split hin.some_positive hc hs hc' hs'
  have big : ∀ {n : ℕ}, n < 2 ^ 64 → 2 ^ m * n ≤ 2 ^ 128 := by
    intro n hn
    calc 2 ^ m * n ≤ 2 ^ 64 * 2 ^ 64 := Nat.mul_le_mul (Nat.pow_le_pow_right (by norm_num) hm) hn.le
      _ = 2 ^ 128 := by rw [← pow_add]
  have one : ∀ n : ℕ, n ≤ 2 ^ m * n := fun n => Nat.le_mul_of_pos_left _ (by positivity)
  have hf := fresh_of_accepted hl hr hsize hin le_rfl le_rfl
  have hf' := fresh_of_accepted hl' hr' hsize' hin' le_rfl le_rfl
  have hf2 := fresh_of_accepted hl' hr' hsize' hin' (one c') (one s')
  obtain ⟨t1, -, h1⟩ := (powers_related h.small hk h.width h.height h.left h.right hc.le hs.le (big hc') (big hs') e1 e2).best_map hf hf2 hb
  obtain ⟨t2, -, h2⟩ := (powers_related (a := 0) (k := m) (by omega) (by omega) rfl rfl (fun x y => by simp) (fun x y => by simp) hc'.le hs'.le
    (big hc') (big hs') (by simp) rfl).best_map hf' hf2 hb'
  exact (h1.unique h2).2

end

/-- Files that are best maps with rounding are equal. -/
theorem World.Result.same_power {F G : Type} [FloatOps F] [FloatOps G] {world : World F} {world' : World G} {jobs jobs' : UInt64}
    (hw : world.Reasonable jobs) (hw' : world'.Reasonable jobs') {o o' : Options} {out out' : Outcome} {path text path' text' : Text}
    (hr : world.SamePower world' o o') (h : world.Result Format.binary64.Num (.parsed o) out path text)
    (h' : world'.Result Format.binary64.Num (.parsed o') out' path' text') : text = text' := by
  obtain ⟨l, r, l', r', left, right, left', right', levels, c, s, c', s', a, z, a1, a2, a3, a4, a5, a6, a7, a8, a9, a10, a11, a12, a13, a14, hs⟩ := hr
  obtain ⟨-, -, _, _, _, _, _, _, _, _, im, e, -, b1, b2, b3, b4, b5, b6, b7, b8, b9, -, -, -, t, b10⟩ := h
  obtain ⟨-, -, _, _, _, _, _, _, _, _, im', e', -, d1, d2, d3, d4, d5, d6, d7, d8, d9, -, -, -, t', d10⟩ := h'
  cases e; cases e'
  cases a1.symm.trans b1; cases a2.symm.trans b2; cases a3.symm.trans d1; cases a4.symm.trans d2
  cases a5.symm.trans b3; cases a6.symm.trans b4; cases a7.symm.trans d3; cases a8.symm.trans d4
  cases a9.symm.trans b5; cases a10.symm.trans d5
  cases a11.symm.trans b6; cases a12.symm.trans b7; cases a13.symm.trans d6; cases a14.symm.trans d7
  have sized : ∀ {H : Type} [FloatOps H] {w : World H} {j : UInt64} {p : Text} {i : Image}, w.Reasonable j → readImage w p = .ok i →
      i.Sized ∧ i.data.size < 2147483648 := by
    intro H _ w j p i hw hi
    obtain ⟨tx, -, pl, sl⟩ := readImage_ok hi
    exact ⟨pgmOf_sized pl sl hw.memory, lt_of_le_of_lt sl hw.memory⟩
  obtain ⟨l1, l2⟩ := sized hw a5
  obtain ⟨l3, l4⟩ := sized hw' a7
  cases C108_best_map hs c.toNat_lt s.toNat_lt c'.toNat_lt s'.toNat_lt l1 (sized hw a6).1 l2 l3 (sized hw' a8).1 l4 b8 d8 b10 d10
  exact Except.ok.inj (b9.symm.trans d9)

section
variable {B B' : Nat} {jobs jobs' : UInt64}

/-- The written file is the best map with rounding. -/
theorem World.result_rounded {world : World Double} (hw : world.Reasonable jobs) (hruns : world.Runs B jobs) (hcpu : world.CpuOnly) {cl : CommandLine}
    {out : Outcome} (h : program world cl = .ok out) {path text : Text} (hwr : out.written = some (path, text)) :
    world.Result Format.binary64.Num cl out path text := by
  obtain ⟨world', h1, h2, h3⟩ := World.pullDevice carrier_double carrier_double (fun _ => rfl) hruns hcpu.devices
  exact World.result carrier_double carrier_double.self (fun _ _ _ _ => trivial) (.self fun _ => True) h1 hw h2 h3 .id
    (fun o l r _ _ _ => world.inRange_192 o l r) h hwr

/-- The same if the compiler contracts expressions. -/
theorem World.result_rounded_contracted {fused : Double → Double → Double → Bool} {world : World (ContractedDouble fused)} (hw : world.Reasonable jobs)
    (hruns : world.Runs B jobs) (hcpu : world.CpuOnly) {cl : CommandLine} {out : Outcome} (h : program world cl = .ok out) {path text : Text}
    (hwr : out.written = some (path, text)) : world.Result Format.binary64.Num cl out path text := by
  have car := Ieee.contracted_carrier (.refl .binary64 (by decide) : Format.binary64.Agree .binary64 192) (fused := fused)
  obtain ⟨world', h1, h2, h3⟩ := World.pullDevice car car (fun _ => rfl) hruns hcpu.devices
  exact World.result car carrier_double.self (fun _ _ _ _ => trivial) (.self fun _ => True) h1 hw h2 h3 .id
    (fun o l r _ _ _ => world.inRange_192 o l r) h hwr

/-- **C108**. Whatever the weights, also if they are rounded: if the intensities are multiplied by a power of two and the weights by such powers
of two that all penalties are multiplied by the same power, positive or negative, then both runs without OpenCL and CUDA, whatever the threads
and schedules are, write the same text, if they write. -/
theorem C108_powers {world world' : World Double} (hw : world.Reasonable jobs) (hw' : world'.Reasonable jobs') (hruns : world.Runs B jobs)
    (hruns' : world'.Runs B' jobs') (hcpu : world.CpuOnly) (hcpu' : world'.CpuOnly) {o o' : Options}
    (hr : world.SamePower world' o o') (out out' : Outcome) (h : program world (.parsed o) = .ok out) (h' : program world' (.parsed o') = .ok out')
    (path text path' text' : Text) (hwr : out.written = some (path, text)) (hwr' : out'.written = some (path', text')) : text = text' :=
  World.Result.same_power hw hw' hr (World.result_rounded hw hruns hcpu h hwr) (World.result_rounded hw' hruns' hcpu' h' hwr')

/-- The same for compilers that contract expressions, not necessarily in the same way. -/
theorem C108_powers_contracted {fused fused' : Double → Double → Double → Bool} {world : World (ContractedDouble fused)}
    {world' : World (ContractedDouble fused')} (hw : world.Reasonable jobs) (hw' : world'.Reasonable jobs') (hruns : world.Runs B jobs)
    (hruns' : world'.Runs B' jobs') (hcpu : world.CpuOnly) (hcpu' : world'.CpuOnly) {o o' : Options}
    (hr : world.SamePower world' o o') (out out' : Outcome) (h : program world (.parsed o) = .ok out) (h' : program world' (.parsed o') = .ok out')
    (path text path' text' : Text) (hwr : out.written = some (path, text)) (hwr' : out'.written = some (path', text')) : text = text' :=
  World.Result.same_power hw hw' hr (World.result_rounded_contracted hw hruns hcpu h hwr) (World.result_rounded_contracted hw' hruns' hcpu' h' hwr')

end

/-! ## Examples -/

-- large weights, for which three times greater weights give another map (`C105_ratio_refuted`): 2^1 times greater ones do not
example : ∃ out out', (imagesWorld "P2 2 1 1 0 1" "P2 2 1 1 1 1" (fun _ => solveCsp 1) none).SamePower
      (imagesWorld "P2 2 1 1 0 1" "P2 2 1 1 1 1" (fun _ => solveCsp 1) none)
      (imagesOptions "2" "9007199254740992" "9007199254740993" none) (imagesOptions "2" "18014398509481984" "18014398509481986" none) ∧
    program (imagesWorld "P2 2 1 1 0 1" "P2 2 1 1 1 1" (fun _ => solveCsp 1) none)
      (.parsed (imagesOptions "2" "9007199254740992" "9007199254740993" none)) = .ok out ∧
    program (imagesWorld "P2 2 1 1 0 1" "P2 2 1 1 1 1" (fun _ => solveCsp 1) none)
      (.parsed (imagesOptions "2" "18014398509481984" "18014398509481986" none)) = .ok out' ∧
    out.written = some (bytes "o", bytes "P2\n2 1\n2\n1 0\n") ∧ out'.written = out.written := by
  refine ⟨{ exit := 0, written := some (bytes "o", bytes "P2\n2 1\n2\n1 0\n") }, { exit := 0, written := some (bytes "o", bytes "P2\n2 1\n2\n1 0\n") },
    ⟨bytes "l", bytes "r", bytes "l", bytes "r", ⟨2, 1, 1, #[0, 1]⟩, ⟨2, 1, 1, #[1, 1]⟩, ⟨2, 1, 1, #[0, 1]⟩, ⟨2, 1, 1, #[1, 1]⟩, 2,
    9007199254740992, 9007199254740993, 18014398509481984, 18014398509481986, 0, 1, rfl, rfl, rfl, rfl, by decide +kernel, by decide +kernel,
    by decide +kernel, by decide +kernel, by decide +kernel, by decide +kernel, by decide +kernel, by decide +kernel, by decide +kernel,
    by decide +kernel, by decide, rfl, rfl, fun x y => (Nat.one_mul _).symm, fun x y => (Nat.one_mul _).symm, by decide +kernel, by decide +kernel⟩,
    by decide +kernel, by decide +kernel, rfl, rfl⟩

-- intensities are two times greater, weights are sixteen and four times smaller
example : SamePower 1 (-2) ⟨2, 1, 7, #[1, 3]⟩ ⟨2, 1, 7, #[3, 2]⟩ ⟨2, 1, 7, #[2, 6]⟩ ⟨2, 1, 7, #[6, 4]⟩ 48 20 3 5 := by
  have hat : ∀ (d d' : List UInt64), d' = d.map (2 * ·) → (∀ v ∈ d, v.toNat ≤ 9) → ∀ x y,
      (Image.mk 2 1 7 d'.toArray).at x y = 2 ^ 1 * (Image.mk 2 1 7 d.toArray).at x y := by
    rintro d _ rfl hv x y
    simp only [Image.at, Array.getD_eq_getD_getElem?, List.getElem?_toArray, List.getElem?_map]
    rcases hd : d[pidx (UInt64.toNat 2) x y]? with _ | v
    · rfl
    · have := hv v (List.mem_of_getElem? hd)
      show (2 * v).toNat = 2 ^ 1 * v.toNat
      rw [UInt64.toNat_mul]
      exact Nat.mod_eq_of_lt (by show 2 * v.toNat < _; omega)
  exact ⟨by decide, rfl, rfl, hat [1, 3] [2, 6] (by decide) (by decide), hat [3, 2] [6, 4] (by decide) (by decide), by norm_num, by norm_num⟩

end SP
