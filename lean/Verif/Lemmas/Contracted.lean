import Verif.Model.Contracted
import Verif.Lemmas.DoubleExact
/-!
# Contraction changes nothing while the reparametrization is zero
-/
namespace SP
open FloatOps

namespace Ieee
variable {fmt : Format}

theorem signed_zero (r : Bool) : signed r (⟨0, le_rfl, fmt.overflow_pos, nearest_zero⟩ : fmt.Magnitude) = 0 := by
  unfold signed
  cases r
  · rfl
  · exact neg_zero

/-- Rounding twice and zeros of each sign. -/
theorem rounded_plus_zero {q : ℚ} (hq : 0 ≤ q) (r : Bool) :
    plus (rounded false q) (signedZero r : Ieee fmt) = if q = 0 then signedZero false else rounded false q := by
  have habs : |q| = q := abs_of_nonneg hq
  by_cases h : fmt.nearest |q| < fmt.overflow
  · have e : (rounded false q : Ieee fmt) =
        fin false ⟨fmt.nearest |q|, nearest_nonneg (abs_nonneg _), h, nearest_idem fmt.digits_pos (abs_nonneg _)⟩ := dif_pos h
    rw [e]
    show (if signed false _ + signed r _ = 0 then signedZero (false && r)
      else rounded (decide (signed false _ + signed r _ < 0)) (signed false _ + signed r _)) = _
    rw [signed_zero, add_zero]
    show (if fmt.nearest |q| = 0 then _ else rounded (decide (fmt.nearest |q| < 0)) (fmt.nearest |q|)) = _
    have hn : 0 ≤ fmt.nearest |q| := nearest_nonneg (abs_nonneg _)
    by_cases hz : fmt.nearest |q| = 0
    · rw [if_pos hz, Bool.false_and]
      split
      · rfl
      · unfold signedZero
        congr 1
        exact Subtype.ext hz.symm
    · rw [if_neg hz, if_neg (fun h0 => hz (by rw [h0, abs_zero]; exact nearest_zero)), decide_eq_false (not_lt.2 hn)]
      have hi : fmt.nearest |fmt.nearest (|q|)| = fmt.nearest |q| := by
        rw [abs_of_nonneg hn]
        exact nearest_idem fmt.digits_pos (abs_nonneg _)
      unfold rounded
      rw [dif_pos (by rw [hi]; exact h)]
      congr 1
      exact Subtype.ext hi
  · have e : (rounded false q : Ieee fmt) = inf false := dif_neg h
    rw [e]
    rw [if_neg]
    · rfl
    · rintro rfl
      apply h
      rw [abs_zero]
      exact lt_of_eq_of_lt nearest_zero fmt.overflow_pos

/-- Zeros are neutral if the product is not negative. -/
theorem fma_zero (s r : Bool) (m n : fmt.Magnitude) :
    fma (fin s m) (fin s n) (signedZero r) = plus (times (fin s m) (fin s n)) (signedZero r) := by
  have h0 : 0 ≤ m.1 * n.1 := mul_nonneg m.2.1 n.2.1
  have hp : (if s ^^ s then -(m.1 * n.1) else m.1 * n.1) = m.1 * n.1 := by
    rw [Bool.xor_self]
    rfl
  show (if (if s ^^ s then -(m.1 * n.1) else m.1 * n.1) + signed r _ = 0 then signedZero ((s ^^ s) && r)
    else rounded (decide ((if s ^^ s then -(m.1 * n.1) else m.1 * n.1) + signed r _ < 0)) ((if s ^^ s then -(m.1 * n.1) else m.1 * n.1) + signed r _))
    = plus (rounded (s ^^ s) _) _
  rw [hp, signed_zero, add_zero, Bool.xor_self, rounded_plus_zero h0, decide_eq_false (not_lt.2 h0)]
  rfl

theorem zero_eq : (zero : Ieee fmt) = signedZero false := by
  show rounded false _ = _
  have h : fmt.nearest |((0 : ℕ) : ℚ)| = 0 := by
    rw [Nat.cast_zero, abs_zero]
    exact nearest_zero
  unfold rounded
  rw [dif_pos (by rw [h]; exact fmt.overflow_pos)]
  unfold signedZero
  congr 1
  exact Subtype.ext h

theorem opposite_zero : opposite (zero : Ieee fmt) = signedZero true := by
  rw [zero_eq]
  rfl

end Ieee

namespace Contracted
variable {fmt : Format} {fused : Ieee fmt → Ieee fmt → Ieee fmt → Bool}

theorem add_product (s : Bool) (m n : fmt.Magnitude) :
    add (product (.fin s m) (.fin s n) : Contracted fmt fused) zero = value (add (mul (.fin s m) (.fin s n)) zero) := by
  show value (plus (product _ _) (value zero)) = value (Ieee.plus (Ieee.times _ _) zero)
  congr 1
  show (if _ then _ else _) = _
  split
  · show Ieee.fma _ _ zero = _
    rw [Ieee.zero_eq, Ieee.fma_zero]
  · rfl

theorem sub_product (s : Bool) (m n : fmt.Magnitude) :
    sub (product (.fin s m) (.fin s n) : Contracted fmt fused) zero = value (sub (mul (.fin s m) (.fin s n)) zero) := by
  show value (minus (product _ _) (value zero)) = value (Ieee.plus (Ieee.times _ _) (Ieee.opposite zero))
  congr 1
  show (if _ then _ else _) = _
  split
  · show Ieee.fma _ _ (Ieee.opposite zero) = _
    rw [Ieee.opposite_zero, Ieee.fma_zero]
  · rfl

end Contracted

namespace Ieee
variable {fmt fmt' : Format} {k : ℕ} (ag : fmt.Agree fmt' k)

include ag in
/-- Squares of differences. -/
theorem square_of {b u v : ℕ} (hb : 2 * b ≤ k) (hu : u ≤ 2 ^ b) (hv : v ≤ 2 ^ b) :
    ∃ x : fmt.Num, 0 ≤ x.1 ∧ of ag.toWithin x = sqr (sub (ofNat u) (ofNat v)) := by
  obtain ⟨hu, U, hU, hU'⟩ := ofNat_of ag hu (by omega)
  obtain ⟨hv, V, hV, hV'⟩ := ofNat_of ag hv (by omega)
  set u' : fmt.Num := ofNat u
  set v' : fmt.Num := ofNat v
  have hd : |(U : ℤ) - V| ≤ 2 ^ b := by
    have : (U : ℤ) ≤ 2 ^ b := by exact_mod_cast hU'
    have : (V : ℤ) ≤ 2 ^ b := by exact_mod_cast hV'
    rw [abs_le]
    constructor <;> omega
  have hpow : ∀ {i j : ℕ}, i ≤ j → (2 : ℤ) ^ i ≤ 2 ^ j := fun h => pow_le_pow_right₀ (by norm_num) h
  have hsub := sub_of ag (a := u') (b := v') (m := U) (n := V) (by rw [hU]; simp) (by rw [hV]; simp) (hd.trans (hpow (by omega)))
  obtain ⟨-, D, hD, hDb⟩ := rounded_int ag ((U : ℤ) - V) hd (by omega)
  have hr : fmt.rounding.round (((U : ℤ) - V : ℤ) : ℚ) = sub u' v' := by
    show _ = fmt.rounding.round (u'.1 - v'.1)
    rw [hU, hV]
    push_cast
    rfl
  rw [hr] at hD
  set d : fmt.Num := sub u' v'
  have hs : |D * D| ≤ 2 ^ (2 * b) := by
    rw [abs_mul, two_mul, pow_add]
    exact mul_le_mul hDb hDb (abs_nonneg _) (by positivity)
  refine ⟨mul d d, fmt.rounding.rnd_nonneg (mul_self_nonneg _), ?_⟩
  rw [mul_of ag hD hD (.inr rfl) (hs.trans (hpow hb)), hsub, hu, hv]
  rfl

include ag in
theorem factors_of {a b w u v : ℕ} (hab : a + 2 * b ≤ k) (hw : w ≤ 2 ^ a) (hu : u ≤ 2 ^ b) (hv : v ≤ 2 ^ b) :
    ∃ m n, (ofNat w : Ieee fmt') = fin false m ∧ (sqr (sub (ofNat u) (ofNat v)) : Ieee fmt') = fin false n := by
  obtain ⟨x, hx, ex⟩ := square_of ag (b := b) (by omega) hu hv
  obtain ⟨ew, W, hW, -⟩ := ofNat_of ag hw (by omega)
  refine ⟨magnitudeOf ag.toWithin (ofNat w), magnitudeOf ag.toWithin x, ?_, ?_⟩
  · rw [← ew, of, decide_eq_false (not_lt.2 (by rw [hW]; exact Nat.cast_nonneg W))]
  · rw [← ex, of, decide_eq_false (not_lt.2 hx)]

/-- Contraction carries the computations without it. -/
theorem carrier_contracted {fused : Ieee fmt' → Ieee fmt' → Ieee fmt' → Bool} :
    Carrier (fun v => (.value v : Contracted fmt' fused)) (fun v => ∃ a, Small k a ∧ v = of ag.toWithin a) k where
  le _ _ := rfl
  lt _ _ := rfl
  eq _ _ := rfl
  zero := rfl
  minusOne := rfl
  sub _ _ _ _ := rfl
  P_zero := ⟨zero, (hom ag).P_zero, (of_zero _).symm⟩
  ofNat _ _ := rfl
  epsilon _ _ := rfl
  penalty a b w u v hab hw hu hv := by
    obtain ⟨h1, h2, h3⟩ := (carrier ag).penalty a b w u v hab hw hu hv
    obtain ⟨-, h4⟩ := penalty_of ag hab hw hu hv
    obtain ⟨m, n, e1, e2⟩ := factors_of ag hab hw hu hv
    have e : (mul (ofNat w) (sqr (sub (ofNat u) (ofNat v))) : Contracted fmt' fused) = .product (fin false m) (fin false n) := by
      show Contracted.product (ofNat w) (sqr (sub (ofNat u) (ofNat v))) = _
      rw [e1, e2]
    refine ⟨⟨_, h1, h4.symm⟩, ?_, ?_⟩
    · rw [e, Contracted.add_product, ← e1, ← e2, h2, h4]
    · rw [e, Contracted.sub_product, ← e1, ← e2, h3, h4]
  add_zero := by
    rintro _ ⟨a, ha, rfl⟩
    exact add_zero_small ag a ha
  add_zero' := by
    rintro _ ⟨a, ha, rfl⟩
    exact congrArg _ (add_zero_small ag a ha)
  sub_zero := by
    rintro _ ⟨a, ha, rfl⟩
    rw [← of_zero ag.toWithin, ← (hom ag).sub _ _ ha (hom ag).P_zero, LawfulFloat.sub_zero]

/-- Contraction carries the computations of the lawful arithmetic. -/
theorem contracted_carrier {fused : Ieee fmt' → Ieee fmt' → Ieee fmt' → Bool} :
    Carrier (fun a => (.value (of ag.toWithin a) : Contracted fmt' fused)) (Small k) k where
  le := (carrier ag).le
  lt := (carrier ag).lt
  eq := (carrier ag).eq
  zero := congrArg _ (carrier ag).zero
  minusOne := congrArg _ (carrier ag).minusOne
  sub a b ha hb := congrArg _ ((carrier ag).sub a b ha hb)
  P_zero := (carrier ag).P_zero
  ofNat n hn := congrArg _ ((carrier ag).ofNat n hn)
  epsilon := (carrier ag).epsilon
  penalty a b w u v hab hw hu hv := by
    obtain ⟨h1, -⟩ := (carrier ag).penalty a b w u v hab hw hu hv
    obtain ⟨-, h2, h3⟩ := (carrier_contracted ag (fused := fused)).penalty a b w u v hab hw hu hv
    obtain ⟨-, h4⟩ := penalty_of ag hab hw hu hv
    exact ⟨h1, by rw [h2, h4], by rw [h3, h4]⟩
  add_zero := (carrier ag).add_zero
  add_zero' a ha := congrArg _ ((carrier ag).add_zero' a ha)
  sub_zero := (carrier ag).sub_zero

end Ieee

/-! ## Devices

Products may overflow there.
-/

/-- Neither a negative number nor negative zero. -/
def Ieee.Unsigned {fmt : Format} : Ieee fmt → Prop
  | .nan => True
  | .inf s => s = false
  | .fin s _ => s = false

namespace Ieee
variable {fmt : Format}

theorem rounded_unsigned (q : ℚ) : (rounded false q : Ieee fmt).Unsigned := by
  unfold rounded
  split
  · rfl
  · rfl

theorem convert_unsigned {fmt' : Format} {v : Ieee fmt} (h : v.Unsigned) : (convert v : Ieee fmt').Unsigned := by
  rcases v with _ | s | ⟨s, m⟩
  · trivial
  · exact h
  · obtain rfl : s = false := h
    exact rounded_unsigned _

theorem convert_zero {fmt' : Format} : (convert (zero : Ieee fmt) : Ieee fmt') = zero := by
  rw [zero_eq]
  show rounded false ((0 : ℚ)) = ofNat 0
  show _ = rounded false ((0 : ℕ) : ℚ)
  rw [Nat.cast_zero]

theorem square_unsigned (v : Ieee fmt) : (times v v).Unsigned := by
  rcases v with _ | s | ⟨s, m⟩
  · trivial
  · exact Bool.xor_self s
  · show (rounded (s ^^ s) _ : Ieee fmt).Unsigned
    rw [Bool.xor_self]
    exact rounded_unsigned _

/-- Zeros are neutral if factors are not negative. -/
theorem fma_unsigned {a b : Ieee fmt} (ha : a.Unsigned) (hb : b.Unsigned) (r : Bool) :
    fma a b (signedZero r) = plus (times a b) (signedZero r) := by
  rcases a with _ | s | ⟨s, m⟩
  · rfl
  · rfl
  · obtain rfl : s = false := ha
    rcases b with _ | t | ⟨t, n⟩
    · rfl
    · rfl
    · obtain rfl : t = false := hb
      exact fma_zero false r m n

end Ieee

namespace Contracted
variable {fmt : Format} {fused : Ieee fmt → Ieee fmt → Ieee fmt → Bool}

theorem hom : Hom (.of fun v => (value v : Contracted fmt fused)) fun _ => True where
  le _ _ := rfl
  lt _ _ := rfl
  eq _ _ := rfl
  zero := rfl
  minusOne := rfl
  sub _ _ _ _ := rfl
  P_zero := trivial

variable {a b : Ieee fmt} (ha : a.Unsigned) (hb : b.Unsigned)
include ha hb

theorem add_unsigned : add (product a b : Contracted fmt fused) zero = value (add (mul a b) zero) := by
  show value (plus (product _ _) (value zero)) = value (Ieee.plus (Ieee.times _ _) zero)
  congr 1
  show (if _ then _ else _) = _
  split
  · show Ieee.fma _ _ zero = _
    rw [Ieee.zero_eq, Ieee.fma_unsigned ha hb]
  · rfl

theorem sub_unsigned : sub (product a b : Contracted fmt fused) zero = value (sub (mul a b) zero) := by
  show value (minus (product _ _) (value zero)) = value (Ieee.plus (Ieee.times _ _) (Ieee.opposite zero))
  congr 1
  show (if _ then _ else _) = _
  split
  · show Ieee.fma _ _ (Ieee.opposite zero) = _
    rw [Ieee.opposite_zero, Ieee.fma_unsigned ha hb]
  · rfl

omit ha hb

/-- Contraction changes no penalty of a graph with weights that are not negative. -/
theorem carried {g : DisparityGraph (Ieee fmt)} (hpos : 0 < g.disparityLevels) (hc : g.cleanness.Unsigned) (hs : g.smoothness.Unsigned)
    (hr : ∀ a ∈ g.reparametrization, a = zero) : Carried (.of fun v => (value v : Contracted fmt fused)) (fun _ => True) g := by
  have hrd : ∀ i, Sim (fun a b => a = zero ∧ b = zero) (rd g.reparametrization i)
      (rd (g.mapF <| .of fun v => (value v : Contracted fmt fused)).reparametrization i) := by
    intro i
    refine (SP.rd_sim (φ := fun v => (value v : Contracted fmt fused)) hr i).mono ?_
    rintro _ _ ⟨rfl, rfl⟩
    exact ⟨rfl, rfl⟩
  refine ⟨hpos, fun n => ?_, fun e _ _ => ?_⟩
  · unfold nodePenalty
    rw [show (g.mapF <| .of fun v => (value v : Contracted fmt fused)).right = g.right from rfl,
      show (g.mapF <| .of fun v => (value v : Contracted fmt fused)).left = g.left from rfl]
    cases pixelValue g.right n.pixel with
    | error e => exact Sim.error _
    | ok vr =>
    simp only [bind_ok]
    cases pixelValue g.left { x := n.pixel.x + n.disparity, y := n.pixel.y } with
    | error e => exact Sim.error _
    | ok vl =>
    simp only [bind_ok]
    refine Sim.bind (hrd _) ?_
    rintro _ _ ⟨rfl, rfl⟩
    refine Sim.bind (hrd _) ?_
    rintro _ _ ⟨rfl, rfl⟩
    refine Sim.bind (hrd _) ?_
    rintro _ _ ⟨rfl, rfl⟩
    refine Sim.bind (hrd _) ?_
    rintro _ _ ⟨rfl, rfl⟩
    refine Sim.pure ⟨trivial, ?_⟩
    have h := add_unsigned (fused := fused) hc (Ieee.square_unsigned (sub (ofNat vr.toNat) (ofNat vl.toNat)))
    exact congrArg (fun x => add (add (add x zero) zero) zero) h
  · unfold edgePenalty
    refine Sim.bind (hrd _) ?_
    rintro _ _ ⟨rfl, rfl⟩
    refine Sim.bind (hrd _) ?_
    rintro _ _ ⟨rfl, rfl⟩
    refine Sim.pure ⟨trivial, ?_⟩
    have h := sub_unsigned (fused := fused) hs (Ieee.square_unsigned (sub (ofNat e.node.disparity.toNat) (ofNat e.neighbor.disparity.toNat)))
    exact congrArg (fun x => sub x zero) h

/-- The same after weights have been converted for a device. -/
theorem carried_device {fmt' : Format} {k : ℕ} {c : ConstraintGraph (Ieee fmt')} (hg : FromInput k c.disparityGraph) :
    CarriedGraph (.of fun v => (value v : Contracted fmt fused)) (fun _ => True) (c.onDevice Ieee.convert) := by
  have key : Carried (.of fun v => (value v : Contracted fmt fused)) (fun _ => True) (c.disparityGraph.onDevice Ieee.convert) := by
    obtain ⟨w, v, hw, hv, -⟩ := hg.range
    refine carried hg.pos ?_ ?_ ?_
    · show (Ieee.convert c.disparityGraph.cleanness).Unsigned
      rw [hw]
      exact Ieee.convert_unsigned (Ieee.rounded_unsigned _)
    · show (Ieee.convert c.disparityGraph.smoothness).Unsigned
      rw [hv]
      exact Ieee.convert_unsigned (Ieee.rounded_unsigned _)
    · intro a ha
      obtain ⟨b, hb, rfl⟩ := Array.mem_map.1 ha
      rw [hg.reparametrization b hb]
      exact Ieee.convert_zero
  exact ⟨key, key, fun _ _ => trivial, fun _ _ => trivial⟩

end Contracted
end SP
