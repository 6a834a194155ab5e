import Verif.Proofs.TickMath
import Mathlib.Data.Nat.ModEq
/- Price conversion of `Uint128` amounts at valid ticks. -/
namespace OB

/-- Value of `a` deposit units of a `dir` order at price atomics `p`, rounded down. -/
def valDown (dir : Dir) (a p : Nat) : Nat :=
  match dir with
  | .ask => a * p / D
  | .bid => a * D / p

/-- As computed by the contract when rounding up. -/
def valUp (dir : Dir) (a p : Nat) : Nat :=
  match dir with
  | .ask => (a * p + (D - 1)) / D
  | .bid => (a * (D * D) / p + (D - 1)) / D

def valR : Rounding → Dir → Nat → Nat → Nat
  | .down => valDown
  | .up => valUp

theorem priceMax_lt : 340282300000000000000 * 10 ^ 18 < U128 := by unfold U128; norm_num

theorem mul_price_lt {a : Nat} {t : Int} (h0 : MIN_TICK ≤ t) (h1 : t ≤ MAX_TICK) (ha : a < U128) : a * priceNat t < U256 := by
  have hp := (priceNat_bounds h0 h1).2
  have := priceMax_lt
  calc a * priceNat t ≤ a * U128 := Nat.mul_le_mul_left _ (by omega)
    _ < U128 * U128 := Nat.mul_lt_mul_of_pos_right ha (by unfold U128; norm_num)
    _ = U256 := by unfold U128 U256; norm_num

theorem div_price_lt {a : Nat} {t : Int} (h0 : MIN_TICK ≤ t) (h1 : t ≤ MAX_TICK) (ha : a < U128) :
    a * (D * D) / priceNat t < U256 := by
  have hp := (priceNat_bounds h0 h1).1
  calc a * (D * D) / priceNat t ≤ a * (D * D) := Nat.div_le_self _ _
    _ < U128 * (D * D) := Nat.mul_lt_mul_of_pos_right ha (by unfold D; norm_num)
    _ ≤ U256 := by unfold U128 U256 D; norm_num

theorem amountToValue_spec {dir : Dir} {a : Nat} {t : Int} (h0 : MIN_TICK ≤ t) (h1 : t ≤ MAX_TICK) (ha : a < U128)
    (r : Rounding) :
    amountToValue dir a (priceNat t) r = .ok (valR r dir a (priceNat t)) := by
  have hp := priceNat_pos h0 h1
  unfold amountToValue
  split
  · subst_vars
    have hz : (0 + (D - 1)) / D = 0 := Nat.div_eq_of_lt (by have := D_pos; omega)
    cases dir <;> cases r <;> simp [valR, valDown, valUp, Nat.zero_mul, Nat.zero_div] <;> exact hz.symm ▸ (by simp [D])
  · cases dir
    · simp only [divideByPrice, fromRatio_one ha, Except.ok_bind', checkedDiv, checkedFromRatio, Nat.ne_of_gt hp, if_false]
      rw [Nat.mul_assoc, if_pos (div_price_lt h0 h1 ha)]
      cases r
      · simp only [Rounding.round, toUintFloor, valR, valDown]
        rw [Nat.div_div_eq_div_mul, ← Nat.mul_assoc, Nat.mul_div_mul_right _ _ D_pos]
      · simp only [Rounding.round, toUintCeil_eq, valR, valUp]
    · simp only [multiplyByPrice, fromRatio_one ha, Except.ok_bind', checkedMul]
      have e : priceNat t * (a * D) / D = a * priceNat t := by
        rw [← Nat.mul_assoc, Nat.mul_div_cancel _ D_pos, Nat.mul_comm]
      rw [e, if_pos (mul_price_lt h0 h1 ha)]
      cases r
      · simp only [Rounding.round, toUintFloor, valR, valDown]
      · simp only [Rounding.round, toUintCeil_eq, valR, valUp]

/-- Values are superadditive: instalments pay at most the whole. -/
theorem valDown_add_le (dir : Dir) (a b p : Nat) : valDown dir a p + valDown dir b p ≤ valDown dir (a + b) p := by
  cases dir <;> simp only [valDown, Nat.add_mul] <;> exact Nat.add_div_le_add_div _ _ _

theorem valDown_add_ge (dir : Dir) (a b p : Nat) (hp : 0 < p) :
    valDown dir (a + b) p ≤ valDown dir a p + valDown dir b p + 1 := by
  cases dir <;> simp only [valDown, Nat.add_mul]
  · rw [Nat.add_div hp]; split <;> omega
  · rw [Nat.add_div D_pos]; split <;> omega

theorem valDown_mono (dir : Dir) {a b : Nat} (p : Nat) (h : a ≤ b) : valDown dir a p ≤ valDown dir b p := by
  cases dir <;> simp only [valDown] <;> exact Nat.div_le_div_right (Nat.mul_le_mul_right _ h)

theorem valDown_zero (dir : Dir) (p : Nat) : valDown dir 0 p = 0 := by cases dir <;> simp [valDown]

/-- `Decimal256` value range of claims. -/
theorem valDown_mul_lt {dir : Dir} {a : Nat} {t : Int} (h0 : MIN_TICK ≤ t) (h1 : t ≤ MAX_TICK) (ha : a < U128) :
    valDown dir a (priceNat t) * D < U256 := by
  cases dir
  · refine lt_of_le_of_lt ?_ (div_price_lt h0 h1 ha)
    rw [valDown, Nat.le_div_iff_mul_le (priceNat_pos h0 h1)]
    have := Nat.div_mul_le_self (a * D) (priceNat t)
    calc a * D / priceNat t * D * priceNat t = (a * D / priceNat t * priceNat t) * D := by ring
      _ ≤ a * D * D := Nat.mul_le_mul_right _ this
      _ = a * (D * D) := by ring
  · exact lt_of_le_of_lt (Nat.div_mul_le_self _ _) (mul_price_lt h0 h1 ha)

end OB
