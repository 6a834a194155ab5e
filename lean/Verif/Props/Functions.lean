import Verif.Props.Price
import Mathlib.Algebra.Order.Floor.Semifield
/- C110: the published price functions on all inputs. -/
namespace OB

theorem pow77 : (10 : Nat) ^ 77 < U256 := by unfold U256; norm_num
theorem pow78 : U256 ≤ (10 : Nat) ^ 78 := by unfold U256; norm_num

theorem ten_pow_lt (k : Nat) : 10 ^ k < U256 ↔ k ≤ 77 := by
  have h0 := pow77
  have h1 := pow78
  generalize U256 = u at h0 h1
  constructor
  · intro h
    by_contra hk
    have := Nat.pow_le_pow_right (show 0 < 10 by norm_num) (show 78 ≤ k by omega)
    exact absurd (lt_of_lt_of_le h (h1.trans this)) (lt_irrefl _)
  · intro h
    exact lt_of_le_of_lt (Nat.pow_le_pow_right (by norm_num) h) h0

theorem powTen_over {e : Int} (h : 77 < e.natAbs) : powTen e = .error .overflow := by
  have : ¬ (10 : Nat) ^ e.natAbs < U256 := by rw [ten_pow_lt]; omega
  unfold powTen u256CheckedPow
  rw [if_neg this]
  rfl

theorem powTen_minus {k : Nat} (h : k ≤ 77) : 0 < k → powTen (-(k : Int)) = .ok (D / 10 ^ k) := by
  intro h0
  have hk : (-(k : Int)).natAbs = k := by omega
  have h1 : (10 : Nat) ^ k < U256 := (ten_pow_lt k).2 h
  have hlt : 1 * D / 10 ^ k < U256 := by
    refine lt_of_le_of_lt (Nat.div_le_self _ _) ?_
    rw [Nat.one_mul, D, ten_pow_lt]; norm_num
  have hz : (10 : Nat) ^ k ≠ 0 := pow_ne_zero k (by norm_num)
  unfold powTen u256CheckedPow
  rw [hk, if_pos h1]
  rw [Except.ok_bind', if_pos (show -(k : Int) < 0 by omega)]
  unfold checkedFromRatio
  rw [if_neg hz, if_pos hlt, Nat.one_mul]

theorem ten_pow_D (k : Nat) : 10 ^ k * D < U256 ↔ k ≤ 59 := by
  have h := ten_pow_lt (k + 18)
  rw [pow_add] at h
  have e : (10 : Nat) ^ 18 = D := rfl
  rw [e] at h
  generalize 10 ^ k * D = P at *
  rw [h]
  omega

theorem powTen_ratio {e : Int} (h : ¬ e < 0) (h1 : 10 ^ e.natAbs < U256) : powTen e = fromRatio (10 ^ e.natAbs) 1 := by
  unfold powTen u256CheckedPow
  rw [if_pos h1, Except.ok_bind', if_neg h]
  unfold u256CheckedMul
  rw [Nat.one_mul, if_pos h1, Except.ok_bind']
theorem fromRatio_failed {x y : Nat} (h0 : ∀ z, checkedFromRatio x y ≠ .ok z) : fromRatio x y = .error .panic := by
  unfold fromRatio
  cases hc : checkedFromRatio x y with
  | ok z => exact absurd hc (h0 z)
  | error e => rfl

theorem fromRatio_over {P : Nat} (h : ¬ P * D < U256) : fromRatio P 1 = .error .panic :=
  fromRatio_failed fun z hz => by
    obtain ⟨-, h1, -⟩ := checkedFromRatio_eq_ok.1 hz
    exact h (lt_of_eq_of_lt (Nat.div_one (P * D)).symm h1)

theorem powTen_plus {k : Nat} (h : k ≤ 77) : powTen (k : Int) = if k ≤ 59 then .ok (10 ^ k * D) else .error .panic := by
  have hk : ((k : Int)).natAbs = k := Int.natAbs_natCast k
  rw [powTen_ratio (not_lt.2 (Int.natCast_nonneg k)) (by rw [hk]; exact (ten_pow_lt k).2 h), hk]
  by_cases hb : k ≤ 59
  · rw [if_pos hb, fromRatio_one_lt ((ten_pow_D k).2 hb)]
  · rw [if_neg hb, fromRatio_over fun hc => hb ((ten_pow_D k).1 hc)]

theorem floor_ratio {x : ℚ} {m n : Nat} (h : x = (m : ℚ) / (n : ℚ)) : ⌊x⌋₊ = m / n := by rw [h, Nat.floor_div_eq_div]

theorem zpow_minus (k : Nat) : (10 : ℚ) ^ (-(k : Int)) * 10 ^ 18 = ((10 ^ 18 : ℕ) : ℚ) / ((10 ^ k : ℕ) : ℚ) := by
  rw [zpow_neg, zpow_natCast, Nat.cast_pow, Nat.cast_pow, Nat.cast_ofNat, mul_comm, div_eq_mul_inv]

theorem zpow_plus (k : Nat) : (10 : ℚ) ^ (k : Int) * 10 ^ 18 = ((10 ^ k * 10 ^ 18 : ℕ) : ℚ) := by
  rw [zpow_natCast, Nat.cast_mul, Nat.cast_pow, Nat.cast_pow, Nat.cast_ofNat]

/-- C110 (powers of ten): `pow_ten` of an exponent from -77 to 59 is the power of ten, rounded down to 18 decimals; from 60 to 77 it panics, and otherwise it
overflows. -/
theorem C110_pow_ten (e : Int) :
    (-77 ≤ e ∧ e ≤ 59 → powTen e = .ok ⌊(10 : ℚ) ^ e * 10 ^ 18⌋₊) ∧ (60 ≤ e ∧ e ≤ 77 → powTen e = .error .panic) ∧
    (e < -77 ∨ 77 < e → powTen e = .error .overflow) := by
  refine ⟨fun h => ?_, fun h => ?_, fun h => powTen_over (by omega)⟩
  · by_cases hn : e < 0
    · obtain ⟨k, rfl⟩ : ∃ k : Nat, e = -(k : Int) := ⟨e.natAbs, by omega⟩
      rw [powTen_minus (by omega) (by omega), floor_ratio (zpow_minus k), D]
    · obtain ⟨k, rfl⟩ : ∃ k : Nat, e = (k : Int) := ⟨e.natAbs, by omega⟩
      rw [powTen_plus (by omega), if_pos (by omega), zpow_plus, Nat.floor_natCast, D]
  · obtain ⟨k, rfl⟩ : ∃ k : Nat, e = (k : Int) := ⟨e.natAbs, by omega⟩
    rw [powTen_plus (by omega), if_neg (by omega)]

/-- What rounding makes of a value. -/
noncomputable def rounded (r : Rounding) (x : ℚ) : Nat :=
  match r with
  | .down => ⌊x⌋₊
  | .up => ⌈x⌉₊

theorem ceil_ratio {x n : Nat} (hn : 0 < n) : ⌈(x : ℚ) / (n : ℚ)⌉₊ = if x = 0 then 0 else 1 + (x - 1) / n := by
  split
  · next h => rw [h, Nat.cast_zero, zero_div, Nat.ceil_zero]
  · next h =>
    have hne : 1 + (x - 1) / n ≠ 0 := by rw [Nat.add_comm]; exact Nat.succ_ne_zero _
    have hq : (0 : ℚ) < (n : ℚ) := by exact_mod_cast hn
    have h1 := Nat.div_add_mod (x - 1) n
    have h2 := Nat.mod_lt (x - 1) hn
    revert h1 h2 hne
    generalize (x - 1) / n = q
    generalize (x - 1) % n = m
    intro hne h1 h2
    rw [Nat.mul_comm] at h1
    generalize hz : q * n = z at h1
    rw [Nat.ceil_eq_iff hne]
    constructor
    · rw [lt_div_iff₀ hq, show 1 + q - 1 = q by omega]
      have : q * n < x := by omega
      exact_mod_cast this
    · rw [div_le_iff₀ hq]
      have : x ≤ (1 + q) * n := by rw [Nat.add_mul, Nat.one_mul]; omega
      exact_mod_cast this
theorem castD : ((D : ℕ) : ℚ) = 10 ^ 18 := by rw [D, Nat.cast_pow, Nat.cast_ofNat]
theorem D_pos' : 0 < D := by rw [D]; exact pow_pos (by norm_num) _

/-- C110 (rounding): a number with 18 decimals is rounded to the next integer below or above. -/
theorem C110_round (r : Rounding) (x : Nat) : r.round x = rounded r ((x : ℚ) / 10 ^ 18) := by
  rw [← castD]
  cases r with
  | down => exact (floor_ratio rfl).symm
  | up => exact (ceil_ratio (x := x) D_pos').symm

theorem multiply_all {a : Nat} (ha : a < 2 ^ 128) (p : Nat) (r : Rounding) :
    multiplyByPrice a p r = if a * p < U256 then .ok (r.round (a * p)) else .error .overflow := by
  have e : p * (a * D) / D = a * p := by rw [← Nat.mul_assoc, Nat.mul_div_cancel _ D_pos', Nat.mul_comm]
  unfold multiplyByPrice checkedMul
  rw [fromRatio_one ha, Except.ok_bind', e]
  generalize U256 = u
  by_cases h : a * p < u
  · rw [if_pos h, if_pos h]
  · rw [if_neg h, if_neg h]

theorem divide_all {a : Nat} (ha : a < 2 ^ 128) (p : Nat) (r : Rounding) :
    divideByPrice a p r = if p = 0 then .error .overflow else if a * D * D / p < U256 then .ok (r.round (a * D * D / p)) else .error .overflow := by
  unfold divideByPrice checkedDiv checkedFromRatio
  rw [fromRatio_one ha, Except.ok_bind']
  generalize U256 = u
  by_cases h0 : p = 0
  · rw [if_pos h0, if_pos h0]
  · rw [if_neg h0, if_neg h0]
    by_cases h : a * D * D / p < u
    · rw [if_pos h, if_pos h]
    · rw [if_neg h, if_neg h]

/-- C110 (asks): the value of a positive 128-bit amount of base at any price, valid or not (`p` counts units of 10^-18), is the product, rounded as asked for;
if it reaches 2^256 in units of 10^-18 there is an overflow error. -/
theorem C110_ask {a : Nat} (ha : a < 2 ^ 128) (h0 : a ≠ 0) (p : Nat) (r : Rounding) :
    (a * p < 2 ^ 256 → amountToValue .ask a p r = .ok (rounded r (a * (p / 10 ^ 18 : ℚ)))) ∧
    (2 ^ 256 ≤ a * p → amountToValue .ask a p r = .error .overflow) := by
  have e : amountToValue .ask a p r = multiplyByPrice a p r := if_neg h0
  have hU : U256 = 2 ^ 256 := rfl
  rw [e, multiply_all ha, ← hU]
  generalize U256 = u
  refine ⟨fun h => ?_, fun h => if_neg (not_lt.2 h)⟩
  rw [if_pos h, C110_round, Nat.cast_mul, mul_div_assoc]

/-- C110 (bids): the value of a positive 128-bit amount of quote at any price but zero is the quotient, rounded down to 18 decimals and then as
asked for; if it reaches 2^256 in units of 10^-18, or the price is zero, there is an overflow error. -/
theorem C110_bid {a : Nat} (ha : a < 2 ^ 128) (h0 : a ≠ 0) (p : Nat) (r : Rounding) {v : Nat} (hv : v = ⌊(a : ℚ) / (p / 10 ^ 18) * 10 ^ 18⌋₊) :
    (p ≠ 0 → v < 2 ^ 256 → amountToValue .bid a p r = .ok (rounded r (v / 10 ^ 18))) ∧
    (p = 0 ∨ 2 ^ 256 ≤ v → amountToValue .bid a p r = .error .overflow) := by
  have e : amountToValue .bid a p r = divideByPrice a p r := if_neg h0
  have hU : U256 = 2 ^ 256 := rfl
  rw [e, divide_all ha, ← hU]
  generalize U256 = u
  by_cases hp : p = 0
  · rw [if_pos hp]
    exact ⟨fun h => absurd hp h, fun _ => rfl⟩
  · have e2 : v = a * D * D / p := by
      rw [hv]
      refine floor_ratio ?_
      have hq : (p : ℚ) ≠ 0 := by exact_mod_cast hp
      rw [Nat.cast_mul, Nat.cast_mul, castD]
      field_simp
    rw [if_neg hp, ← e2]
    refine ⟨fun _ h => ?_, fun h => ?_⟩
    · rw [if_pos h, C110_round]
    · rcases h with h | h
      · exact absurd h hp
      · exact if_neg (not_lt.2 h)

/-- C110 (nothing): nothing is worth nothing, at any price. -/
theorem C110_zero (dir : Dir) (p : Nat) (r : Rounding) : amountToValue dir 0 p r = .ok 0 := by
  unfold amountToValue
  rw [if_pos rfl]

/-- All branches occur. -/
example : powTen 59 = .ok (10 ^ 77) ∧ powTen 60 = .error .panic ∧ powTen 78 = .error .overflow ∧ powTen (-19) = .ok 0 ∧ powTen (-78) = .error .overflow ∧
    powTen (-18) = .ok 1 := by decide +kernel

example : amountToValue .bid 5 0 .up = .error .overflow ∧ amountToValue .ask (2 ^ 127) (2 ^ 129) .down = .error .overflow ∧
    amountToValue .bid (2 ^ 127) 1 .down = .ok (2 ^ 127 * 10 ^ 18) ∧ amountToValue .ask 3 (5 * 10 ^ 17) .up = .ok 2 ∧
    amountToValue .bid 1 (3 * 10 ^ 36) .up = .ok 0 := by decide +kernel

end OB
