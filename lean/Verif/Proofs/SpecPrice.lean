import Verif.SpecPrice
import Mathlib.Algebra.Order.Floor.Semifield
import Verif.Proofs.Market
/- The code's fixed-point prices and values are those of the specification. -/
namespace OB

theorem validTick_iff {t : Int} : Spec.ValidTick t ↔ MIN_TICK ≤ t ∧ t ≤ MAX_TICK := by
  unfold Spec.ValidTick MIN_TICK MAX_TICK; exact Iff.rfl

theorem D_cast : ((D : ℕ) : ℚ) = 10 ^ 18 := by unfold D; norm_num

theorem priceNat_spec {t : Int} (h0 : MIN_TICK ≤ t) (h1 : t ≤ MAX_TICK) : ((priceNat t : ℕ) : ℚ) = Spec.price t * 10 ^ 18 := by
  by_cases h : 0 ≤ t
  · unfold priceNat Spec.price
    simp only [if_pos h]
    push_cast
    rw [pow_add]
    ring
  · have h2 := ten_mul_priceNat_neg (by omega) h0
    have hk : t.natAbs / 9000000 ≤ 12 := by unfold MIN_TICK at h0; omega
    have hn : t.natAbs % 9000000 < 9000000 := Nat.mod_lt _ (by norm_num)
    have h3 : (10 : ℚ) * (priceNat t : ℕ) = 10 ^ (12 - t.natAbs / 9000000) * (10 ^ 7 - (t.natAbs % 9000000 : ℕ)) := by
      have := congrArg (Nat.cast (R := ℚ)) h2
      rw [Nat.cast_mul, Nat.cast_mul, Nat.cast_sub (by omega)] at this
      push_cast at this
      exact_mod_cast this
    have h4 : (10 : ℚ) ^ (12 - t.natAbs / 9000000) * 10 ^ (t.natAbs / 9000000) = 10 ^ 12 := by
      rw [← pow_add]; congr 1; omega
    unfold Spec.price
    simp only [if_neg h]
    generalize t.natAbs / 9000000 = k at *
    generalize t.natAbs % 9000000 = n at *
    have hp : (10 : ℚ) ^ k ≠ 0 := by positivity
    have h5 : (10 : ℚ) ^ (12 - k) = 10 ^ 12 / 10 ^ k := by rw [eq_div_iff hp]; exact h4
    rw [h5] at h3
    have : ((priceNat t : ℕ) : ℚ) = 10 ^ 12 / 10 ^ k * (10 ^ 7 - n) / 10 := by rw [← h3]; ring
    rw [this]
    field_simp

theorem spec_price_pos {t : Int} (h0 : MIN_TICK ≤ t) (h1 : t ≤ MAX_TICK) : 0 < Spec.price t := by
  have h2 := priceNat_spec h0 h1
  have h3 : (0 : ℚ) < (priceNat t : ℕ) := by exact_mod_cast priceNat_pos h0 h1
  rw [h2] at h3
  by_contra hc
  have : Spec.price t * 10 ^ 18 ≤ 0 := mul_nonpos_of_nonpos_of_nonneg (not_lt.1 hc) (by positivity)
  linarith

/-- The exact value, with numerator and denominator as the code has them. -/
theorem value_eq {dir : Dir} {a : Nat} {t : Int} (h0 : MIN_TICK ≤ t) (h1 : t ≤ MAX_TICK) :
    Spec.value dir a t = match dir with
      | .ask => ((a * priceNat t : ℕ) : ℚ) / ((D : ℕ) : ℚ)
      | .bid => ((a * D : ℕ) : ℚ) / ((priceNat t : ℕ) : ℚ) := by
  have h2 := priceNat_spec h0 h1
  have h3 := spec_price_pos h0 h1
  unfold Spec.value
  cases dir
  · simp only
    rw [Nat.cast_mul, h2, D_cast]
    field_simp
  · simp only
    rw [Nat.cast_mul, h2, D_cast]
    field_simp

theorem valDown_spec {dir : Dir} {a : Nat} {t : Int} (h0 : MIN_TICK ≤ t) (h1 : t ≤ MAX_TICK) :
    valDown dir a (priceNat t) = ⌊Spec.value dir a t⌋₊ := by
  rw [value_eq h0 h1]
  cases dir
  · simp only [valDown]; rw [Nat.floor_div_eq_div]
  · simp only [valDown]; rw [Nat.floor_div_eq_div]

theorem ceil_mul' (x D : Nat) (hD : 0 < D) : x ≤ (x + (D - 1)) / D * D := by
  have h1 := Nat.div_add_mod (x + (D - 1)) D
  have h2 := Nat.mod_lt (x + (D - 1)) hD
  have h3 := Nat.mul_comm D ((x + (D - 1)) / D)
  omega

theorem ceil_div_cast (x y : Nat) (hy : 0 < y) : ⌈(x : ℚ) / (y : ℚ)⌉₊ = (x + (y - 1)) / y := by
  have hy' : (0 : ℚ) < y := by exact_mod_cast hy
  apply le_antisymm
  · rw [Nat.ceil_le, div_le_iff₀ hy']
    have := ceil_mul' x y hy
    exact_mod_cast this
  · rw [← Nat.lt_add_one_iff, Nat.div_lt_iff_lt_mul hy]
    have h1 := Nat.le_ceil ((x : ℚ) / y)
    rw [div_le_iff₀ hy'] at h1
    have h2 : x ≤ ⌈(x : ℚ) / y⌉₊ * y := by exact_mod_cast h1
    rw [Nat.add_mul]
    omega

theorem valUp_ask_spec {a : Nat} {t : Int} (h0 : MIN_TICK ≤ t) (h1 : t ≤ MAX_TICK) :
    valUp .ask a (priceNat t) = ⌈Spec.value .ask a t⌉₊ := by
  rw [value_eq h0 h1]
  simp only [valUp]
  rw [ceil_div_cast _ _ D_pos]

/-- The doubly rounded division is the exact ceiling up to price 10^18. -/
theorem valUp_bid_nat {a : Nat} {t : Int} (h0 : MIN_TICK ≤ t) (h1 : t ≤ MAX_TICK) (hp : priceNat t ≤ D * D) :
    valUp .bid a (priceNat t) = (a * D + (priceNat t - 1)) / priceNat t := by
  have hD := D_pos
  have hpos := priceNat_pos h0 h1
  have hg : ∃ g, 0 < g ∧ g ∣ priceNat t ∧ g ∣ D ∧ priceNat t ≤ g * D := by
    rcases price_grain h0 h1 with h | h
    · exact ⟨D, hD, h, dvd_refl _, hp⟩
    · exact h
  obtain ⟨g, g0, g1, g2, g3⟩ := hg
  unfold valUp
  simp only
  generalize priceNat t = p at *
  generalize D = D at *
  -- v = ⌈⌊aD²/p⌋/D⌉
  set y := a * (D * D) / p with hy
  have e1 := Nat.div_mul_le_self (a * (D * D)) p
  have e2 := Nat.lt_mul_div_succ (a * (D * D)) hpos
  rw [← hy] at e1 e2
  clear_value y
  apply le_antisymm
  · rw [Nat.le_div_iff_mul_le hpos]
    -- v minimal with v·D ≥ y
    have h2 : (y + (D - 1)) / D * D ≤ y + (D - 1) := Nat.div_mul_le_self _ _
    set v := (y + (D - 1)) / D
    clear_value v
    by_cases hv : v = 0
    · rw [hv]; omega
    have h3 : (v - 1) * D < y := by
      have : (v - 1) * D + D = v * D := by rw [← Nat.succ_mul]; congr 1; omega
      omega
    have h4 : (v - 1) * D * p < a * D * D := by
      calc (v - 1) * D * p < y * p := Nat.mul_lt_mul_of_pos_right h3 hpos
        _ ≤ a * (D * D) := e1
        _ = a * D * D := by ring
    have h5 : (v - 1) * p < a * D := by
      have : (v - 1) * p * D < a * D * D := by rw [Nat.mul_right_comm]; exact h4
      exact lt_of_mul_lt_mul_right this (Nat.zero_le _)
    have h6 : v * p = (v - 1) * p + p := by rw [← Nat.succ_mul]; congr 1; omega
    omega
  · rw [← Nat.lt_add_one_iff, Nat.div_lt_iff_lt_mul hpos]
    have h2 := ceil_mul' y D hD
    set v := (y + (D - 1)) / D
    clear_value v
    -- a·D ≤ v·p, using the grain
    have h3 : a * D ≤ v * p := by
      by_contra hc
      obtain ⟨j, hj⟩ := g1
      obtain ⟨i, hi⟩ := g2
      have h4 : v * p + g ≤ a * D := by
        have q1 : v * p = g * (v * j) := by rw [hj]; ring
        have q2 : a * D = g * (a * i) := by rw [hi]; ring
        have q3 : v * j < a * i := by
          have : g * (v * j) < g * (a * i) := by rw [← q1, ← q2]; omega
          exact lt_of_mul_lt_mul_left this (Nat.zero_le _)
        have q4 : g * (v * j) + g ≤ g * (a * i) := by
          calc g * (v * j) + g = g * (v * j + 1) := by ring
            _ ≤ g * (a * i) := Nat.mul_le_mul_left _ q3
        omega
      have h5 : (v * p + g) * D ≤ a * D * D := Nat.mul_le_mul_right _ h4
      have h6 : p * (y + 1) ≤ p * (v * D + 1) := Nat.mul_le_mul_left _ (by omega)
      have h7 : (v * p + g) * D = p * (v * D) + g * D := by ring
      have h8 : p * (v * D + 1) = p * (v * D) + p := by ring
      have h9 : a * D * D = a * (D * D) := by ring
      omega
    rw [Nat.add_mul]
    omega

theorem valUp_bid_spec {a : Nat} {t : Int} (h0 : MIN_TICK ≤ t) (h1 : t ≤ MAX_TICK) (hp : Spec.price t ≤ 10 ^ 18) :
    valUp .bid a (priceNat t) = ⌈Spec.value .bid a t⌉₊ := by
  have h2 := priceNat_spec h0 h1
  have h3 : priceNat t ≤ D * D := by
    have : ((priceNat t : ℕ) : ℚ) ≤ ((D * D : ℕ) : ℚ) := by
      rw [Nat.cast_mul, D_cast, h2]
      exact mul_le_mul_of_nonneg_right hp (by positivity)
    exact_mod_cast this
  rw [valUp_bid_nat h0 h1 h3, value_eq h0 h1, ceil_div_cast _ _ (priceNat_pos h0 h1)]

/-- In general it is at most 10^-18 below the exact value and never above the ceiling. -/
theorem valUp_bid_bounds {a : Nat} {t : Int} (h0 : MIN_TICK ≤ t) (h1 : t ≤ MAX_TICK) :
    valUp .bid a (priceNat t) ≤ ⌈Spec.value .bid a t⌉₊ ∧
    Spec.value .bid a t < (valUp .bid a (priceNat t) : ℕ) + 1 / 10 ^ 18 := by
  have hD := D_pos
  have hpos := priceNat_pos h0 h1
  have hposq : (0 : ℚ) < (priceNat t : ℕ) := by exact_mod_cast hpos
  rw [value_eq h0 h1]
  simp only
  rw [ceil_div_cast _ _ hpos]
  have hDc := D_cast
  unfold valUp
  simp only
  generalize priceNat t = p at *
  set y := a * (D * D) / p with hy
  have e1 := Nat.div_mul_le_self (a * (D * D)) p
  have e2 := Nat.lt_mul_div_succ (a * (D * D)) hpos
  rw [← hy] at e1 e2
  clear_value y
  have hDq : (0 : ℚ) < ((D : ℕ) : ℚ) := by exact_mod_cast hD
  generalize D = D at *
  constructor
  · rw [Nat.le_div_iff_mul_le hpos]
    have h2 : (y + (D - 1)) / D * D ≤ y + (D - 1) := Nat.div_mul_le_self _ _
    set v := (y + (D - 1)) / D
    clear_value v
    by_cases hv : v = 0
    · rw [hv]; omega
    have h3 : (v - 1) * D < y := by
      have : (v - 1) * D + D = v * D := by rw [← Nat.succ_mul]; congr 1; omega
      omega
    have h4 : (v - 1) * D * p < a * D * D := by
      calc (v - 1) * D * p < y * p := Nat.mul_lt_mul_of_pos_right h3 hpos
        _ ≤ a * (D * D) := e1
        _ = a * D * D := by ring
    have h5 : (v - 1) * p < a * D := by
      have : (v - 1) * p * D < a * D * D := by rw [Nat.mul_right_comm]; exact h4
      exact lt_of_mul_lt_mul_right this (Nat.zero_le _)
    have h6 : v * p = (v - 1) * p + p := by rw [← Nat.succ_mul]; congr 1; omega
    omega
  · have h2 := ceil_mul' y D hD
    set v := (y + (D - 1)) / D
    clear_value v
    rw [← hDc, div_lt_iff₀ hposq]
    have h3 : a * D * D < (v * D + 1) * p := by
      have h6 : p * (y + 1) ≤ p * (v * D + 1) := Nat.mul_le_mul_left _ (by omega)
      calc a * D * D = a * (D * D) := by ring
        _ < p * (y + 1) := e2
        _ ≤ p * (v * D + 1) := h6
        _ = _ := by ring
    have h4 : ((a * D : ℕ) : ℚ) * (D : ℕ) < ((v : ℕ) * (D : ℕ) + 1) * (p : ℕ) := by exact_mod_cast h3
    have h5 : ((v : ℕ) + 1 / ((D : ℕ) : ℚ)) * (p : ℕ) = (((v : ℕ) : ℚ) * (D : ℕ) + 1) * (p : ℕ) / (D : ℕ) := by
      field_simp
    rw [h5, lt_div_iff₀ hDq]
    exact h4

theorem spec_price_strictMono {a b : Int} (ha : MIN_TICK ≤ a) (hb : b ≤ MAX_TICK) (hab : a < b) : Spec.price a < Spec.price b := by
  have h1 := priceNat_spec ha (by omega)
  have h2 := priceNat_spec (t := b) (by omega) hb
  have h3 : ((priceNat a : ℕ) : ℚ) < (priceNat b : ℕ) := by exact_mod_cast priceNat_strictMono ha hab
  rw [h1, h2] at h3
  exact lt_of_mul_lt_mul_right h3 (by positivity)

end OB
