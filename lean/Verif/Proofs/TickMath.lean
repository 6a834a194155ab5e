import Verif.Proofs.Basic
/- Closed form of `tick_to_price`. -/
namespace OB

/-- Price atomics of a valid non-negative tick. -/
def posPrice (k n : Nat) : Nat := 10 ^ (12 + k) * (10 ^ 6 + n)

theorem powTen_nonneg {e : Int} (h0 : 0 ≤ e) (h1 : e ≤ 20) : powTen e = .ok (10 ^ (18 + e.toNat)) := by
  interval_cases e <;> rfl

theorem powTen_neg {e : Int} (h0 : -18 ≤ e) (h1 : e < 0) : powTen e = .ok (10 ^ (18 - e.natAbs)) := by
  interval_cases e <;> rfl

theorem powTen_m19 : powTen (-19) = .ok 0 := by rfl

/-- Price atomics as a natural number, computed from the tick (valid ticks only). -/
def priceNat (t : Int) : Nat :=
  if 0 ≤ t then 10 ^ (12 + t.natAbs / 9000000) * (10 ^ 6 + t.natAbs % 9000000)
  else 10 ^ (12 - t.natAbs / 9000000) * (10 ^ 7 - t.natAbs % 9000000) / 10

theorem tdiv_nonneg_eq {t : Int} (h : 0 ≤ t) : Int.tdiv t 9000000 = ((t.natAbs / 9000000 : Nat) : Int) := by
  obtain ⟨n, rfl⟩ := Int.eq_ofNat_of_zero_le h
  simp [Int.tdiv]

theorem tdiv_neg_eq {t : Int} (h : t < 0) : Int.tdiv t 9000000 = -((t.natAbs / 9000000 : Nat) : Int) := by
  obtain ⟨n, rfl⟩ : ∃ n : Nat, t = -(n : Int) := ⟨t.natAbs, by omega⟩
  rw [Int.neg_tdiv]
  simp [Int.tdiv]

theorem tickToPrice_pos {t : Int} (h0 : 0 ≤ t) (h1 : t ≤ MAX_TICK) : tickToPrice t = .ok (priceNat t) := by
  by_cases ht : t = 0
  · subst ht; decide +kernel
  have hmin : MIN_TICK ≤ t := by unfold MIN_TICK; omega
  have hk : t.natAbs / 9000000 ≤ 20 := by unfold MAX_TICK at h1; omega
  have hn : t.natAbs % 9000000 < 9000000 := Nat.mod_lt _ (by norm_num)
  have hdm := Nat.div_add_mod t.natAbs 9000000
  unfold tickToPrice
  rw [if_neg ht, if_neg (by simp [hmin, h1])]
  simp only [GEOMETRIC_EXPONENT_INCREMENT_DISTANCE_IN_TICKS, EXPONENT_AT_PRICE_ONE, tdiv_nonneg_eq h0,
    if_neg (not_lt.mpr h0)]
  unfold priceNat
  rw [if_pos h0]
  generalize hK : t.natAbs / 9000000 = k at *
  generalize hN : t.natAbs % 9000000 = n at *
  have hnum : t - (k : Int) * 9000000 = (n : Int) := by omega
  rw [hnum]
  have hg : powTen (k : Int) = .ok (10 ^ (18 + k)) := by
    have := powTen_nonneg (e := (k : Int)) (by omega) (by omega)
    simpa using this
  have hi : powTen (-6 + (k : Int)) = .ok (10 ^ (12 + k)) := by
    by_cases hk6 : 6 ≤ k
    · have := powTen_nonneg (e := -6 + (k : Int)) (by omega) (by omega)
      rw [this]; congr 2; omega
    · have := powTen_neg (e := -6 + (k : Int)) (by omega) (by omega)
      rw [this]; congr 2; omega
  rw [hi, hg]
  have hn128 : n < U128 := by unfold U128; omega
  simp only [Except.ok_bind', Int.natAbs_natCast, fromRatio_one hn128]
  have hmulD : n * D * 10 ^ (12 + k) / D = n * 10 ^ (12 + k) := by
    rw [Nat.mul_right_comm, Nat.mul_div_cancel _ D_pos]
  have hp : 10 ^ (12 + k) ≤ 10 ^ 32 := Nat.pow_le_pow_right (by norm_num) (by omega)
  have hsum : 10 ^ (18 + k) + n * 10 ^ (12 + k) = 10 ^ (12 + k) * (10 ^ 6 + n) := by ring
  have hlt : 10 ^ (12 + k) * (10 ^ 6 + n) < U256 := by
    calc 10 ^ (12 + k) * (10 ^ 6 + n) ≤ 10 ^ 32 * (10 ^ 6 + 9000000) := Nat.mul_le_mul hp (by omega)
      _ < U256 := by norm_num [U256]
  rw [show checkedMul (n * D) (10 ^ (12 + k)) = .ok (n * 10 ^ (12 + k)) from by
    rw [checkedMul_eq_ok, hmulD]; exact ⟨lt_of_le_of_lt (Nat.le_add_left _ _) (hsum ▸ hlt), rfl⟩]
  simp only [Except.ok_bind', if_neg (show ¬ ((n : Int) < 0) by omega)]
  rw [checkedAdd_ok (by rw [hsum]; exact hlt), hsum]

theorem tickToPrice_neg {t : Int} (h0 : t < 0) (h1 : MIN_TICK ≤ t) : tickToPrice t = .ok (priceNat t) := by
  have hmax : t ≤ MAX_TICK := by unfold MAX_TICK; omega
  have hk : t.natAbs / 9000000 ≤ 12 := by unfold MIN_TICK at h1; omega
  have hn : t.natAbs % 9000000 < 9000000 := Nat.mod_lt _ (by norm_num)
  have hkn : t.natAbs / 9000000 = 12 → t.natAbs % 9000000 = 0 := by unfold MIN_TICK at h1; omega
  have hdm := Nat.div_add_mod t.natAbs 9000000
  unfold tickToPrice
  rw [if_neg (by omega), if_neg (by simp [hmax, h1])]
  simp only [GEOMETRIC_EXPONENT_INCREMENT_DISTANCE_IN_TICKS, EXPONENT_AT_PRICE_ONE, tdiv_neg_eq h0, if_pos h0]
  unfold priceNat
  rw [if_neg (by omega)]
  generalize hK : t.natAbs / 9000000 = k at *
  generalize hN : t.natAbs % 9000000 = n at *
  have hnum : t - -(k : Int) * 9000000 = -(n : Int) := by omega
  rw [hnum]
  have hg : powTen (-(k : Int)) = .ok (10 ^ (18 - k)) := by
    by_cases hk0 : k = 0
    · subst hk0; rfl
    · have := powTen_neg (e := -(k : Int)) (by omega) (by omega)
      rw [this]; simp
  have hn128 : n < U128 := by unfold U128; omega
  by_cases hk12 : k = 12
  · have hn0 := hkn hk12
    subst hk12; subst hn0
    decide +kernel
  have hi : powTen (-6 + -(k : Int) - 1) = .ok (10 ^ (11 - k)) := by
    have := powTen_neg (e := -6 + -(k : Int) - 1) (by omega) (by omega)
    rw [this]; congr 2; omega
  rw [hi, hg]
  simp only [Except.ok_bind', Int.natAbs_neg, Int.natAbs_natCast, fromRatio_one hn128]
  have hmulD : n * D * 10 ^ (11 - k) / D = n * 10 ^ (11 - k) := by
    rw [Nat.mul_right_comm, Nat.mul_div_cancel _ D_pos]
  have hp : 10 ^ (11 - k) ≤ 10 ^ 11 := Nat.pow_le_pow_right (by norm_num) (by omega)
  have hlt : n * 10 ^ (11 - k) ≤ 9000000 * 10 ^ 11 := Nat.mul_le_mul (by omega) hp
  rw [show checkedMul (n * D) (10 ^ (11 - k)) = .ok (n * 10 ^ (11 - k)) from by
    rw [checkedMul_eq_ok, hmulD]; exact ⟨by norm_num [U256]; omega, rfl⟩]
  simp only [Except.ok_bind']
  have h18 : 10 ^ (18 - k) = 10 ^ (11 - k) * 10 ^ 7 := by rw [← pow_add]; congr 1; omega
  have h12 : 10 ^ (12 - k) = 10 * 10 ^ (11 - k) := by rw [← pow_succ']; congr 1; omega
  have hres : 10 ^ (12 - k) * (10 ^ 7 - n) / 10 = 10 ^ (11 - k) * (10 ^ 7 - n) := by
    rw [h12, Nat.mul_assoc, Nat.mul_div_cancel_left _ (by norm_num)]
  rw [hres]
  by_cases hn0 : n = 0
  · subst hn0
    rw [if_neg (by simp), h18]
    rw [checkedAdd_ok (by norm_num [U256]; omega)]
    simp
  · rw [if_pos (by omega), checkedSub_ok (by rw [h18, Nat.mul_comm]; exact Nat.mul_le_mul_left _ (by omega)), h18,
      Nat.mul_sub, Nat.mul_comm n]

theorem tickToPrice_ok {t : Int} (h0 : MIN_TICK ≤ t) (h1 : t ≤ MAX_TICK) : tickToPrice t = .ok (priceNat t) := by
  by_cases h : 0 ≤ t
  · exact tickToPrice_pos h h1
  · exact tickToPrice_neg (by omega) h0

theorem tickToPrice_out {t : Int} (h : ¬ (MIN_TICK ≤ t ∧ t ≤ MAX_TICK)) :
    tickToPrice t = .error (.tickOutOfBounds t) := by
  unfold tickToPrice
  rw [if_neg, if_pos]
  · simpa using h
  · rintro rfl; exact h (by decide)

theorem tickToPrice_eq_ok {t : Int} {p : Nat} :
    tickToPrice t = .ok p ↔ (MIN_TICK ≤ t ∧ t ≤ MAX_TICK) ∧ p = priceNat t := by
  by_cases h : MIN_TICK ≤ t ∧ t ≤ MAX_TICK
  · rw [tickToPrice_ok h.1 h.2]; simp [h, eq_comm]
  · rw [tickToPrice_out h]; simp [h]

/-- Ten times the price atomics of a negative tick. -/
theorem ten_mul_priceNat_neg {t : Int} (h0 : t < 0) (h1 : MIN_TICK ≤ t) :
    10 * priceNat t = 10 ^ (12 - t.natAbs / 9000000) * (10 ^ 7 - t.natAbs % 9000000) := by
  have hk : t.natAbs / 9000000 ≤ 12 := by unfold MIN_TICK at h1; omega
  have hkn : t.natAbs / 9000000 = 12 → t.natAbs % 9000000 = 0 := by unfold MIN_TICK at h1; omega
  unfold priceNat
  rw [if_neg (by omega)]
  generalize t.natAbs / 9000000 = k at *
  generalize t.natAbs % 9000000 = n at *
  by_cases hk12 : k = 12
  · have hn0 := hkn hk12
    subst hk12; subst hn0; norm_num
  · have h12 : 10 ^ (12 - k) = 10 * 10 ^ (11 - k) := by rw [← pow_succ']; congr 1; omega
    rw [h12, Nat.mul_assoc, Nat.mul_div_cancel_left _ (by norm_num)]

theorem priceNat_pos_range {t : Int} (h : 0 ≤ t) :
    10 ^ (18 + t.natAbs / 9000000) ≤ priceNat t ∧ priceNat t < 10 ^ (19 + t.natAbs / 9000000) := by
  unfold priceNat
  rw [if_pos h]
  have hn : t.natAbs % 9000000 < 9000000 := Nat.mod_lt _ (by norm_num)
  have e1 : 10 ^ (18 + t.natAbs / 9000000) = 10 ^ (12 + t.natAbs / 9000000) * 10 ^ 6 := by ring
  have e2 : 10 ^ (19 + t.natAbs / 9000000) = 10 ^ (12 + t.natAbs / 9000000) * 10 ^ 7 := by ring
  rw [e1, e2]
  exact ⟨Nat.mul_le_mul_left _ (by omega), Nat.mul_lt_mul_of_pos_left (by omega) (by positivity)⟩

theorem priceNat_neg_range {t : Int} (h0 : t < 0) (h1 : MIN_TICK ≤ t) :
    10 ^ (18 - t.natAbs / 9000000) < 10 * priceNat t ∧ 10 * priceNat t ≤ 10 ^ (19 - t.natAbs / 9000000) := by
  rw [ten_mul_priceNat_neg h0 h1]
  have hk : t.natAbs / 9000000 ≤ 12 := by unfold MIN_TICK at h1; omega
  have hn : t.natAbs % 9000000 < 9000000 := Nat.mod_lt _ (by norm_num)
  have e1 : 10 ^ (18 - t.natAbs / 9000000) = 10 ^ (12 - t.natAbs / 9000000) * 10 ^ 6 := by
    rw [← pow_add]; congr 1; omega
  have e2 : 10 ^ (19 - t.natAbs / 9000000) = 10 ^ (12 - t.natAbs / 9000000) * 10 ^ 7 := by
    rw [← pow_add]; congr 1; omega
  rw [e1, e2]
  exact ⟨Nat.mul_lt_mul_of_pos_left (by omega) (by positivity), Nat.mul_le_mul_left _ (by omega)⟩

theorem priceNat_strictMono {a b : Int} (ha : MIN_TICK ≤ a) (hab : a < b) : priceNat a < priceNat b := by
  by_cases h0 : 0 ≤ a
  · by_cases hk : a.natAbs / 9000000 = b.natAbs / 9000000
    · unfold priceNat
      rw [if_pos h0, if_pos (by omega), hk]
      refine Nat.mul_lt_mul_of_pos_left ?_ (by positivity)
      omega
    · have h1 := (priceNat_pos_range h0).2
      have h2 := (priceNat_pos_range (t := b) (by omega)).1
      have : 10 ^ (19 + a.natAbs / 9000000) ≤ 10 ^ (18 + b.natAbs / 9000000) :=
        Nat.pow_le_pow_right (by norm_num) (by omega)
      omega
  · have hA := priceNat_neg_range (t := a) (by omega) ha
    by_cases hb : 0 ≤ b
    · have h2 := (priceNat_pos_range hb).1
      have h3 : 10 ^ (18 : Nat) ≤ 10 ^ (18 + b.natAbs / 9000000) := Nat.pow_le_pow_right (by norm_num) (by omega)
      -- a < 0 ≤ b : price a < 10^18 ≤ price b
      have : 10 * priceNat a < 10 * 10 ^ 18 := by
        rw [ten_mul_priceNat_neg (by omega) ha]
        by_cases hk : a.natAbs / 9000000 = 0
        · rw [hk]; norm_num; omega
        · have : 10 ^ (12 - a.natAbs / 9000000) ≤ 10 ^ 11 := Nat.pow_le_pow_right (by norm_num) (by omega)
          calc _ ≤ 10 ^ 11 * 10 ^ 7 := Nat.mul_le_mul this (by omega)
            _ < _ := by norm_num
      omega
    · have hB := priceNat_neg_range (t := b) (by omega) (by omega)
      by_cases hk : a.natAbs / 9000000 = b.natAbs / 9000000
      · have e1 := ten_mul_priceNat_neg (t := a) (by omega) ha
        have e2 := ten_mul_priceNat_neg (t := b) (by omega) (by omega)
        have hn : a.natAbs % 9000000 < 9000000 := Nat.mod_lt _ (by norm_num)
        have : 10 * priceNat a < 10 * priceNat b := by
          rw [e1, e2, hk]
          refine Nat.mul_lt_mul_of_pos_left ?_ (by positivity)
          omega
        omega
      · have : 10 ^ (19 - a.natAbs / 9000000) ≤ 10 ^ (18 - b.natAbs / 9000000) :=
          Nat.pow_le_pow_right (by norm_num) (by unfold MIN_TICK at ha; omega)
        omega

theorem priceNat_bounds {t : Int} (h0 : MIN_TICK ≤ t) (h1 : t ≤ MAX_TICK) :
    10 ^ 6 ≤ priceNat t ∧ priceNat t ≤ 340282300000000000000 * 10 ^ 18 := by
  constructor
  · rcases eq_or_lt_of_le h0 with h | h
    · rw [← h]; decide +kernel
    · exact le_of_lt (lt_of_eq_of_lt (by decide +kernel : 10 ^ 6 = priceNat MIN_TICK)
        (priceNat_strictMono (le_refl _) h))
  · rcases eq_or_lt_of_le h1 with h | h
    · rw [h]; decide +kernel
    · exact le_of_lt (lt_of_lt_of_eq (priceNat_strictMono h0 h) (by decide +kernel))

theorem priceNat_pos {t : Int} (h0 : MIN_TICK ≤ t) (h1 : t ≤ MAX_TICK) : 0 < priceNat t := by
  have := (priceNat_bounds h0 h1).1; omega

end OB
