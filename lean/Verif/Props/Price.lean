import Verif.Proofs.SpecPrice
/- C01-C04, C17: tick prices and price conversion. -/
namespace OB

/-- C01: `tick_to_price` succeeds exactly for the valid ticks; its result, a `Decimal256` with 18 decimals, is exactly the
specified price (no truncation); it lies between 10^-12 and 340282300000000000000. -/
theorem C01_tick_price (t : Int) :
    (Spec.ValidTick t → ∃ p, tickToPrice t = .ok p ∧ (p : ℚ) / 10 ^ 18 = Spec.price t ∧
      1 / 10 ^ 12 ≤ Spec.price t ∧ Spec.price t ≤ 340282300000000000000) ∧
    (¬ Spec.ValidTick t → tickToPrice t = .error (.tickOutOfBounds t)) := by
  constructor
  · intro h
    obtain ⟨h0, h1⟩ := validTick_iff.1 h
    have h2 := priceNat_spec h0 h1
    obtain ⟨b1, b2⟩ := priceNat_bounds h0 h1
    have b1' : ((10 ^ 6 : ℕ) : ℚ) ≤ (priceNat t : ℕ) := by exact_mod_cast b1
    have b2' : ((priceNat t : ℕ) : ℚ) ≤ ((340282300000000000000 * 10 ^ 18 : ℕ) : ℚ) := by exact_mod_cast b2
    rw [h2] at b1' b2'
    refine ⟨_, tickToPrice_ok h0 h1, ?_, ?_, ?_⟩
    · rw [h2]; field_simp
    · push_cast at b1'; linarith
    · push_cast at b2'; linarith
  · intro h
    exact tickToPrice_out (fun hc => h (validTick_iff.2 hc))

/-- Non-vacuity: a tick with a fractional price, and one out of range. -/
example : Spec.ValidTick (-17765433) ∧ Spec.price (-17765433) = 0.01234567 ∧ ¬ Spec.ValidTick 182402824 := by
  unfold Spec.ValidTick Spec.price
  norm_num

/-- C02: the order of ticks is the order of prices, in the specification and in the code. -/
theorem C02_price_monotone (a b : Int) (ha : Spec.ValidTick a) (hb : Spec.ValidTick b) (hab : a < b) :
    Spec.price a < Spec.price b ∧ ∃ p q, tickToPrice a = .ok p ∧ tickToPrice b = .ok q ∧ p < q := by
  obtain ⟨a0, a1⟩ := validTick_iff.1 ha
  obtain ⟨b0, b1⟩ := validTick_iff.1 hb
  exact ⟨spec_price_strictMono a0 b1 hab, _, _, tickToPrice_ok a0 a1, tickToPrice_ok b0 b1, priceNat_strictMono a0 hab⟩

/-- Non-vacuity: neighbours across a power-of-ten boundary. -/
example : Spec.ValidTick 8999999 ∧ Spec.ValidTick 9000000 ∧ (8999999 : Int) < 9000000 ∧
    Spec.price 8999999 = 9.999999 ∧ Spec.price 9000000 = 10 := by
  unfold Spec.ValidTick Spec.price
  norm_num

/-- C03: rounding down gives the floor of the exact value in both directions, rounding up the ceiling; for the division
(bids) above price 10^18 the result may be one below the ceiling, but never 10^-18 or more below the exact value. -/
theorem C03_conversion_exact (t : Int) (ht : Spec.ValidTick t) (a : Nat) (ha : a < 2 ^ 128) :
    ∃ p, tickToPrice t = .ok p ∧
      (∀ dir, amountToValue dir a p .down = .ok ⌊Spec.value dir a t⌋₊) ∧
      amountToValue .ask a p .up = .ok ⌈Spec.value .ask a t⌉₊ ∧
      (Spec.price t ≤ 10 ^ 18 → amountToValue .bid a p .up = .ok ⌈Spec.value .bid a t⌉₊) ∧
      ∃ v, amountToValue .bid a p .up = .ok v ∧ v ≤ ⌈Spec.value .bid a t⌉₊ ∧ ⌈Spec.value .bid a t⌉₊ ≤ v + 1 ∧
        Spec.value .bid a t < v + 1 / 10 ^ 18 := by
  obtain ⟨h0, h1⟩ := validTick_iff.1 ht
  have ha' : a < U128 := ha
  have hv := fun dir r => amountToValue_spec (dir := dir) h0 h1 ha' r
  have hb := valUp_bid_bounds (a := a) h0 h1
  refine ⟨_, tickToPrice_ok h0 h1, fun dir => ?_, ?_, fun hp => ?_, _, hv .bid .up, hb.1, ?_, hb.2⟩
  · rw [hv, valR, valDown_spec h0 h1]
  · rw [hv, valR, valUp_ask_spec h0 h1]
  · rw [hv, valR, valUp_bid_spec h0 h1 hp]
  · rw [Nat.ceil_le]
    have := hb.2
    simp only [valR] at *
    push_cast
    have h3 : (1 : ℚ) / 10 ^ 18 ≤ 1 := by norm_num
    linarith

/-- Non-vacuity, and the finding: at price 3.4e20 the division rounded up is one below the ceiling. -/
example : Spec.ValidTick 182402823 ∧ (100 : Nat) < 2 ^ 128 ∧
    amountToValue .bid 100 (340282300000000000000 * 10 ^ 18) .up = .ok 0 ∧ ⌈Spec.value .bid 100 182402823⌉₊ = 1 := by
  refine ⟨by unfold Spec.ValidTick; norm_num, by norm_num, by decide +kernel, ?_⟩
  rw [Nat.ceil_eq_iff (by norm_num)]
  unfold Spec.value Spec.price
  norm_num

/-- C04: conversion of any `Uint128` amount at any valid tick never fails. -/
theorem C04_conversion_total (t : Int) (ht : Spec.ValidTick t) (a : Nat) (ha : a < 2 ^ 128) (dir : Dir) (r : Rounding) :
    ∃ p v, tickToPrice t = .ok p ∧ amountToValue dir a p r = .ok v := by
  obtain ⟨h0, h1⟩ := validTick_iff.1 ht
  exact ⟨_, _, tickToPrice_ok h0 h1, amountToValue_spec h0 h1 ha r⟩

/-- Non-vacuity: the largest amount at both extreme ticks. -/
example : (2 ^ 128 - 1 : Nat) < 2 ^ 128 ∧ Spec.ValidTick (-108000000) ∧ Spec.ValidTick 182402823 := by
  unfold Spec.ValidTick; norm_num

/-- C17: `l` is a fill split into instalments. The contract's payout (rounded down) for the instalments together is at most
the payout for the whole, and less than one unit per instalment below it. -/
theorem C17_split_claims (t : Int) (ht : Spec.ValidTick t) (dir : Dir) (l : List Nat) (hl : l.sum < 2 ^ 128) :
    ∃ p whole parts, tickToPrice t = .ok p ∧ amountToValue dir l.sum p .down = .ok whole ∧
      List.Forall₂ (fun a v => amountToValue dir a p .down = .ok v) l parts ∧
      parts.sum ≤ whole ∧ whole ≤ parts.sum + (l.length - 1) := by
  obtain ⟨h0, h1⟩ := validTick_iff.1 ht
  have hpos := priceNat_pos h0 h1
  have hall : ∀ a ∈ l, a < 2 ^ 128 := fun a ha => lt_of_le_of_lt (List.single_le_sum (by simp) a ha) hl
  refine ⟨_, _, l.map (fun a => valDown dir a (priceNat t)), tickToPrice_ok h0 h1, amountToValue_spec h0 h1 hl .down, ?_, ?_, ?_⟩
  · clear hl
    induction l with
    | nil => exact .nil
    | cons a l ih =>
      exact .cons (amountToValue_spec h0 h1 (hall a (by simp)) .down) (ih (fun a ha => hall a (by simp [ha])))
  · clear hl hall
    simp only [valR]
    induction l with
    | nil => simp
    | cons a l ih =>
      simp only [List.map_cons, List.sum_cons]
      exact le_trans (Nat.add_le_add_left ih _) (valDown_add_le _ _ _ _)
  · clear hl hall
    simp only [valR]
    induction l with
    | nil => simp [valDown_zero]
    | cons a l ih =>
      cases l with
      | nil => simp
      | cons a' l =>
        have h2 := valDown_add_ge dir a (a' :: l).sum (priceNat t) hpos
        simp only [List.map_cons, List.sum_cons, List.length_cons] at *
        omega

/-- Non-vacuity: two instalments of 50 at price 0.01 pay 0 each, the whole pays 1. -/
example : Spec.ValidTick (-18000000) ∧ ([50, 50] : List Nat).sum < 2 ^ 128 ∧ ⌊Spec.value .ask 50 (-18000000)⌋₊ = 0 ∧
    ⌊Spec.value .ask 100 (-18000000)⌋₊ = 1 := by
  refine ⟨by unfold Spec.ValidTick; norm_num, by norm_num, ?_, ?_⟩
  · rw [Nat.floor_eq_zero]; unfold Spec.value Spec.price; norm_num
  · rw [Nat.floor_eq_iff (by unfold Spec.value Spec.price; norm_num)]; unfold Spec.value Spec.price; norm_num

end OB
