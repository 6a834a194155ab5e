import Verif.SpecEcon
import Verif.Props.Swap
import Verif.Props.Engine
import Verif.Props.Auth
import Verif.Props.Book
import Mathlib.Tactic.Linarith
import Mathlib.Algebra.Order.BigOperators.Group.Finset
/- C52-C55: the economics of swaps. -/
namespace OB
open Spec

theorem lp_bound {S : Finset Int} {u : Int → ℚ} {x a c : Int → Nat} {left q : Nat}
    (h1 : ∀ t ∈ S, (c t : ℚ) ≤ a t * u t + ((if a t = 0 then 0 else 1 : ℕ) : ℚ))
    (h2 : ∀ t ∈ S, a t < x t → (left : ℚ) < u t)
    (h3 : ∀ t ∈ S, ∀ t' ∈ S, a t < x t → a t' ≠ 0 → u t' ≤ u t)
    (h4 : (∑ t ∈ S, c t) + left = q)
    (h5 : ∑ t ∈ S, (x t : ℚ) * u t + ((∑ t ∈ S, if a t = 0 then 0 else 1 : ℕ) : ℚ) ≤ q) : ∑ t ∈ S, x t ≤ ∑ t ∈ S, a t := by
  by_contra hc
  rw [not_le] at hc
  obtain ⟨t0, ht0, hlt0⟩ := Finset.exists_lt_of_sum_lt hc
  have hne : (S.filter fun t => a t < x t).Nonempty := ⟨t0, Finset.mem_filter.2 ⟨ht0, hlt0⟩⟩
  obtain ⟨m, hm, hmin⟩ := Finset.exists_min_image _ u hne
  obtain ⟨hmS, hmlt⟩ := Finset.mem_filter.1 hm
  have hl := h2 m hmS hmlt
  have hpt : ∀ t ∈ S, ((x t : ℚ) - a t) * u m ≤ ((x t : ℚ) - a t) * u t := by
    intro t ht
    rcases lt_trichotomy (a t) (x t) with h | h | h
    · have := hmin t (Finset.mem_filter.2 ⟨ht, h⟩)
      have h0 : (0 : ℚ) ≤ (x t : ℚ) - a t := by
        have : (a t : ℚ) < x t := by exact_mod_cast h
        linarith
      exact mul_le_mul_of_nonneg_left this h0
    · rw [h]; simp
    · have hle := h3 m hmS t ht hmlt (by omega)
      have h0 : (x t : ℚ) - a t ≤ 0 := by
        have : (x t : ℚ) < a t := by exact_mod_cast h
        linarith
      exact mul_le_mul_of_nonpos_left hle h0
  have hsum := Finset.sum_le_sum hpt
  rw [← Finset.sum_mul] at hsum
  simp only [sub_mul, Finset.sum_sub_distrib] at hsum
  have hc' : (∑ t ∈ S, (a t : ℚ)) + 1 ≤ ∑ t ∈ S, (x t : ℚ) := by exact_mod_cast hc
  have hum : 0 < u m := lt_of_le_of_lt (by positivity) hl
  have hbig : u m ≤ (∑ t ∈ S, (x t : ℚ)) * u m - (∑ t ∈ S, (a t : ℚ)) * u m := by
    rw [← sub_mul]
    nlinarith
  have hch := Finset.sum_le_sum h1
  rw [Finset.sum_add_distrib] at hch
  have h4' : (∑ t ∈ S, (c t : ℚ)) + left = q := by exact_mod_cast h4
  push_cast at hch h5
  linarith


theorem value_linear (side : Dir) (a : Nat) (t : Int) : value side a t = a * value side 1 t := by
  cases side <;> simp only [value] <;> push_cast <;> ring

theorem value_one_pos {side : Dir} {t : Int} (h : ValidTick t) : 0 < value side 1 t := by
  obtain ⟨h0, h1⟩ := validTick_iff.1 h
  have := spec_price_pos h0 h1
  cases side <;> simp only [value] <;> positivity

theorem value_mul_opposite {side : Dir} {t : Int} (h : ValidTick t) (a : Nat) : value side.opposite a t * value side 1 t = a := by
  obtain ⟨h0, h1⟩ := validTick_iff.1 h
  have := spec_price_pos h0 h1
  cases side <;> simp only [value, Dir.opposite] <;> field_simp <;> push_cast <;> ring

/-- A better tick gives more for less. -/
theorem value_one_mono {side : Dir} {t t' : Int} (h : ValidTick t) (h' : ValidTick t') (hb : ¬ Better side t' t) : value side 1 t ≤ value side 1 t' := by
  obtain ⟨h0, h1⟩ := validTick_iff.1 h
  obtain ⟨h0', h1'⟩ := validTick_iff.1 h'
  have hp := spec_price_pos h0 h1
  have hp' := spec_price_pos h0' h1'
  cases side
  · simp only [Better, not_lt] at hb
    have : price t' ≤ price t := by
      rcases eq_or_lt_of_le hb with rfl | hlt
      · exact le_refl _
      · exact le_of_lt (spec_price_strictMono h0' h1 hlt)
    simp only [value]
    exact div_le_div_of_nonneg_left (by norm_num) hp' this
  · simp only [Better, not_lt] at hb
    have : price t ≤ price t' := by
      rcases eq_or_lt_of_le hb with rfl | hlt
      · exact le_refl _
      · exact le_of_lt (spec_price_strictMono h0 h1' hlt)
    simp only [value]
    exact mul_le_mul_of_nonneg_left this (by norm_num)

theorem value_pos_lt {side : Dir} {t : Int} (h : ValidTick t) {a : Nat} (hv : value side.opposite a t < 1) : (a : ℚ) < value side 1 t := by
  have h1 := value_mul_opposite (side := side) h a
  have h2 := value_one_pos (side := side) h
  nlinarith

/-- C53: no choice of amounts beats an accepted swap by more than the rounding: any amounts `x` (within the liquidity and the target) whose
exact unrounded cost leaves one unit of input for each tick the swap used, add up to at most what the swap pays. -/
theorem C53_best_execution {ch : Chain} {w w' : World} (hw : Reachable ch w) {quote base : Denom}
    (hd : denoms w.store = .ok (quote, base)) {r : SwapReq} {time : Nat} {resp : Response}
    (hs : step ch w (r.op time) = .ok (w', resp)) {side : Dir} (hp : r.pair quote base side) {out : Nat} (ho : resp.data = some out)
    (x : Int → Nat) (hx : ∀ t, x t ≤ tickLiquidity w.store t side) (hwi : ∀ t, x t ≠ 0 → r.within side t)
    (hcost : exactCost side x + ticksTaken w.store w'.store side ≤ r.tokenIn.amount) : overTicks x ≤ out := by
  obtain ⟨refund, dust, -, hin, -, hleft, -⟩ := C22_input_accounted hw hd hs hp
  obtain ⟨out', ho', hsum, hle, -⟩ := C24_swap_conservation hw hd hs hp
  have hbest := C20_best_price_first hw hd hs hp
  rw [ho] at ho'
  obtain rfl := Option.some.inj ho'
  rw [← hsum]
  have hv : ∀ t ∈ Finset.Icc (-108000000 : Int) 182402823, ValidTick t := fun t ht => Finset.mem_Icc.1 ht
  unfold exactCost ticksTaken at hcost
  unfold overTicks at hin hcost ⊢
  have hlq : ∀ t, taken w.store w'.store t side < x t → tickLiquidity w'.store t side ≠ 0 := by
    intro t ht
    have h1 := hx t; have h2 := hle t
    unfold taken at ht
    omega
  revert hin hcost hv
  generalize Finset.Icc (-108000000 : Int) 182402823 = S
  intro hcost hin hv
  refine lp_bound (u := value side 1) (c := fun t => charge side (taken w.store w'.store t side) t) (left := refund + dust)
    (q := r.tokenIn.amount) ?_ ?_ ?_ (by rw [← hin, Nat.add_assoc]) ?_
  · intro t ht
    by_cases hz : taken w.store w'.store t side = 0
    · have : charge side 0 t = 0 := by cases side <;> simp [charge, value]
      rw [hz, this]; simp
    · rw [if_neg hz, ← value_linear]
      have := (C21_charge_fair side (taken w.store w'.store t side) t (hv t ht)).2.2
      push_cast
      exact le_of_lt this
  · intro t ht hlt
    exact value_pos_lt (hv t ht) (hleft t (hwi t (by omega)) (hlq t hlt))
  · intro t ht t' ht' hlt hnz
    refine value_one_mono (hv t' ht') (hv t ht) fun hb => ?_
    exact hlq t hlt (hbest t t' hb hnz)
  · simp only [← value_linear]
    exact_mod_cast hcost


/-! ### C54 -/

/-- Consecutive prices above 1 differ by more than a hundred-millionth. -/
theorem price_gap {t : Int} (h : 1 ≤ t) : 10 ^ 8 * priceNat (t - 1) + priceNat t ≤ 10 ^ 8 * priceNat t := by
  have hr := (priceNat_pos_range (t := t) (by omega)).2
  by_cases hk : (t - 1).natAbs / 9000000 = t.natAbs / 9000000
  · have e : priceNat t = priceNat (t - 1) + 10 ^ (12 + t.natAbs / 9000000) := by
      unfold priceNat
      rw [if_pos (by omega), if_pos (by omega), hk]
      have : t.natAbs % 9000000 = (t - 1).natAbs % 9000000 + 1 := by omega
      rw [this]; ring
    have e2 : 10 ^ (19 + t.natAbs / 9000000) ≤ 10 ^ 8 * 10 ^ (12 + t.natAbs / 9000000) := by
      rw [← Nat.pow_add]
      exact Nat.pow_le_pow_right (by norm_num) (by omega)
    omega
  · have e1 : t.natAbs % 9000000 = 0 := by omega
    have e2 : (t - 1).natAbs % 9000000 = 8999999 := by omega
    obtain ⟨k, hk'⟩ : ∃ k, (t - 1).natAbs / 9000000 = k ∧ t.natAbs / 9000000 = k + 1 := ⟨_, rfl, by omega⟩
    unfold priceNat
    rw [if_pos (by omega), if_pos (by omega), hk'.1, hk'.2, e1, e2]
    have : 10 ^ (12 + (k + 1)) = 10 * 10 ^ (12 + k) := by rw [← Nat.add_assoc, Nat.pow_succ]; ring
    rw [this]
    generalize 10 ^ (12 + k) = z
    omega

theorem bid_gap {t : Int} (h : ValidTick t) (h1 : 1 ≤ t) : value .bid 1 t * 10 ^ 8 ≤ value .bid 1 (t - 1) * (10 ^ 8 - 1) := by
  obtain ⟨h0, h2⟩ := validTick_iff.1 h
  have h0' : MIN_TICK ≤ t - 1 := by unfold MIN_TICK; omega
  have h2' : t - 1 ≤ MAX_TICK := by omega
  have g := price_gap h1
  have p1 : (0 : ℚ) < ((priceNat t : ℕ) : ℚ) := by exact_mod_cast priceNat_pos h0 h2
  have p2 : (0 : ℚ) < ((priceNat (t - 1) : ℕ) : ℚ) := by exact_mod_cast priceNat_pos h0' h2'
  have e : ∀ {x : Int}, MIN_TICK ≤ x → x ≤ MAX_TICK → value .bid 1 x = 10 ^ 18 / ((priceNat x : ℕ) : ℚ) := by
    intro x a b
    have h3 := spec_price_pos a b
    rw [priceNat_spec a b]
    simp only [value]
    field_simp
    norm_num
  rw [e h0 h2, e h0' h2']
  have g' : (10 : ℚ) ^ 8 * ((priceNat (t - 1) : ℕ) : ℚ) + ((priceNat t : ℕ) : ℚ) ≤ 10 ^ 8 * ((priceNat t : ℕ) : ℚ) := by exact_mod_cast g
  rw [div_mul_eq_mul_div, div_mul_eq_mul_div, div_le_div_iff₀ p1 p2]
  nlinarith


theorem floor_value_le {dir : Dir} {q : Nat} {t : Int} (h : ValidTick t) {a : Nat} (ha : a ≤ valDown dir q (priceNat t)) :
    (a : ℚ) * value dir.opposite 1 t ≤ q := by
  obtain ⟨h0, h1⟩ := validTick_iff.1 h
  rw [valDown_spec h0 h1] at ha
  have hp := spec_price_pos h0 h1
  have hnn : 0 ≤ value dir q t := by cases dir <;> simp only [value] <;> positivity
  have h2 : (a : ℚ) ≤ value dir q t := (by exact_mod_cast ha : (a : ℚ) ≤ ((⌊value dir q t⌋₊ : ℕ) : ℚ)).trans (Nat.floor_le hnn)
  have h3 := value_mul_opposite (side := dir.opposite) h q
  rw [Dir.opposite_opposite] at h3
  rw [← h3]
  exact mul_le_mul_of_nonneg_right h2 (le_of_lt (value_one_pos h))

theorem Sweep.best_value {dir : Dir} {L : Int → Nat} {ts : List Int} {q lp : Nat} {F : List Fill} {q' dust lp' : Nat}
    (h : Sweep dir L ts q lp F q' dust lp') (hr : ∀ t ∈ ts, MIN_TICK ≤ t ∧ t ≤ MAX_TICK) (hs : ts.Pairwise (WorseThan dir))
    {t0 : Int} (hv : ValidTick t0) (hb : ∀ f ∈ F, ¬ Better dir.opposite f.tick t0) : (sumAmount F : ℚ) * value dir.opposite 1 t0 ≤ q := by
  induction h generalizing t0 with
  | nil => simp [sumAmount]
  | skip _ _ ih => exact ih (fun t ht => hr t (by simp [ht])) hs.of_cons hv hb
  | dust => simp [sumAmount]
  | @fill t ts q lp F q' dust lp' h1 h2 h3 h4 h5 ih =>
    have hrt := hr t (by simp)
    have hvt : ValidTick t := validTick_iff.2 hrt
    have ih := @ih (fun t ht => hr t (by simp [ht])) hs.of_cons
    have hcle := charge_le (dir := dir) (q := q) (priceNat_pos hrt.1 hrt.2) (min_le_left (valDown dir q (priceNat t)) (L t))
    have hfl := floor_value_le (dir := dir) (q := q) hvt (min_le_left (valDown dir q (priceNat t)) (L t))
    have hch := charge_eq (side := dir.opposite) (a := min (valDown dir q (priceNat t)) (L t)) hrt.1 hrt.2
    have hfair := C21_charge_fair dir.opposite (min (valDown dir q (priceNat t)) (L t)) t hvt
    rw [← hch, value_linear] at hfair
    have hu : value dir.opposite 1 t0 ≤ value dir.opposite 1 t := value_one_mono hv hvt (hb _ (List.mem_cons_self ..))
    have hu0 := value_one_pos (side := dir.opposite) hv
    rw [sumAmount_cons]
    clear hch
    have hsub := h5.sublist
    revert hcle hfl hfair ih
    generalize min (valDown dir q (priceNat t)) (L t) = a
    generalize valUp dir.opposite a (priceNat t) = c
    intro ih hcle hfl hfair
    have hrest : ∀ t' ∈ ts, WorseThan dir t t' := fun t' ht' => (List.pairwise_cons.1 hs).1 t' ht'
    push_cast
    have hcq : ((q - c : ℕ) : ℚ) = q - c := by rw [Nat.cast_sub hcle]
    have hA : (a : ℚ) * value dir.opposite 1 t0 ≤ a * value dir.opposite 1 t := mul_le_mul_of_nonneg_left hu (by positivity)
    by_cases hcase : dir.opposite = .ask ∨ price t ≤ 10 ^ 18
    · have h6 := (hfair.2.1 hcase).2
      have h7 := ih hv (fun f hf => hb f (by simp [hf]))
      rw [hcq] at h7
      linarith
    · rw [not_or, not_le] at hcase
      obtain ⟨hside, hbig⟩ := hcase
      have hdir : dir = .ask := by revert hside; cases dir <;> simp [Dir.opposite]
      subst hdir
      clear hside h2 h3 h4 h5
      simp only [Dir.opposite] at *
      by_cases hF : sumAmount F = 0
      · rw [hF]; push_cast
        linarith
      · have ht1 : 1 ≤ t := by
          by_contra hc
          have : price t ≤ price 0 := by
            rcases eq_or_lt_of_le (show t ≤ 0 by omega) with rfl | hlt
            · exact le_refl _
            · exact le_of_lt (spec_price_strictMono hrt.1 (by unfold MAX_TICK; norm_num) hlt)
          have h0 : price 0 = 1 := by unfold price; norm_num
          rw [h0] at this
          have : (1 : ℚ) < 10 ^ 18 := by norm_num
          linarith
        have hv1 : ValidTick (t - 1) := by unfold ValidTick at *; omega
        have h7 := ih hv1 (by
          intro f hf hbt
          have := hrest f.tick (hsub.subset (List.mem_map_of_mem hf))
          simp only [WorseThan] at this
          simp only [Better] at hbt
          omega)
        have hg := bid_gap hvt ht1
        have hut := value_one_pos (side := .bid) hv1
        have hF1 : (1 : ℚ) ≤ sumAmount F := by exact_mod_cast Nat.one_le_iff_ne_zero.2 hF
        have hqc : 1 ≤ q - c := by
          by_contra hc
          have : q - c = 0 := by omega
          rw [this] at h7
          push_cast at h7
          nlinarith
        have hqc' : (1 : ℚ) ≤ q - c := by rw [← hcq]; exact_mod_cast hqc
        rw [hcq] at h7
        have h8 := hfair.1
        have h9 : (sumAmount F : ℚ) * value .bid 1 t * 10 ^ 8 ≤ (q - c) * (10 ^ 8 - 1) := by
          calc (sumAmount F : ℚ) * value .bid 1 t * 10 ^ 8 = sumAmount F * (value .bid 1 t * 10 ^ 8) := by ring
            _ ≤ sumAmount F * (value .bid 1 (t - 1) * (10 ^ 8 - 1)) := mul_le_mul_of_nonneg_left hg (by positivity)
            _ = (sumAmount F * value .bid 1 (t - 1)) * (10 ^ 8 - 1) := by ring
            _ ≤ (q - c) * (10 ^ 8 - 1) := mul_le_mul_of_nonneg_right h7 (by norm_num)
        have hB : (sumAmount F : ℚ) * value .bid 1 t0 ≤ sumAmount F * value .bid 1 t := mul_le_mul_of_nonneg_left hu (by positivity)
        have h10 : (sumAmount F : ℚ) * value .bid 1 t ≤ (q - c) - 1 / 10 ^ 8 := by
          have : (q - c : ℚ) * (10 ^ 8 - 1) ≤ ((q - c) - 1 / 10 ^ 8) * 10 ^ 8 := by nlinarith
          have h11 := h9.trans this
          exact le_of_mul_le_mul_right h11 (by norm_num)
        have h12 : (1 : ℚ) / 10 ^ 18 ≤ 1 / 10 ^ 8 := by norm_num
        linarith


/-- C54: a swap never gets a better price than the best tick it takes from: the output valued at any tick that is at least as good as all
the ticks taken from, exactly and without rounding, is at most the input. -/
theorem C54_never_better {ch : Chain} {w w' : World} (hw : Reachable ch w) {quote base : Denom}
    (hd : denoms w.store = .ok (quote, base)) {r : SwapReq} {time : Nat} {resp : Response}
    (hs : step ch w (r.op time) = .ok (w', resp)) {side : Dir} (hp : r.pair quote base side) {out : Nat} (ho : resp.data = some out)
    {t0 : Int} (hv : ValidTick t0) (hbest : ∀ t, taken w.store w'.store t side ≠ 0 → ¬ Better side t t0) :
    value side out t0 ≤ r.tokenIn.amount := by
  obtain ⟨n, hn⟩ := hw
  obtain ⟨b, h⟩ := hn.traced
  obtain ⟨ob, hob, rfl, rfl⟩ := denoms_eq hd
  obtain ⟨dir, F, q', dust, lp, bank1, -, h2, -, h3, rfl, h5, h6, h7, hF, hFr, h8, -⟩ := h.swap_inv hs hob
  obtain rfl := pair_unique (filledBook_rel h.rel hob) h3.pair hp
  have hrun := h3.run
  have hrange := sweepTicks_range h.rel (ob := ob) (dir := dir) (bound := r.target.getD (defaultBound dir))
  have hsort := sweepTicks_sorted h.rel.ticksSorted (ob := ob) (dir := dir) (bound := r.target.getD (defaultBound dir))
  have e : sumAmount F = out := Option.some.inj ho
  subst e
  rw [value_linear]
  refine hrun.sweep.best_value hrange hsort hv fun f hf => hbest f.tick ?_
  rw [h8, fillAt_mem hF.nodup hf]
  exact (hF.pos f hf).ne'

theorem exists_best {S : Finset Int} {side : Dir} {P : Int → Prop} [DecidablePred P] (hne : ∃ t ∈ S, P t) :
    ∃ t0 ∈ S, P t0 ∧ ∀ t ∈ S, P t → ¬ Better side t t0 := by
  have hne' : (S.filter P).Nonempty := by
    obtain ⟨t, h1, h2⟩ := hne
    exact ⟨t, Finset.mem_filter.2 ⟨h1, h2⟩⟩
  cases side
  · obtain ⟨m, hm, hmax⟩ := Finset.exists_max_image _ (fun t : Int => t) hne'
    obtain ⟨h1, h2⟩ := Finset.mem_filter.1 hm
    refine ⟨m, h1, h2, fun t ht hPt => ?_⟩
    have := hmax t (Finset.mem_filter.2 ⟨ht, hPt⟩)
    simp only [Better]; omega
  · obtain ⟨m, hm, hmin⟩ := Finset.exists_min_image _ (fun t : Int => t) hne'
    obtain ⟨h1, h2⟩ := Finset.mem_filter.1 hm
    refine ⟨m, h1, h2, fun t ht hPt => ?_⟩
    have := hmin t (Finset.mem_filter.2 ⟨ht, hPt⟩)
    simp only [Better]; omega

/-- C54: on a book without crossed orders, swapping and swapping the proceeds right back never returns more than was put in. -/
theorem C54_no_round_trip {ch : Chain} {w w1 w2 : World} (hw : Reachable ch w) {quote base : Denom}
    (hd : denoms w.store = .ok (quote, base)) (hu : Uncrossed w.store) {r1 r2 : SwapReq} {time1 time2 : Nat} {resp1 resp2 : Response}
    (hs1 : step ch w (r1.op time1) = .ok (w1, resp1)) (hs2 : step ch w1 (r2.op time2) = .ok (w2, resp2)) {side : Dir}
    (hp1 : r1.pair quote base side) (hp2 : r2.pair quote base side.opposite) {out1 out2 : Nat} (ho1 : resp1.data = some out1)
    (ho2 : resp2.data = some out2) (hback : r2.tokenIn.amount ≤ out1) : out2 ≤ r1.tokenIn.amount := by
  have hw1 : Reachable ch w1 := by
    obtain ⟨n, hn⟩ := hw
    obtain ⟨b, h⟩ := hn.traced
    exact ⟨_, (Traced.ok h hs1).reachable⟩
  have hd1 : denoms w1.store = .ok (quote, base) := by
    have e : apply ch w (r1.op time1) = w1 := by unfold apply; rw [hs1]
    have := C39_denoms_fixed hw [r1.op time1]
    rw [show run ch w [r1.op time1] = apply ch w (r1.op time1) from rfl, e] at this
    rw [this, hd]
  obtain ⟨o1, e1, hsum1, hle1, -, -, hother1, -⟩ := C24_swap_conservation hw hd hs1 hp1
  obtain ⟨o2, e2, hsum2, hle2, -⟩ := C24_swap_conservation hw1 hd1 hs2 hp2
  rw [ho2] at e2
  obtain rfl := Option.some.inj e2
  by_cases hz : ∃ t ∈ Finset.Icc (-108000000 : Int) 182402823, taken w1.store w2.store t side.opposite ≠ 0
  · obtain ⟨t0, hm, ht0, hb0⟩ := exists_best (side := side.opposite) hz
    have hv : ValidTick t0 := Finset.mem_Icc.1 hm
    have hl0 : tickLiquidity w.store t0 side.opposite ≠ 0 := by
      have e : tickLiquidity w1.store t0 side.opposite = tickLiquidity w.store t0 side.opposite := by
        unfold tickLiquidity
        rw [hother1 t0]
      rw [← e]
      unfold taken at ht0
      omega
    have g1 : value side out1 t0 ≤ r1.tokenIn.amount := by
      refine C54_never_better hw hd hs1 hp1 ho1 hv fun t ht hb => ?_
      have hlt : tickLiquidity w.store t side ≠ 0 := by unfold taken at ht; omega
      cases side
      · have := hu t t0 hlt hl0
        simp only [Better] at hb; omega
      · have := hu t0 t hl0 hlt
        simp only [Better] at hb; omega
    have g2 : value side.opposite out2 t0 ≤ r2.tokenIn.amount := by
      refine C54_never_better hw1 hd1 hs2 hp2 ho2 hv fun t ht => hb0 t ?_ ht
      have hlt : tickLiquidity w1.store t side.opposite ≠ 0 := by unfold taken at ht; omega
      exact Finset.mem_Icc.2 ((C26_pool_liquidity hw1 hd1).2.1 t side.opposite hlt)
    have g3 : value side.opposite out2 t0 ≤ out1 := g2.trans (by exact_mod_cast hback)
    have h1 := value_mul_opposite (side := side) hv out2
    have h2 := value_one_pos (side := side) hv
    rw [value_linear] at g1
    have h4 := mul_le_mul_of_nonneg_right g3 (le_of_lt h2)
    rw [h1] at h4
    exact_mod_cast h4.trans g1
  · have : out2 = 0 := by
      rw [← hsum2]
      unfold overTicks
      push Not at hz
      exact Finset.sum_eq_zero hz
    omega


theorem charge_le_iff {side : Dir} {t : Int} (hv : ValidTick t) (hf : side = .ask ∨ price t ≤ 10 ^ 18) (a q : Nat) :
    charge side a t ≤ q ↔ a ≤ ⌊value side.opposite q t⌋₊ := by
  obtain ⟨h0, h1⟩ := validTick_iff.1 hv
  have hp := spec_price_pos h0 h1
  have hnn : 0 ≤ value side.opposite q t := by cases side <;> simp only [value, Dir.opposite] <;> positivity
  rw [((C21_charge_fair side a t hv).2.1 hf).1, Nat.ceil_le, Nat.le_floor_iff hnn]
  have e := value_mul_opposite (side := side) hv q
  have hu := value_one_pos (side := side) hv
  rw [value_linear side a, ← e]
  exact ⟨fun h => le_of_mul_le_mul_right h hu, fun h => mul_le_mul_of_nonneg_right h (le_of_lt hu)⟩

theorem charge_zero (side : Dir) (t : Int) : charge side 0 t = 0 := by cases side <;> simp [charge, value]

theorem charge_add_le {side : Dir} {t : Int} (hv : ValidTick t) (hf : side = .ask ∨ price t ≤ 10 ^ 18) (a b : Nat) :
    charge side (a + b) t ≤ charge side a t + charge side b t := by
  rw [((C21_charge_fair side (a + b) t hv).2.1 hf).1, ((C21_charge_fair side a t hv).2.1 hf).1, ((C21_charge_fair side b t hv).2.1 hf).1]
  rw [value_linear, value_linear side a, value_linear side b]
  push_cast
  rw [add_mul]
  exact Nat.ceil_add_le _ _

theorem charge_mono {side : Dir} {t : Int} (hv : ValidTick t) (hf : side = .ask ∨ price t ≤ 10 ^ 18) {a b : Nat} (h : a ≤ b) :
    charge side a t ≤ charge side b t := by
  rw [charge_le_iff hv hf]
  exact h.trans ((charge_le_iff hv hf b _).1 (le_refl _))

theorem costOf_zero (side : Dir) (levels : List (Int × Nat)) : costOf side levels 0 = 0 := by
  induction levels with
  | nil => rfl
  | cons x rest ih =>
    obtain ⟨t, l⟩ := x
    simp only [costOf, Nat.zero_min, Nat.zero_sub, ih, charge_zero]

/-- Input that is worth nothing at a tick is worth nothing at a worse one. -/
theorem worthless_worse {side : Dir} {t t' : Int} (hv : ValidTick t) (hv' : ValidTick t') (hb : Better side t t') {q : Nat}
    (h : ⌊value side.opposite q t⌋₊ = 0) : ⌊value side.opposite q t'⌋₊ = 0 := by
  rw [Nat.floor_eq_zero] at h ⊢
  have h1 := value_pos_lt hv h
  have hu : value side 1 t ≤ value side 1 t' := value_one_mono hv hv' fun hc => by
    cases side <;> simp only [Better] at hb hc <;> omega
  have e := value_mul_opposite (side := side) hv' q
  have hp := value_one_pos (side := side) hv'
  by_contra hc
  rw [not_lt] at hc
  have := mul_le_mul_of_nonneg_right hc (le_of_lt hp)
  rw [e] at this
  linarith

theorem match_worthless {side : Dir} {levels : List (Int × Nat)} {q : Nat} (h : ∀ x ∈ levels, ⌊value side.opposite q x.1⌋₊ = 0)
    {F : List (Int × Nat)} {left dust : Nat} (hm : matchLevels side levels q = some (F, left, dust)) : F = [] := by
  cases levels with
  | nil => simp only [matchLevels, Option.some.injEq, Prod.mk.injEq] at hm; exact hm.1.symm
  | cons x rest =>
    obtain ⟨t, l⟩ := x
    rw [matchLevels] at hm
    have := h (t, l) (by simp)
    simp only at this
    simp only [this, if_true, Option.some.injEq, Prod.mk.injEq] at hm
    exact hm.1.symm

theorem match_cost {side : Dir} {levels : List (Int × Nat)} (hs : levels.Pairwise (fun x y => Better side x.1 y.1))
    (hv : ∀ x ∈ levels, ValidTick x.1) (hpos : ∀ x ∈ levels, x.2 ≠ 0) (hf : FinePrices side levels) {q : Nat} {F : List (Int × Nat)} {left dust : Nat}
    (hm : matchLevels side levels q = some (F, left, dust)) {x : Nat} (hx : x ≤ (levels.map Prod.snd).sum) :
    x ≤ (F.map Prod.snd).sum ↔ costOf side levels x ≤ q := by
  induction levels generalizing q F x with
  | nil =>
    simp only [List.map_nil, List.sum_nil, Nat.le_zero] at hx
    subst hx
    simp [costOf]
  | cons y rest ih =>
    obtain ⟨t, l⟩ := y
    have hvt : ValidTick t := hv (t, l) (by simp)
    have hft : side = .ask ∨ price t ≤ 10 ^ 18 := hf.imp id fun h => h (t, l) (by simp)
    have hfr : FinePrices side rest := hf.imp id fun h y hy => h y (by simp [hy])
    have hl0 : l ≠ 0 := hpos (t, l) (by simp)
    have hb : ∀ y ∈ rest, Better side t y.1 := fun y hy => (List.pairwise_cons.1 hs).1 y hy
    simp only [List.map_cons, List.sum_cons] at hx
    have ih := @ih (List.pairwise_cons.1 hs).2 (fun y hy => hv y (by simp [hy])) (fun y hy => hpos y (by simp [hy])) hfr
    have hiff := charge_le_iff (q := q) hvt hft
    rw [matchLevels] at hm
    simp only at hm
    have hwl : ∀ y ∈ rest, ⌊value side.opposite (q - charge side ⌊value side.opposite q t⌋₊ t) y.1⌋₊ = 0 := by
      intro y hy
      refine worthless_worse hvt (hv y (by simp [hy])) (hb y hy) ?_
      by_contra hc
      have h1 := (charge_le_iff hvt hft 1 _).2 (Nat.one_le_iff_ne_zero.2 hc)
      have h2 := (hiff _).2 (le_refl _)
      have h3 := charge_add_le hvt hft ⌊value side.opposite q t⌋₊ 1
      have h4 := (hiff (⌊value side.opposite q t⌋₊ + 1)).1 (by omega)
      omega
    revert hm hiff hwl
    generalize ⌊value side.opposite q t⌋₊ = want
    intro hiff hm hwl
    simp only [costOf]
    split at hm
    · rename_i hw
      subst hw
      simp only [Option.some.injEq, Prod.mk.injEq] at hm
      obtain ⟨rfl, -, -⟩ := hm
      simp only [List.map_nil, List.sum_nil, Nat.le_zero]
      constructor
      · rintro rfl
        simp [charge_zero, costOf_zero]
      · intro hc
        have := (hiff (min x l)).1 (by omega)
        omega
    · split at hm
      · simp at hm
      · rw [Option.map_eq_some_iff] at hm
        obtain ⟨⟨F', l', d'⟩, hm, he⟩ := hm
        simp only [Prod.mk.injEq] at he
        obtain ⟨rfl, rfl, rfl⟩ := he
        simp only [List.map_cons, List.sum_cons]
        by_cases hwl' : want < l
        · rw [Nat.min_eq_left (le_of_lt hwl')] at hm ⊢
          obtain rfl := match_worthless hwl hm
          simp only [List.map_nil, List.sum_nil, Nat.add_zero]
          constructor
          · intro hxw
            have h1 : x - l = 0 := by omega
            rw [h1, costOf_zero, Nat.min_eq_left (by omega)]
            exact (hiff x).2 hxw
          · intro hc
            have := (hiff (min x l)).1 (by omega)
            omega
        · rw [not_lt] at hwl'
          rw [Nat.min_eq_right hwl'] at hm ⊢
          have hcl := (hiff l).2 hwl'
          by_cases hxl : x ≤ l
          · have h1 : x - l = 0 := by omega
            rw [h1, costOf_zero, Nat.min_eq_left hxl]
            have := (hiff x).2 (by omega)
            constructor
            · intro _; omega
            · intro _; omega
          · rw [Nat.min_eq_right (by omega)]
            have := ih hm (x := x - l) (by omega)
            constructor
            · intro h2
              have := this.1 (by omega)
              omega
            · intro h2
              have := this.2 (by omega)
              omega


/-! ### Taking units off levels -/

def dropUnits : List (Int × Nat) → Nat → List (Int × Nat)
  | [], _ => []
  | (t, l) :: rest, x => if x < l then (t, l - x) :: rest else dropUnits rest (x - l)

theorem costOf_add {side : Dir} {levels : List (Int × Nat)} (hv : ∀ x ∈ levels, ValidTick x.1) (hf : FinePrices side levels) (x y : Nat) :
    costOf side levels (x + y) ≤ costOf side levels x + costOf side (dropUnits levels x) y := by
  induction levels generalizing x with
  | nil => simp [costOf]
  | cons z rest ih =>
    obtain ⟨t, l⟩ := z
    have hvt : ValidTick t := hv (t, l) (by simp)
    have hft : side = .ask ∨ price t ≤ 10 ^ 18 := hf.imp id fun h => h (t, l) (by simp)
    have hfr : FinePrices side rest := hf.imp id fun h y hy => h y (by simp [hy])
    have ih := ih (fun y hy => hv y (by simp [hy])) hfr
    simp only [costOf, dropUnits]
    split
    · rename_i hlt
      simp only [costOf]
      rw [Nat.min_eq_left (le_of_lt hlt), show x - l = 0 by omega, costOf_zero]
      have h1 : min (x + y) l = x + min y (l - x) := by omega
      have h2 : x + y - l = y - (l - x) := by omega
      rw [h1, h2]
      have := charge_add_le hvt hft x (min y (l - x))
      omega
    · rename_i hlt
      have h1 : min (x + y) l = l := by omega
      have h2 : min x l = l := by omega
      have h3 : x + y - l = (x - l) + y := by omega
      rw [h1, h2, h3]
      have := ih (x - l)
      omega

theorem dropUnits_sum (levels : List (Int × Nat)) (x : Nat) : ((dropUnits levels x).map Prod.snd).sum = (levels.map Prod.snd).sum - x := by
  induction levels generalizing x with
  | nil => simp [dropUnits]
  | cons z rest ih =>
    obtain ⟨t, l⟩ := z
    simp only [dropUnits]
    split
    · simp only [List.map_cons, List.sum_cons]; omega
    · rw [ih]; simp only [List.map_cons, List.sum_cons]; omega

theorem dropUnits_taken {levels : List (Int × Nat)} {f : Int → Nat} (hle : ∀ x ∈ levels, f x.1 ≤ x.2) (hpos : ∀ x ∈ levels, x.2 ≠ 0)
    (hbest : levels.Pairwise (fun x y => f y.1 ≠ 0 → f x.1 = x.2)) :
    (levels.map fun x => (x.1, x.2 - f x.1)).filter (fun x => decide (x.2 ≠ 0)) = dropUnits levels ((levels.map fun x => f x.1).sum) := by
  induction levels with
  | nil => rfl
  | cons z rest ih =>
    obtain ⟨t, l⟩ := z
    have hb := List.pairwise_cons.1 hbest
    have ih := ih (fun x hx => hle x (by simp [hx])) (fun x hx => hpos x (by simp [hx])) hb.2
    have h1 := hle (t, l) (by simp)
    simp only at h1
    simp only [List.map_cons, List.sum_cons, dropUnits]
    rcases Nat.lt_or_eq_of_le h1 with hlt | heq
    · have hz : ∀ x ∈ rest, f x.1 = 0 := by
        intro x hx
        by_contra hc
        have := hb.1 x hx hc
        simp only at this
        omega
      have hs : (rest.map fun x => f x.1).sum = 0 := by
        rw [List.sum_eq_zero]
        intro y hy
        obtain ⟨x, hx, rfl⟩ := List.mem_map.1 hy
        exact hz x hx
      rw [hs, Nat.add_zero, if_pos hlt, List.filter_cons, if_pos (by simpa using by omega)]
      congr 1
      have e : (rest.map fun x => (x.1, x.2 - f x.1)) = rest := by
        conv_rhs => rw [← List.map_id rest]
        refine List.map_congr_left fun x hx => ?_
        rw [hz x hx]; rfl
      rw [e, List.filter_eq_self]
      intro x hx
      simpa using hpos x (by simp [hx])
    · rw [heq, if_neg (by omega), List.filter_cons, if_neg (by simp), Nat.add_sub_cancel_left]
      exact ih


theorem swap_match {ch : Chain} {w w' : World} (hw : Reachable ch w) {quote base : Denom} (hd : denoms w.store = .ok (quote, base))
    {r : SwapReq} {time : Nat} {resp : Response} (hs : step ch w (r.op time) = .ok (w', resp)) {side : Dir} (hp : r.pair quote base side)
    {out : Nat} (ho : resp.data = some out) {levels : List (Int × Nat)} (hl : r.Levels w.store side levels) :
    ∃ F left dust, matchLevels side levels r.tokenIn.amount = some (F, left, dust) ∧ (F.map Prod.snd).sum = out := by
  obtain ⟨n, hn⟩ := hw
  obtain ⟨b, h⟩ := hn.traced
  obtain ⟨ob, hob, rfl, rfl⟩ := denoms_eq hd
  obtain ⟨dir, F, q', dust, lp, bank1, -, h2, -, h3, rfl, h5, h6, h7, hF, hFr, h8, -⟩ := h.swap_inv hs hob
  obtain rfl := pair_unique (filledBook_rel h.rel hob) h3.pair hp
  have hrange := sweepTicks_range h.rel (ob := ob) (dir := dir) (bound := r.target.getD (defaultBound dir))
  obtain rfl := levels_sweep h.rel hob hl
  exact ⟨_, _, _, sweep_match h3.run.sweep hrange, by rw [fillPairs_sum]; exact Option.some.inj ho⟩

theorem levels_valid {ch : Chain} {w : World} (hw : Reachable ch w) {quote base : Denom} (hd : denoms w.store = .ok (quote, base))
    {r : SwapReq} {side : Dir} {levels : List (Int × Nat)} (hl : r.Levels w.store side levels) :
    (∀ x ∈ levels, ValidTick x.1) ∧ ∀ x ∈ levels, x.2 ≠ 0 := by
  constructor
  · rintro ⟨t, l⟩ hx
    obtain ⟨rfl, h2, -⟩ := (hl.2 t l).1 hx
    exact (C26_pool_liquidity hw hd).2.1 t side h2
  · rintro ⟨t, l⟩ hx
    exact ((hl.2 t l).1 hx).2.1

/-- C52: the output of an accepted swap is the largest amount that its input can pay for, best price first: an amount that is available is
at most the output exactly if its cost is at most the input. (For bids above price 10^18 the charge is cut to 18 decimals, see C21.) -/
theorem C52_largest_affordable {ch : Chain} {w w' : World} (hw : Reachable ch w) {quote base : Denom}
    (hd : denoms w.store = .ok (quote, base)) {r : SwapReq} {time : Nat} {resp : Response}
    (hs : step ch w (r.op time) = .ok (w', resp)) {side : Dir} (hp : r.pair quote base side) {out : Nat} (ho : resp.data = some out)
    {levels : List (Int × Nat)} (hl : r.Levels w.store side levels) (hf : FinePrices side levels) {x : Nat}
    (hx : x ≤ (levels.map Prod.snd).sum) : x ≤ out ↔ costOf side levels x ≤ r.tokenIn.amount := by
  obtain ⟨F, left, dust, hm, rfl⟩ := swap_match hw hd hs hp ho hl
  obtain ⟨h1, h2⟩ := levels_valid hw hd hl
  exact match_cost hl.1 h1 h2 hf hm hx

theorem Sweep.mono {dir : Dir} {L : Int → Nat} {ts : List Int} (hr : ∀ t ∈ ts, MIN_TICK ≤ t ∧ t ≤ MAX_TICK) (hs : ts.Pairwise (WorseThan dir))
    {q1 lp1 : Nat} {F1 : List Fill} {q1' d1 lp1' : Nat} (h1 : Sweep dir L ts q1 lp1 F1 q1' d1 lp1')
    {q2 lp2 : Nat} {F2 : List Fill} {q2' d2 lp2' : Nat} (h2 : Sweep dir L ts q2 lp2 F2 q2' d2 lp2') (hq : q1 ≤ q2) :
    sumAmount F1 ≤ sumAmount F2 := by
  induction h1 generalizing q2 lp2 F2 q2' d2 lp2' with
  | nil => exact Nat.zero_le _
  | skip hz _ ih =>
    cases h2 with
    | skip _ h2 => exact ih (fun t ht => hr t (by simp [ht])) hs.of_cons h2 hq
    | dust h => exact absurd hz h
    | fill h => exact absurd hz h
  | dust => exact Nat.zero_le _
  | @fill t ts q lp F q' dust lp' a1 a2 a3 a4 a5 ih =>
    have hrt := hr t (by simp)
    have hmono := valDown_mono dir (priceNat t) hq
    cases h2 with
    | skip h _ => exact absurd h a1
    | dust _ h => omega
    | fill b1 b2 b3 b4 b5 =>
      rw [sumAmount_cons, sumAmount_cons]
      simp only
      by_cases hlt : valDown dir q (priceNat t) < L t
      · have e : min (valDown dir q (priceNat t)) (L t) = valDown dir q (priceNat t) := by omega
        have hnil : F = [] := by
          refine a5.nothing fun t' ht' => ?_
          rw [e]
          exact worseThan_price (q := 0) ((List.pairwise_cons.1 hs).1 t' ht') hrt (hr t' (by simp [ht'])) (partial_done hrt.1 hrt.2)
        rw [hnil]
        show _ + 0 ≤ _
        omega
      · have e1 : min (valDown dir q (priceNat t)) (L t) = L t := by omega
        have e2 : min (valDown dir q2 (priceNat t)) (L t) = L t := by omega
        have := ih (fun t ht => hr t (by simp [ht])) hs.of_cons b5 (by rw [e1, e2]; omega)
        omega

/-- C52: more input never gives less output. -/
theorem C52_monotone {ch : Chain} {w w1 w2 : World} (hw : Reachable ch w) {quote base : Denom} (hd : denoms w.store = .ok (quote, base))
    {r1 r2 : SwapReq} {time1 time2 : Nat} {resp1 resp2 : Response} (hs1 : step ch w (r1.op time1) = .ok (w1, resp1))
    (hs2 : step ch w (r2.op time2) = .ok (w2, resp2)) {side : Dir} (hp1 : r1.pair quote base side) (hp2 : r2.pair quote base side)
    (ht : r1.target = r2.target) {out1 out2 : Nat} (ho1 : resp1.data = some out1) (ho2 : resp2.data = some out2)
    (hle : r1.tokenIn.amount ≤ r2.tokenIn.amount) : out1 ≤ out2 := by
  obtain ⟨n, hn⟩ := hw
  obtain ⟨b, h⟩ := hn.traced
  obtain ⟨ob, hob, rfl, rfl⟩ := denoms_eq hd
  obtain ⟨dir, F1, q1', dust1, lp1, bank1, -, -, -, h1, rfl, -⟩ := h.swap_inv hs1 hob
  obtain ⟨dir', F2, q2', dust2, lp2, bank2, -, -, -, h2, rfl, -⟩ := h.swap_inv hs2 hob
  obtain rfl := pair_unique (filledBook_rel h.rel hob) h1.pair hp1
  have e := pair_unique (filledBook_rel h.rel hob) h2.pair hp2
  obtain rfl : dir' = dir := by cases dir <;> cases dir' <;> simp_all [Dir.opposite]
  have e1 : sumAmount F1 = out1 := Option.some.inj ho1
  have e2 : sumAmount F2 = out2 := Option.some.inj ho2
  rw [← e1, ← e2]
  have hrange := sweepTicks_range h.rel (ob := ob) (dir := dir') (bound := r1.target.getD (defaultBound dir'))
  have hsort := sweepTicks_sorted h.rel.ticksSorted (ob := ob) (dir := dir') (bound := r1.target.getD (defaultBound dir'))
  have hb := h2.run.sweep
  rw [← ht] at hb
  exact Sweep.mono hrange hsort h1.run.sweep hb hle

/-- The levels that remain after a swap. -/
theorem levels_after {ch : Chain} {w w' : World} (hw : Reachable ch w) {quote base : Denom} (hd : denoms w.store = .ok (quote, base))
    {r : SwapReq} {time : Nat} {resp : Response} (hs : step ch w (r.op time) = .ok (w', resp)) {side : Dir} (hp : r.pair quote base side)
    {out : Nat} (ho : resp.data = some out) {levels : List (Int × Nat)} (hl : r.Levels w.store side levels) {r2 : SwapReq}
    (ht : r2.target = r.target) : r2.Levels w'.store side (dropUnits levels out) ∧ out ≤ (levels.map Prod.snd).sum := by
  have hbest := C20_best_price_first hw hd hs hp
  obtain ⟨out', ho', hsum, hle, -⟩ := C24_swap_conservation hw hd hs hp
  rw [ho] at ho'
  obtain rfl := Option.some.inj ho'
  have hwt : ∀ t, taken w.store w'.store t side ≠ 0 → (t, tickLiquidity w.store t side) ∈ levels := by
    intro t ht
    refine (hl.2 _ _).2 ⟨rfl, by unfold taken at ht; omega, ?_⟩
    by_contra hc
    exact ht ((C23_target_not_crossed hw hd hs hp t).1 hc)
  have hliq : ∀ x ∈ levels, x.2 = tickLiquidity w.store x.1 side ∧ x.2 ≠ 0 ∧ r.within side x.1 := fun x hx => (hl.2 x.1 x.2).1 hx
  have hnd : (levels.map Prod.fst).Nodup := by
    rw [List.Nodup, List.pairwise_map]
    refine hl.1.imp ?_
    intro a b hab he
    cases side <;> simp only [Better] at hab <;> omega
  have hsum' : (levels.map fun x => taken w.store w'.store x.1 side).sum = out := by
    rw [← hsum]
    unfold overTicks
    have e : (levels.map fun x => taken w.store w'.store x.1 side).sum =
        ∑ t ∈ (levels.map Prod.fst).toFinset, taken w.store w'.store t side := by
      rw [List.sum_toFinset _ hnd, List.map_map]; rfl
    rw [e]
    refine Finset.sum_subset ?_ ?_
    · intro t ht
      rw [List.mem_toFinset, List.mem_map] at ht
      obtain ⟨x, hx, rfl⟩ := ht
      exact Finset.mem_Icc.2 ((levels_valid hw hd hl).1 x hx)
    · intro t _ ht
      by_contra hc
      refine ht ?_
      rw [List.mem_toFinset, List.mem_map]
      exact ⟨_, hwt t hc, rfl⟩
  have hdrop := dropUnits_taken (levels := levels) (f := fun t => taken w.store w'.store t side)
    (fun x hx => by rw [(hliq x hx).1]; unfold taken; omega) (fun x hx => (hliq x hx).2.1)
    (by
      refine hl.1.imp_of_mem ?_
      intro a b ha _ hab hne
      have h1 := hbest a.1 b.1 hab hne
      have h2 := (hliq a ha).1
      unfold taken
      omega)
  rw [hsum'] at hdrop
  refine ⟨⟨?_, ?_⟩, ?_⟩
  · rw [← hdrop]
    refine List.Pairwise.filter _ ?_
    rw [List.pairwise_map]
    exact hl.1
  · intro t liq
    rw [← hdrop, List.mem_filter, List.mem_map]
    have hwi : r2.within side t ↔ r.within side t := by unfold SwapReq.within; rw [ht]
    rw [hwi]
    have hl' := hle t
    constructor
    · rintro ⟨⟨x, hx, he⟩, hnz⟩
      simp only [Prod.mk.injEq] at he
      obtain ⟨rfl, rfl⟩ := he
      obtain ⟨h1, h2, h3⟩ := hliq x hx
      refine ⟨?_, by simpa using hnz, h3⟩
      rw [h1]; unfold taken; omega
    · rintro ⟨rfl, h2, h3⟩
      refine ⟨⟨(t, tickLiquidity w.store t side), (hl.2 _ _).2 ⟨rfl, by omega, h3⟩, ?_⟩, by simpa using h2⟩
      simp only [Prod.mk.injEq, true_and]
      unfold taken; omega
  · rw [← hsum']
    refine List.sum_le_sum fun x hx => ?_
    rw [(hliq x hx).1]; unfold taken; omega

/-- C55: splitting a swap in two never pays more: two swaps in a row pay at most what one swap with the whole input pays. (For bids above
price 10^18 see C21.) -/
theorem C55_splitting {ch : Chain} {w w1 w2 w' : World} (hw : Reachable ch w) {quote base : Denom} (hd : denoms w.store = .ok (quote, base))
    {r1 r2 r : SwapReq} {time1 time2 time : Nat} {resp1 resp2 resp : Response} (hs1 : step ch w (r1.op time1) = .ok (w1, resp1))
    (hs2 : step ch w1 (r2.op time2) = .ok (w2, resp2)) (hs : step ch w (r.op time) = .ok (w', resp)) {side : Dir}
    (hp1 : r1.pair quote base side) (hp2 : r2.pair quote base side) (hp : r.pair quote base side) (ht1 : r1.target = r.target)
    (ht2 : r2.target = r.target) (ha : r1.tokenIn.amount + r2.tokenIn.amount = r.tokenIn.amount)
    (hf : side = .ask ∨ ∀ t, tickLiquidity w.store t side ≠ 0 → price t ≤ 10 ^ 18)
    {out1 out2 out : Nat} (ho1 : resp1.data = some out1) (ho2 : resp2.data = some out2) (ho : resp.data = some out) : out1 + out2 ≤ out := by
  have hw1 : Reachable ch w1 := by
    obtain ⟨n, hn⟩ := hw
    obtain ⟨b, h⟩ := hn.traced
    exact ⟨_, (Traced.ok h hs1).reachable⟩
  have hd1 : denoms w1.store = .ok (quote, base) := by
    have e : apply ch w (r1.op time1) = w1 := by unfold apply; rw [hs1]
    have := C39_denoms_fixed hw [r1.op time1]
    rw [show run ch w [r1.op time1] = apply ch w (r1.op time1) from rfl, e] at this
    rw [this, hd]
  obtain ⟨levels, hl⟩ := C48_levels_exist hw r side
  have hl1 : r1.Levels w.store side levels := by
    refine ⟨hl.1, fun t l => ?_⟩
    rw [hl.2]
    unfold SwapReq.within
    rw [ht1]
  obtain ⟨hl2, hle1⟩ := levels_after hw hd hs1 hp1 ho1 hl1 (r2 := r2) (ht2.trans ht1.symm)
  have hfl : FinePrices side levels := hf.imp id fun h x hx => h x.1 (by
    obtain ⟨h1, h2, -⟩ := (hl.2 x.1 x.2).1 hx
    rw [← h1]; exact h2)
  have hfl2 : FinePrices side (dropUnits levels out1) := hf.imp id fun h x hx => h x.1 (by
    obtain ⟨h1, h2, -⟩ := (hl2.2 x.1 x.2).1 hx
    obtain ⟨-, -, -, hle, -⟩ := C24_swap_conservation hw hd hs1 hp1
    have := hle x.1
    omega)
  obtain ⟨-, hle2⟩ := levels_after hw1 hd1 hs2 hp2 ho2 hl2 (r2 := r2) rfl
  have c1 := (C52_largest_affordable hw hd hs1 hp1 ho1 hl1 hfl hle1).1 (le_refl _)
  have c2 := (C52_largest_affordable hw1 hd1 hs2 hp2 ho2 hl2 hfl2 hle2).1 (le_refl _)
  have c3 := costOf_add (levels_valid hw hd hl).1 hfl out1 out2
  rw [dropUnits_sum] at hle2
  exact (C52_largest_affordable hw hd hs hp ho hl hfl (by omega)).2 (by omega)


/-! ### The hypotheses are met by the demo book -/

/-- Selling base on the demo book (bids: 40000 at price 1 and 500000 at price 0.5): in two parts 70000 + 99999, at once 170000. -/
def Demo.part1 : SwapReq := ⟨"zed", ⟨"b", 100001⟩, "q", 1, 0, none⟩
def Demo.part2 : SwapReq := ⟨"yan", ⟨"b", 199999⟩, "q", 1, 0, none⟩

example : ((respOf Demo.ch Demo.after (Demo.part1.op 10)).map Response.data,
    (respOf Demo.ch (apply Demo.ch Demo.after (Demo.part1.op 10)) (Demo.part2.op 10)).map Response.data,
    (respOf Demo.ch Demo.after (Demo.sale.op 10)).map Response.data) = (some (some 70000), some (some 99999), some (some 170000)) := by
  decide +kernel
example : Demo.part1.tokenIn.amount + Demo.part2.tokenIn.amount = Demo.sale.tokenIn.amount ∧ Demo.part1.target = Demo.sale.target := ⟨rfl, rfl⟩

/-- The price hypothesis of C52 and C55 for bids holds at all ticks up to 162000000. -/
theorem fine_of_le {t : Int} (hv : ValidTick t) (h : t ≤ 162000000) : price t ≤ 10 ^ 18 := by
  obtain ⟨h0, h1⟩ := validTick_iff.1 hv
  have e : price 162000000 = 10 ^ 18 := by unfold price; norm_num
  rcases eq_or_lt_of_le h with rfl | hlt
  · exact le_of_eq e
  · rw [← e]; exact le_of_lt (spec_price_strictMono h0 (by unfold MAX_TICK; norm_num) hlt)

/-- C52: what the levels of the demo book cost. -/
example : costOf .ask [(0, 40000), (5000000, 10)] 40002 = 40012 := by
  have h1 : charge .ask 40000 0 = 40000 := by
    unfold charge value price; norm_num
  have h2 : charge .ask 2 5000000 = 12 := by
    unfold charge value price; norm_num
  simp [costOf, h1, h2]

/-- C54: there and back on the demo book: 60 base are sold for 60 quote, which buy 59 base. -/
example : ((respOf Demo.ch Demo.after (Demo.sell "zed" 60 1)).map Response.data,
    (respOf Demo.ch (apply Demo.ch Demo.after (Demo.sell "zed" 60 1)) (Demo.buy "zed" 60 1)).map Response.data) =
    (some (some 60), some (some 59)) := by decide +kernel

/-- C54: the demo book is not crossed. -/
example : Uncrossed Demo.after.store := by
  obtain ⟨ob, hob, h1, h2, -⟩ := C25_pointers_sound Demo.after_reachable
  have e : (orderbookState Demo.after.store).toOption.map (fun o => (o.nextBidTick, o.nextAskTick)) = some (0, 10) := by decide +kernel
  rw [hob] at e
  simp only [Except.toOption, Option.map_some, Option.some.injEq, Prod.mk.injEq] at e
  intro tb ta hb ha
  have := h1 tb hb
  have := h2 ta ha
  omega

/-- C53: the allowance of one unit per tick is needed. With one unit at price 0.1 and nine at price 0.11, an input of 1 buys, best price
first, one unit (charge 1), although the nine units at the worse price also cost 1. -/
example : matchLevels .ask [(-9000000, 1), (-8900000, 9)] 1 = some ([(-9000000, 1)], 0, 0) ∧ charge .ask 9 (-8900000) = 1 := by
  have p1 : price (-9000000) = 1 / 10 := by unfold price; norm_num
  have p2 : price (-8900000) = 11 / 100 := by unfold price; norm_num
  have c1 : charge .ask 1 (-9000000) = 1 := by
    unfold charge value; simp only [p1]; rw [Nat.ceil_eq_iff (by norm_num)]; norm_num
  have c2 : charge .ask 9 (-8900000) = 1 := by
    unfold charge value; simp only [p2]; rw [Nat.ceil_eq_iff (by norm_num)]; norm_num
  refine ⟨?_, c2⟩
  have f1 : ⌊value .bid 1 (-9000000)⌋₊ = 10 := by unfold value; simp only [p1]; norm_num
  have f2 : ⌊value .bid 0 (-8900000)⌋₊ = 0 := by unfold value; simp only [p2]; norm_num
  simp [matchLevels, Dir.opposite, f1, c1, f2]

end OB
