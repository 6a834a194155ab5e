import Verif.SpecCapacity
import Verif.Props.WaneQuote
import Verif.Props.QuerySays
/- C106: how much a side of the book can take. -/
namespace OB
open Spec

/-- What is charged for what an input can pay for is worth it, at any price. -/
theorem charge_worth {side : Dir} {q : Nat} {t : Int} (hv : ValidTick t) :
    ((⌊value side.opposite q t⌋₊ : ℕ) : ℚ) ≤ value side.opposite (charge side ⌊value side.opposite q t⌋₊ t) t := by
  obtain ⟨h0, h1⟩ := validTick_iff.1 hv
  have hp := spec_price_pos h0 h1
  cases side with
  | ask =>
    have h := ((C21_charge_fair .ask ⌊value Dir.ask.opposite q t⌋₊ t hv).2.1 (.inl rfl)).2
    have h2 := value_mul_opposite (side := .ask) hv (charge .ask ⌊value Dir.ask.opposite q t⌋₊ t)
    have h3 := value_one_pos (side := .ask) hv
    rw [value_linear] at h
    by_contra hc
    rw [not_le] at hc
    have := mul_lt_mul_of_pos_right hc h3
    linarith
  | bid =>
    have h := charge_exact ⟨h0, h1⟩ (f := ⌊value .ask q t⌋₊) (.inr ⟨q, (valDown_spec h0 h1).symm⟩)
    rw [charge_eq (side := .bid) h0 h1] at h
    have h2 := priceNat_spec h0 h1
    have h3 : ((⌊value .ask q t⌋₊ * (D * D) : ℕ) : ℚ) ≤ ((priceNat t * (charge .bid ⌊value .ask q t⌋₊ t * D) : ℕ) : ℚ) := by exact_mod_cast h
    push_cast at h3
    have hD : (0 : ℚ) < D := by exact_mod_cast D_pos
    show ((⌊value .ask q t⌋₊ : ℕ) : ℚ) ≤ charge .bid ⌊value .ask q t⌋₊ t * price t
    rw [h2] at h3
    have : ((⌊value .ask q t⌋₊ : ℕ) : ℚ) * (D * D) ≤ charge .bid ⌊value .ask q t⌋₊ t * price t * (D * D) := by
      refine h3.trans (le_of_eq ?_)
      have e : (D : ℚ) = 10 ^ 18 := by norm_num [D]
      rw [e]
      ring
    exact le_of_mul_le_mul_right this (by positivity)

/-- What is left after buying all an input can pay for buys no unit more. -/
theorem rest_worthless {side : Dir} {q : Nat} {t : Int} (hv : ValidTick t) :
    value side.opposite (q - charge side ⌊value side.opposite q t⌋₊ t) t < 1 := by
  have h1 := charge_worth (side := side) (q := q) hv
  have h2 := charge_le_input (side := side) (q := q) hv (le_refl _)
  have h3 := Nat.lt_floor_add_one (value side.opposite q t)
  generalize charge side ⌊value side.opposite q t⌋₊ t = c at *
  rw [value_linear side.opposite c] at h1
  rw [value_linear side.opposite (q - c), Nat.cast_sub h2, sub_mul, ← value_linear side.opposite q]
  linarith

/-- An input that cannot buy a whole level costs no more than it. -/
theorem input_le_charge {side : Dir} {q l : Nat} {t : Int} (hv : ValidTick t) (h : ⌊value side.opposite q t⌋₊ < l) : q ≤ charge side l t := by
  have h1 := (Nat.floor_lt' (by omega)).1 h
  have h2 := value_mul_opposite (side := side) hv q
  have h3 := value_one_pos (side := side) hv
  have h4 := (C21_charge_fair side l t hv).1
  have h5 : (q : ℚ) < value side l t := by
    rw [value_linear side l, ← h2]
    exact mul_lt_mul_of_pos_right h1 h3
  have h6 : (q : ℚ) < charge side l t + 1 := by
    have : (1 : ℚ) / 10 ^ 18 ≤ 1 := by norm_num
    linarith
  have : q < charge side l t + 1 := by exact_mod_cast h6
  omega

theorem opposite_mono {side : Dir} {t t' : Int} (h : ValidTick t) (h' : ValidTick t') (hb : Better side t t') (q : Nat) :
    value side.opposite q t' ≤ value side.opposite q t := by
  have h1 := value_one_mono (side := side.opposite) h' h (by
    cases side <;> simp only [Better, Dir.opposite] at hb ⊢ <;> omega)
  rw [value_linear, value_linear side.opposite q t]
  exact mul_le_mul_of_nonneg_left h1 (by positivity)

/-- The matching engine either empties the side, at the cost of its capacity, or had no more than the capacity and used it up. -/
theorem match_capacity {side : Dir} {levels : List (Int × Nat)} (hs : levels.Pairwise (fun x y => Better side x.1 y.1))
    (hv : ∀ x ∈ levels, ValidTick x.1) (hp : ∀ x ∈ levels, x.2 ≠ 0) {q : Nat} {F : List (Int × Nat)} {left dust : Nat}
    (hm : matchLevels side levels q = some (F, left, dust)) :
    (F = levels ∧ dust = 0 ∧ left + capacity side levels = q) ∨
    (q ≤ capacity side levels ∧ levels ≠ [] ∧ (left = 0 ∨ ∃ last, F.getLast? = some last ∧ value side.opposite left last.1 < 1)) := by
  induction levels generalizing q F left dust with
  | nil =>
    simp only [matchLevels, Option.some.injEq, Prod.mk.injEq] at hm
    obtain ⟨rfl, rfl, rfl⟩ := hm
    exact .inl ⟨rfl, rfl, by simp [capacity]⟩
  | cons x rest ih =>
    obtain ⟨t, l⟩ := x
    have hvt : ValidTick t := hv (t, l) (by simp)
    have hl : l ≠ 0 := hp (t, l) (by simp)
    have hcap : capacity side ((t, l) :: rest) = charge side l t + capacity side rest := by simp [capacity]
    rw [matchLevels] at hm
    simp only at hm
    split at hm
    · next h0 =>
      simp only [Option.some.injEq, Prod.mk.injEq] at hm
      obtain ⟨rfl, rfl, rfl⟩ := hm
      have := input_le_charge (side := side) (q := q) (l := l) hvt (by omega)
      exact .inr ⟨by omega, by simp, .inl rfl⟩
    · next h0 =>
      split at hm
      · cases hm
      · rw [Option.map_eq_some_iff] at hm
        obtain ⟨⟨F', left', dust'⟩, hm', e⟩ := hm
        simp only [Prod.mk.injEq] at e
        obtain ⟨rfl, rfl, rfl⟩ := e
        rcases Nat.lt_or_ge ⌊value side.opposite q t⌋₊ l with hlt | hge
        · rw [Nat.min_eq_left hlt.le] at hm' ⊢
          have h1 := input_le_charge hvt hlt
          have h2 := rest_worthless (side := side) (q := q) hvt
          refine .inr ⟨by omega, by simp, ?_⟩
          cases rest with
          | nil =>
            simp only [matchLevels, Option.some.injEq, Prod.mk.injEq] at hm'
            obtain ⟨rfl, rfl, rfl⟩ := hm'
            exact .inr ⟨_, rfl, h2⟩
          | cons y rest =>
            obtain ⟨t', l'⟩ := y
            have hb : Better side t t' := (List.pairwise_cons.1 hs).1 (t', l') (by simp)
            have h3 := opposite_mono hvt (hv (t', l') (by simp)) hb (q - charge side ⌊value side.opposite q t⌋₊ t)
            have h4 : ⌊value side.opposite (q - charge side ⌊value side.opposite q t⌋₊ t : ℕ) t'⌋₊ = 0 := by
              rw [Nat.floor_eq_zero]; exact lt_of_le_of_lt h3 h2
            rw [matchLevels] at hm'
            simp only [h4, if_true, Option.some.injEq, Prod.mk.injEq] at hm'
            exact .inl hm'.2.1.symm
        · rw [Nat.min_eq_right hge] at hm' ⊢
          have h1 := charge_le_input hvt hge
          rcases ih (List.pairwise_cons.1 hs).2 (fun x hx => hv x (by simp [hx])) (fun x hx => hp x (by simp [hx])) hm' with
            ⟨rfl, rfl, h⟩ | ⟨h2, h3, h4⟩
          · exact .inl ⟨rfl, rfl, by omega⟩
          · refine .inr ⟨by omega, by simp, ?_⟩
            rcases h4 with h4 | ⟨last, h4, h5⟩
            · exact .inl h4
            · refine .inr ⟨last, ?_, h5⟩
              cases F' with
              | nil => cases h4
              | cons y F' => rw [List.getLast?_cons_cons]; exact h4

/-- The engine's input is used up exactly if the side is deep enough for it. -/
theorem usedUp_enough {side : Dir} {levels : List (Int × Nat)} (hs : levels.Pairwise (fun x y => Better side x.1 y.1))
    (hv : ∀ x ∈ levels, ValidTick x.1) (hp : ∀ x ∈ levels, x.2 ≠ 0) {q : Nat} {F : List (Int × Nat)} {left dust : Nat}
    (hm : matchLevels side levels q = some (F, left, dust)) : usedUp side F left ↔ Enough side levels q := by
  unfold usedUp Enough
  rcases match_capacity hs hv hp hm with ⟨rfl, -, h⟩ | ⟨h1, h2, h3⟩
  · cases e : F.getLast? with
    | none =>
      have : F = [] := List.getLast?_eq_none_iff.1 e
      subst this
      simp only [capacity, List.map_nil, List.sum_nil] at h
      simp only; omega
    | some last =>
      have : q - capacity side F = left := by omega
      simp only [this]
  · cases e : levels.getLast? with
    | none => exact absurd (List.getLast?_eq_none_iff.1 e) h2
    | some worst =>
      have : q - capacity side levels = 0 := by omega
      simp only [this]
      have h0 : ∀ t, value side.opposite 0 t < 1 := by intro t; cases side <;> simp [value, Dir.opposite]
      refine ⟨fun _ => h0 _, fun _ => ?_⟩
      rcases h3 with rfl | ⟨last, h3, h4⟩
      · cases F.getLast? with
        | none => rfl
        | some last => exact h0 _
      · rw [h3]; exact h4

/-- The side stays deep enough if the input shrinks. -/
theorem Enough.mono {side : Dir} {levels : List (Int × Nat)} (hv : ∀ x ∈ levels, ValidTick x.1) {q q' : Nat}
    (h : Enough side levels q) (hle : q' ≤ q) : Enough side levels q' := by
  unfold Enough at *
  cases e : levels.getLast? with
  | none => simp only [e] at h ⊢; omega
  | some worst =>
    simp only [e] at h ⊢
    refine lt_of_le_of_lt ?_ h
    rw [value_linear, value_linear side.opposite (q - capacity side levels)]
    have : ((q' - capacity side levels : ℕ) : ℚ) ≤ ((q - capacity side levels : ℕ) : ℚ) := by exact_mod_cast Nat.sub_le_sub_right hle _
    exact mul_le_mul_of_nonneg_right this (value_one_pos (hv worst (List.mem_of_getLast? e))).le

/-- C106: the rejections of a swap, with the depth of the side in the place of the matching engine's leftover. -/
theorem C106_errors {ch : Chain} {w : World} (hw : Reachable ch w) (hn : w.HasRoom) {ob : Orderbook} (hob : orderbookState w.store = .ok ob)
    (r : SwapReq) {levels : List (Int × Nat)} (hl : r.Levels w.store (r.side ob.baseDenom) levels) (time : Nat) (e : Err) :
    let side := r.side ob.baseDenom
    let result := matchLevels side levels r.tokenIn.amount
    step ch w (r.op time) = .error e ↔
      Fails [(r.fits, .decode), (r.sender ≠ ch.contract, .std),
        (r.tokenIn.amount ≠ 0 ∧ r.tokenIn.amount ≤ w.bank r.sender r.tokenIn.denom, .bank),
        (isActive w.store = true, .inactive), (r.fee = 0, .invalidSwap (.fee r.fee)),
        (r.tokenIn.denom ≠ r.outDenom, .invalidSwap .sameDenoms),
        (r.pair ob.quoteDenom ob.baseDenom side, .invalidPair r.tokenIn.denom r.outDenom), (ch.addrValid r.sender = true, .std),
        (r.targetOk ob side, .invalidTickId (r.target.getD 0)),
        (matchError side levels r.tokenIn.amount = none, (matchError side levels r.tokenIn.amount).getD .std),
        (r.mustFill side → Enough side levels r.tokenIn.amount, .insufficientLiquidity),
        (∀ F left dust, result = some (F, left, dust) → r.minOut ≤ (F.map Prod.snd).sum, .invalidSwap (.minOut r.minOut (outputOf result))),
        (∀ F left dust, result = some (F, left, dust) → (F.map Prod.snd).sum ≠ 0, .replyError 5)] e := by
  intro side result
  refine (C50_swap_errors hw hn hob r hl time e).trans ?_
  have hd : denoms w.store = .ok (ob.quoteDenom, ob.baseDenom) := by
    unfold orderbookState at hob
    split at hob
    · simp at hob
    · rename_i hx; rw [denoms_of hx]; simp at hob; rw [hob]
  obtain ⟨h1, h2⟩ := levels_valid hw hd hl
  refine fails_congr Iff.rfl fun _ => fails_congr Iff.rfl fun _ => fails_congr Iff.rfl fun _ => fails_congr Iff.rfl fun _ =>
    fails_congr Iff.rfl fun _ => fails_congr Iff.rfl fun _ => fails_congr Iff.rfl fun _ => fails_congr Iff.rfl fun _ =>
    fails_congr Iff.rfl fun _ => fails_congr Iff.rfl fun hm => fails_congr ?_ fun _ => Iff.rfl
  obtain ⟨⟨F, left, dust⟩, hm⟩ := matchError_none.1 hm
  have key := usedUp_enough hl.1 h1 h2 hm
  constructor
  · exact fun h g => key.1 (h g F left dust hm)
  · intro h g F' left' dust' hm'
    have : some (F', left', dust') = some (F, left, dust) := hm'.symm.trans hm
    obtain ⟨rfl, rfl, rfl⟩ := by simpa using this
    exact key.2 (h g)

/-- A swap that is not fit for its pair takes no levels. -/
theorem side_of_pair {r : SwapReq} {quote base : Denom} {side : Dir} (hne : quote ≠ base) (hp : r.pair quote base side) : r.side base = side := by
  unfold SwapReq.side
  obtain ⟨h1, h2⟩ := hp
  cases side
  · rw [if_pos (by exact h1)]
  · rw [if_neg]
    intro h
    exact hne (h1.symm.trans h)

theorem matchError_other (side : Dir) (levels : List (Int × Nat)) (q : Nat) (e : Err) (h : matchError side levels q = some e) :
    e ≠ .insufficientLiquidity := by
  induction levels generalizing q with
  | nil => cases h
  | cons x rest ih =>
    obtain ⟨t, l⟩ := x
    unfold matchError at h
    simp only at h
    split at h
    · cases h
    · split at h
      · cases h; simp
      · split at h
        · cases h; simp
        · exact ih _ h

/-- C106: a swap that is refused for lack of liquidity has to be filled completely, and the side is not deep enough for it. -/
theorem C106_refused {ch : Chain} {w : World} (hw : Reachable ch w) (hn : w.HasRoom) {ob : Orderbook} (hob : orderbookState w.store = .ok ob)
    (r : SwapReq) {levels : List (Int × Nat)} (hl : r.Levels w.store (r.side ob.baseDenom) levels) (time : Nat)
    (h : step ch w (r.op time) = .error .insufficientLiquidity) :
    r.mustFill (r.side ob.baseDenom) ∧ ¬ Enough (r.side ob.baseDenom) levels r.tokenIn.amount := by
  have := (C106_errors hw hn hob r hl time _).1 h
  simp only [Fails] at this
  have hme := matchError_other (r.side ob.baseDenom) levels
  cases em : matchError (r.side ob.baseDenom) levels r.tokenIn.amount with
  | none =>
    rw [em] at this
    simp at this
    obtain ⟨-, -, -, -, -, -, -, -, -, h1, h2⟩ := this
    exact ⟨h1, h2⟩
  | some e =>
    have := hme _ _ em
    simp_all

theorem state_denoms {s : Store} {ob : Orderbook} (hob : orderbookState s = .ok ob) : denoms s = .ok (ob.quoteDenom, ob.baseDenom) := by
  unfold orderbookState at hob
  split at hob
  · simp at hob
  · rename_i hx; rw [denoms_of hx]; simp at hob; rw [hob]

/-- C106: an accepted swap that has to be filled completely found the side deep enough for it. -/
theorem C106_accepted {ch : Chain} {w : World} (hw : Reachable ch w) (hn : w.HasRoom) {ob : Orderbook} (hob : orderbookState w.store = .ok ob)
    (r : SwapReq) {levels : List (Int × Nat)} (hl : r.Levels w.store (r.side ob.baseDenom) levels) (time : Nat) (h : Accepted ch w (r.op time))
    (hm : r.mustFill (r.side ob.baseDenom)) : Enough (r.side ob.baseDenom) levels r.tokenIn.amount := by
  obtain ⟨w', resp, h⟩ := h
  by_contra hc
  have key : ∀ (l l' : List (Prop × Err)) (c : Prop) (e : Err), ¬ c → ∃ e', Fails (l ++ (c, e) :: l') e' := by
    intro l l' c e hc
    induction l with
    | nil => exact ⟨e, .inl ⟨hc, rfl⟩⟩
    | cons x l ih =>
      obtain ⟨c', e'⟩ := x
      by_cases h' : c'
      · obtain ⟨e'', h''⟩ := ih
        exact ⟨e'', .inr ⟨h', h''⟩⟩
      · exact ⟨e', .inl ⟨h', rfl⟩⟩
  have hnot : ¬ (r.mustFill (r.side ob.baseDenom) → Enough (r.side ob.baseDenom) levels r.tokenIn.amount) := fun g => hc (g hm)
  obtain ⟨e, he⟩ := key [_, _, _, _, _, _, _, _, _, _] [_, _] _ .insufficientLiquidity hnot
  rw [(C106_errors hw hn hob r hl time e).2 he] at h
  cases h

/-- C106: what is too much stays too much: if a swap is refused for lack of liquidity, no larger one is accepted. -/
theorem C106_larger {ch : Chain} {w : World} (hw : Reachable ch w) (hn : w.HasRoom) {r r' : SwapReq} {time time' : Nat}
    (h : step ch w (r.op time) = .error .insufficientLiquidity) (hd : r'.tokenIn.denom = r.tokenIn.denom) (ht : r'.target = r.target)
    (ha : r.tokenIn.amount ≤ r'.tokenIn.amount) : ¬ Accepted ch w (r'.op time') := by
  intro hacc
  obtain ⟨n, hn'⟩ := id hw
  obtain ⟨b, htr⟩ := hn'.traced
  obtain ⟨ob, hob⟩ := has_state htr
  have hside : r'.side ob.baseDenom = r.side ob.baseDenom := by unfold SwapReq.side; rw [hd]
  obtain ⟨levels, hl⟩ := C48_levels_exist hw r (r.side ob.baseDenom)
  have hl' : r'.Levels w.store (r'.side ob.baseDenom) levels := by
    rw [hside]
    refine ⟨hl.1, fun t x => ?_⟩
    rw [hl.2]
    unfold SwapReq.within
    rw [ht]
  obtain ⟨h1, h2⟩ := C106_refused hw hn hob r hl time h
  have h3 := C106_accepted hw hn hob r' hl' time' hacc (by
    rw [hside]
    unfold SwapReq.mustFill at h1 ⊢
    rw [ht]; exact h1)
  rw [hside] at h3
  exact h2 (Enough.mono (levels_valid hw (state_denoms hob) hl).1 h3 ha)

theorem costOf_all (side : Dir) (levels : List (Int × Nat)) : costOf side levels (levels.map Prod.snd).sum = capacity side levels := by
  induction levels with
  | nil => rfl
  | cons x rest ih =>
    obtain ⟨t, l⟩ := x
    simp only [costOf, List.map_cons, List.sum_cons, capacity]
    rw [Nat.min_eq_right (by omega), Nat.add_sub_cancel_left, ih, capacity]

/-- C106: a swap buys everything within its reach exactly if it brings the capacity. -/
theorem C106_everything {ch : Chain} {w w' : World} (hw : Reachable ch w) {quote base : Denom}
    (hd : denoms w.store = .ok (quote, base)) {r : SwapReq} {time : Nat} {resp : Response}
    (hs : step ch w (r.op time) = .ok (w', resp)) {side : Dir} (hp : r.pair quote base side) {out : Nat} (ho : resp.data = some out)
    {levels : List (Int × Nat)} (hl : r.Levels w.store side levels) (hf : FinePrices side levels) :
    out ≤ (levels.map Prod.snd).sum ∧ (out = (levels.map Prod.snd).sum ↔ capacity side levels ≤ r.tokenIn.amount) := by
  have h1 := C52_largest_affordable hw hd hs hp ho hl hf (le_refl _)
  rw [costOf_all] at h1
  have h2 : out ≤ (levels.map Prod.snd).sum := by
    obtain ⟨F, left, dust, hm, rfl⟩ := swap_match hw hd hs hp ho hl
    clear h1 hl hf hs ho
    generalize r.tokenIn.amount = q at hm
    induction levels generalizing q F left dust with
    | nil =>
      simp only [matchLevels, Option.some.injEq, Prod.mk.injEq] at hm
      obtain ⟨rfl, -, -⟩ := hm
      simp
    | cons x rest ih =>
      obtain ⟨t, l⟩ := x
      rw [matchLevels] at hm
      simp only at hm
      split at hm
      · simp only [Option.some.injEq, Prod.mk.injEq] at hm
        obtain ⟨rfl, -, -⟩ := hm
        simp
      · split at hm
        · cases hm
        · rw [Option.map_eq_some_iff] at hm
          obtain ⟨⟨F', left', dust'⟩, hm', e⟩ := hm
          simp only [Prod.mk.injEq] at e
          obtain ⟨rfl, rfl, rfl⟩ := e
          have := ih _ _ _ _ hm'
          simp only [List.map_cons, List.sum_cons]
          have := Nat.min_le_right ⌊value side.opposite q t⌋₊ l
          omega
  exact ⟨h2, by rw [← h1]; omega⟩

/-- What the fuzz tests take for the largest market order is at most the capacity and misses it by at most one unit for each level. -/
theorem max_capacity {side : Dir} {levels : List (Int × Nat)} (hv : ∀ x ∈ levels, ValidTick x.1) :
    maxMarketAmount side levels ≤ capacity side levels ∧ capacity side levels ≤ maxMarketAmount side levels + levels.length := by
  induction levels with
  | nil => simp [maxMarketAmount, capacity]
  | cons x rest ih =>
    obtain ⟨t, l⟩ := x
    obtain ⟨h1, h2⟩ := ih fun x hx => hv x (by simp [hx])
    have hvt := hv (t, l) (by simp)
    obtain ⟨g1, -, g3⟩ := C21_charge_fair side l t hvt
    have hnn : 0 ≤ value side l t := by
      rw [value_linear]
      exact mul_nonneg (by positivity) (value_one_pos hvt).le
    have a1 : ⌊value side l t⌋₊ ≤ charge side l t := by
      have := Nat.floor_le hnn
      have e : (1 : ℚ) / 10 ^ 18 ≤ 1 := by norm_num
      have : ((⌊value side l t⌋₊ : ℕ) : ℚ) < charge side l t + 1 := by linarith
      have : ⌊value side l t⌋₊ < charge side l t + 1 := by exact_mod_cast this
      omega
    have a2 : charge side l t ≤ ⌊value side l t⌋₊ + 1 := by
      have := Nat.lt_floor_add_one (value side l t)
      have : (charge side l t : ℚ) < (⌊value side l t⌋₊ + 1 : ℕ) + 1 := by push_cast; linarith
      have : charge side l t < ⌊value side l t⌋₊ + 1 + 1 := by exact_mod_cast this
      omega
    simp only [maxMarketAmount, capacity, List.map_cons, List.sum_cons, List.length_cons] at *
    omega

/-- C106: the fuzz tests' bound is sound: a swap of at most `get_max_market_amount` is never refused for lack of liquidity; and it is tight up to one unit
for each level: one of `get_max_market_amount`, a unit for each level, and what buys a unit at the worst level, is never accepted. -/
theorem C106_max_market {ch : Chain} {w : World} (hw : Reachable ch w) (hn : w.HasRoom) {ob : Orderbook} (hob : orderbookState w.store = .ok ob)
    (r : SwapReq) {levels : List (Int × Nat)} (hl : r.Levels w.store (r.side ob.baseDenom) levels) (time : Nat) :
    (levels ≠ [] → r.tokenIn.amount ≤ maxMarketAmount (r.side ob.baseDenom) levels → step ch w (r.op time) ≠ .error .insufficientLiquidity) ∧
    ∀ unit worst, r.mustFill (r.side ob.baseDenom) → levels.getLast? = some worst → 1 ≤ value (r.side ob.baseDenom).opposite unit worst.1 →
      maxMarketAmount (r.side ob.baseDenom) levels + levels.length + unit ≤ r.tokenIn.amount → ¬ Accepted ch w (r.op time) := by
  obtain ⟨hv, -⟩ := levels_valid hw (state_denoms hob) hl
  obtain ⟨m1, m2⟩ := max_capacity (side := r.side ob.baseDenom) hv
  constructor
  · intro hne ha h
    refine (C106_refused hw hn hob r hl time h).2 ?_
    unfold Enough
    cases e : levels.getLast? with
    | none => exact absurd (List.getLast?_eq_none_iff.1 e) hne
    | some worst =>
      have : r.tokenIn.amount - capacity (r.side ob.baseDenom) levels = 0 := by omega
      simp only [this]
      cases r.side ob.baseDenom <;> simp [value, Dir.opposite]
  · intro unit worst hm hlast hu ha hacc
    have h := C106_accepted hw hn hob r hl time hacc hm
    unfold Enough at h
    simp only [hlast] at h
    have hle : (unit : ℚ) ≤ ((r.tokenIn.amount - capacity (r.side ob.baseDenom) levels : ℕ) : ℚ) := by
      exact_mod_cast (by omega : unit ≤ r.tokenIn.amount - capacity (r.side ob.baseDenom) levels)
    rw [value_linear] at h hu
    have := mul_le_mul_of_nonneg_right hle (value_one_pos (side := (r.side ob.baseDenom).opposite) (hv worst (List.mem_of_getLast? hlast))).le
    linarith

/-- C106: a quote is answered only for an input the side is deep enough for, and refused for lack of liquidity only if it is not. -/
theorem C106_quote {ch : Chain} {n : Nat} {w : World} {b : Book} (h : Traced ch n w b) {ob : Orderbook} (hob : orderbookState w.store = .ok ob)
    {depth : Dir → List (Int × Nat)} (hl : ∀ d, Depth w.store d (depth d)) (c : Coin) (out : Denom) (fee : Nat) (hfit : c.amount < 2 ^ 128) :
    let side := if c.denom = ob.baseDenom then Dir.bid else .ask
    (∀ a, queryResult w.store (.calcOutAmountGivenIn c out fee) = .ok a → Enough side (depth side) c.amount) ∧
    (queryResult w.store (.calcOutAmountGivenIn c out fee) = .error .insufficientLiquidity → ¬ Enough side (depth side) c.amount) := by
  intro side
  have hw : Reachable ch w := ⟨_, h.reachable⟩
  have hrq := C100_refused h hob hl (q := .calcOutAmountGivenIn c out fee) hfit
  obtain ⟨h1, h2⟩ := levels_valid hw (state_denoms hob) (r := ⟨"", c, out, 0, fee, none⟩) (side := side) (levels := depth side)
    ⟨(hl side).1, fun t x => by rw [(hl side).2]; exact ⟨fun g => ⟨g.1, g.2, by intro _ e; cases e⟩, fun g => ⟨g.1, g.2.1⟩⟩⟩
  have key : ∀ F left dust, matchLevels side (depth side) c.amount = some (F, left, dust) → (usedUp side F left ↔ Enough side (depth side) c.amount) :=
    fun F left dust hm => usedUp_enough (hl side).1 h1 h2 hm
  have hnone : matchError side (depth side) c.amount = none → ∃ F left dust, matchLevels side (depth side) c.amount = some (F, left, dust) := by
    intro hm
    obtain ⟨⟨F, left, dust⟩, hm⟩ := matchError_none.1 hm
    exact ⟨F, left, dust, hm⟩
  constructor
  · intro a ha
    by_contra hc
    have hno : ∀ e, ¬ Fails (queryChecks w.store ob b depth (.calcOutAmountGivenIn c out fee)) e := by
      intro e he
      have := (hrq e).2 he
      rw [ha] at this
      cases this
    simp only [queryChecks, quoteChecks, Fails] at hno
    by_cases c1 : fee = 0
    · by_cases c2 : (c.denom = ob.baseDenom ∧ out = ob.quoteDenom) ∨ (c.denom = ob.quoteDenom ∧ out = ob.baseDenom)
      · by_cases c3 : c.amount ≠ 0
        · by_cases c4 : matchError side (depth side) c.amount = none
          · obtain ⟨F, left, dust, hm⟩ := hnone c4
            refine hno .insufficientLiquidity (.inr ⟨c1, .inr ⟨c2, .inr ⟨c3, .inr ⟨c4, .inl ⟨?_, rfl⟩⟩⟩⟩⟩)
            intro g
            exact hc ((key F left dust hm).1 (g F left dust hm))
          · exact hno _ (.inr ⟨c1, .inr ⟨c2, .inr ⟨c3, .inl ⟨c4, rfl⟩⟩⟩⟩)
        · exact hno _ (.inr ⟨c1, .inr ⟨c2, .inl ⟨c3, rfl⟩⟩⟩)
      · exact hno _ (.inr ⟨c1, .inl ⟨c2, rfl⟩⟩)
    · exact hno _ (.inl ⟨c1, rfl⟩)
  · intro he hen
    have := (hrq _).1 he
    simp only [queryChecks, quoteChecks, Fails] at this
    rcases this with ⟨-, e⟩ | ⟨-, ⟨-, e⟩ | ⟨-, ⟨-, e⟩ | ⟨-, ⟨c4, e⟩ | ⟨c4, ⟨c5, -⟩ | ⟨-, ⟨-, e⟩ | e⟩⟩⟩⟩⟩
    · cases e
    · cases e
    · cases e
    · have hne := matchError_other side (depth side) c.amount
      cases em : matchError side (depth side) c.amount with
      | none => exact c4 em
      | some e' =>
        have e2 : Err.insufficientLiquidity = e' := by
          have : Err.insufficientLiquidity = (matchError side (depth side) c.amount).getD .std := e
          rw [em] at this
          exact this
        exact hne e' em e2.symm
    · obtain ⟨F, left, dust, hm⟩ := hnone c4
      refine c5 fun F' left' dust' hm' => ?_
      exact (key F' left' dust' hm').2 hen
    · cases e
    · exact e.2

/-- The levels of the demo book's bids. -/
def Demo.bidLevels : List (Int × Nat) := [(0, 40000), (-5000000, 500000)]

/-- Non-vacuity: the demo book's bids (40000 at price 1, 500000 at price 0.5) can take 1040000 base, and one more, which buys no unit at price 0.5, but not
two more. -/
theorem Demo.bid_capacity : capacity .bid Demo.bidLevels = 1040000 ∧ Enough .bid Demo.bidLevels 1040001 ∧ ¬ Enough .bid Demo.bidLevels 1040002 ∧
    maxMarketAmount .bid Demo.bidLevels = 1040000 := by
  have p0 : price 0 = 1 := by unfold price; norm_num
  have p1 : price (-5000000) = 1 / 2 := by unfold price; norm_num
  have c0 : charge .bid 40000 0 = 40000 := by
    unfold charge value; simp only; rw [p0]; norm_num
  have c1 : charge .bid 500000 (-5000000) = 1000000 := by
    unfold charge value; simp only; rw [p1]; norm_num
  have v0 : ⌊value .bid 40000 0⌋₊ = 40000 := by unfold value; simp only; rw [p0]; norm_num
  have v1 : ⌊value .bid 500000 (-5000000)⌋₊ = 1000000 := by unfold value; simp only; rw [p1]; norm_num
  have hc : capacity .bid Demo.bidLevels = 1040000 := by simp [capacity, Demo.bidLevels, c0, c1]
  have hlast : Demo.bidLevels.getLast? = some (-5000000, 500000) := rfl
  refine ⟨hc, ?_, ?_, ?_⟩
  · unfold Enough
    simp only [hlast, hc]
    unfold value; simp only [Dir.opposite]; rw [p1]; norm_num
  · unfold Enough
    simp only [hlast, hc]
    unfold value; simp only [Dir.opposite]; rw [p1]; norm_num
  · simp [maxMarketAmount, Demo.bidLevels, v0, v1]
example : ([1040000, 1040001, 1040002].map fun n =>
    match step Demo.ch Demo.after (Demo.sell "zed" n 1) with | .error e => some e | .ok _ => none) = [none, none, some .insufficientLiquidity] := by
  decide +kernel
example : (tickLiquidity Demo.after.store 0 .bid, tickLiquidity Demo.after.store (-5000000) .bid, Demo.after.store.ticks.keys) =
    (40000, 500000, [-5000000, 0, 10]) := by decide +kernel

example : ([1039999, 1040000, 1040001].map fun n => match step Demo.ch Demo.after (Demo.sell "zed" n 1) with | .error _ => none | .ok x => x.2.data) =
    [some 539999, some 540000, some 540000] := by decide +kernel

end OB
