import Verif.Props.Errors
import Verif.Props.Query
/- C60: what a quote answers. -/
namespace OB
open Spec

theorem usedUp_iff {dir : Dir} {L : Int → Nat} {ts : List Int} {q : Nat} {F : List Fill} {left dust lp : Nat}
    (hsw : Sweep dir L ts q D F left dust lp) (hrange : ∀ t ∈ ts, MIN_TICK ≤ t ∧ t ≤ MAX_TICK) :
    usedUp dir.opposite (fillPairs F) left ↔ valDown dir left lp = 0 := by
  unfold usedUp
  cases hF : F.getLast? with
  | none =>
    have : F = [] := List.getLast?_eq_none_iff.1 hF
    subst this
    have e0 : (fillPairs ([] : List Fill)).getLast? = none := rfl
    rw [e0]
    simp only
    rcases hsw.last_price.1 rfl with rfl | rfl
    · simp [valDown_zero]
    · rw [valDown_one]
  | some f =>
    rw [show (fillPairs F).getLast? = some (f.tick, f.amount) from fillPairs_last.2 ⟨f, hF, rfl⟩]
    simp only
    have hft := hrange _ (hsw.sublist.subset (List.mem_map_of_mem (List.mem_of_getLast? hF)))
    rw [Dir.opposite_opposite, ← Nat.floor_eq_zero, ← valDown_spec hft.1 hft.2]
    rcases hsw.last_price.2 f hF with rfl | h
    · rw [valDown_zero, valDown_zero]
    · rw [h]

theorem answer_quote (s : Store) (c : Coin) (out : Denom) (fee : Nat) :
    answer s (.calcOutAmountGivenIn c out fee) = (calcOutAmountGivenIn s c out fee).toOption.map Answer.coin := by
  unfold answer query
  simp only [EM.get_bind]
  cases calcOutAmountGivenIn s c out fee with
  | error e => simp only [EM.lift_error_bind]; rfl
  | ok x => simp only [EM.lift_ok_bind, EM.pure_apply]; rfl

/-- C60: a quote answers on every book, active or not. It answers the coin `c` exactly if there is no fee, the input is positive, the two
denoms are the book's pair, the reference engine matches the input against the whole of the side's liquidity, nothing worth a unit at the
last price is left over, and `c` is what the engine pays, below 2^128. -/
theorem C60_quote {ch : Chain} {w : World} (hw : Reachable ch w) {ob : Orderbook} (hob : answer w.store .orderbookState = some (.book ob))
    (r : SwapReq) (hr : r.target = none) (hsz : r.tokenIn.amount < 2 ^ 128) (c : Coin) :
    answer w.store (.calcOutAmountGivenIn r.tokenIn r.outDenom r.fee) = some (.coin c) ↔
      r.fee = 0 ∧ r.tokenIn.amount ≠ 0 ∧ ∃ side levels F left dust, r.pair ob.quoteDenom ob.baseDenom side ∧ r.Levels w.store side levels ∧
        matchLevels side levels r.tokenIn.amount = some (F, left, dust) ∧ usedUp side F left ∧
        (F.map Prod.snd).sum < 2 ^ 128 ∧ c = ⟨r.outDenom, (F.map Prod.snd).sum⟩ := by
  obtain ⟨n, hn⟩ := hw
  obtain ⟨b, h⟩ := hn.traced
  have hr' := h.rel
  have hob' : w.store.orderbook = some ob := by
    have : answer w.store .orderbookState = (orderbookState w.store).toOption.map Answer.book := by
      unfold answer query
      simp only [EM.get_bind]
      cases orderbookState w.store with
      | error e => simp only [EM.lift_error_bind]; rfl
      | ok x => simp only [EM.lift_ok_bind, EM.pure_apply]; rfl
    rw [this] at hob
    unfold orderbookState at hob
    cases hx : w.store.orderbook with
    | none => rw [hx] at hob; simp [Except.toOption] at hob
    | some x => rw [hx] at hob; simp [Except.toOption] at hob; rw [hob]
  have hne := filledBook_rel hr' hob'
  have hptr : MIN_TICK ≤ ob.nextBidTick ∧ ob.nextAskTick ≤ MAX_TICK := by
    obtain ⟨ob2, h1, h2⟩ := hr'.ptr
    obtain rfl := orderbook_inj hob' h1
    exact ⟨h2.bidLo, h2.askHi⟩
  have hq : r.tokenIn.amount < U128 := hsz
  have hbd : ∀ dir : Dir, (MIN_TICK ≤ defaultBound dir ∧ defaultBound dir ≤ MAX_TICK) ∧ BoundOk ob dir (defaultBound dir) := by
    intro dir
    have := (targetOk_iff (r := r) (dir := dir) hptr).1 (by unfold SwapReq.targetOk; simp [hr])
    rwa [hr] at this
  have hmust : ∀ dir : Dir, ¬ Bounded dir (defaultBound dir) := by
    intro dir
    have := (mustFill_iff (r := r) (dir := dir) (by rw [hr]; exact (hbd dir).1)).1 (by unfold SwapReq.mustFill; cases dir <;> simp [hr, Dir.opposite])
    rwa [hr] at this
  have hpair : ∀ dir : Dir, r.pair ob.quoteDenom ob.baseDenom dir.opposite ↔ ob.directionFromPair r.tokenIn.denom r.outDenom = .ok dir := by
    intro dir
    rw [directionFromPair_eq_ok hne]
    unfold SwapReq.pair
    cases dir <;> rfl
  rw [answer_quote]
  have hx : (calcOutAmountGivenIn w.store r.tokenIn r.outDenom r.fee).toOption.map Answer.coin = some (.coin c) ↔
      calcOutAmountGivenIn w.store r.tokenIn r.outDenom r.fee = .ok c := by
    cases calcOutAmountGivenIn w.store r.tokenIn r.outDenom r.fee <;> simp [Except.toOption]
  rw [hx]
  have hcalc : calcOutAmountGivenIn w.store r.tokenIn r.outDenom r.fee = .ok c ↔ r.fee = 0 ∧ ∃ dir post,
      ob.directionFromPair r.tokenIn.denom r.outDenom = .ok dir ∧
      runMarketOrderInternal w.store ⟨r.tokenIn.amount, dir, "querier"⟩ (defaultBound dir) = .ok post ∧ post.output.amount < U128 ∧ post.output = c := by
    unfold calcOutAmountGivenIn ensureSwapFee EXPECTED_SWAP_FEE
    by_cases hf : r.fee = 0
    · rw [if_pos hf]
      simp only [hob', Except.bind_eq_ok', Except.pure_eq', Except.ok.injEq, hf, true_and]
      constructor
      · rintro ⟨_, dir, h1, post, h2, h3⟩
        rw [coin256ToCoin_eq] at h3
        split at h3
        · exact ⟨dir, post, h1, h2, ‹_›, Except.ok.inj h3⟩
        · simp at h3
      · rintro ⟨dir, post, h1, h2, h3, h4⟩
        refine ⟨(), dir, h1, post, h2, ?_⟩
        rw [coin256ToCoin_eq, if_pos h3, h4]
    · rw [if_neg hf]
      simp [hf, Except.error_bind']
  rw [hcalc]
  constructor
  · rintro ⟨hf, dir, post, h1, h2, hlt, rfl⟩
    obtain ⟨F, q', dust, lp, hrun, rfl⟩ := runMarketOrderInternal_spec hr' hob' hq h2
    have hrun : SwapRun w.store b ob dir (defaultBound dir) r.tokenIn.amount F q' dust lp := hrun
    have hrange := sweepTicks_range hr' (ob := ob) (dir := dir) (bound := defaultBound dir)
    obtain ⟨levels, hl⟩ := levels_exist hr' r dir.opposite
    have hlv := levels_sweep hr' hob' hl
    rw [hr, Option.getD_none] at hlv
    subst hlv
    refine ⟨hf, hrun.qpos, dir.opposite, _, fillPairs F, q', dust, (hpair dir).2 h1, hl, sweep_match hrun.sweep hrange, ?_, ?_, ?_⟩
    · rw [usedUp_iff hrun.sweep hrange]
      rcases hrun.full with h | h
      · exact h
      · exact absurd h (hmust dir)
    · rw [fillPairs_sum]; exact hlt
    · rw [fillPairs_sum, ((directionFromPair_eq_ok hne).1 h1).2]
  · rintro ⟨hf, hpos, side, levels, G, left, dust, hp, hl, hm, hu, hlt, rfl⟩
    obtain ⟨dir, rfl⟩ : ∃ dir : Dir, side = dir.opposite := ⟨side.opposite, (Dir.opposite_opposite side).symm⟩
    have hrange := sweepTicks_range hr' (ob := ob) (dir := dir) (bound := defaultBound dir)
    have hlv := levels_sweep hr' hob' hl
    rw [hr, Option.getD_none] at hlv
    subst hlv
    obtain ⟨F, lp, hsw, rfl⟩ := match_sweep hrange D hm
    rw [usedUp_iff hsw hrange] at hu
    have hrun : SwapRun w.store b ob dir (defaultBound dir) r.tokenIn.amount F left dust lp :=
      ⟨hpos, (hbd dir).1, (hbd dir).2, hsw, Or.inl hu⟩
    obtain ⟨post, hpost⟩ := internal_complete hr' hob' (order := ⟨r.tokenIn.amount, dir, "querier"⟩) hq hrun
    obtain ⟨F2, q2, d2, lp2, hr2, rfl⟩ := runMarketOrderInternal_spec hr' hob' hq hpost
    obtain ⟨rfl, rfl, rfl, rfl⟩ := hrun.sweep.det hr2.sweep
    have h1 := (hpair dir).1 hp
    refine ⟨hf, dir, _, h1, hpost, ?_, ?_⟩
    · rw [fillPairs_sum] at hlt; exact hlt
    rw [fillPairs_sum, ((directionFromPair_eq_ok hne).1 h1).2]

/-- Non-vacuity: quotes on the demo book, also while it is inactive; none for a zero input or for more than the book holds. -/
example :
    let off := apply Demo.ch Demo.after (.sudo 0 (.setActive false))
    answer Demo.after.store (.calcOutAmountGivenIn ⟨"b", 300000⟩ "q" 0) = some (.coin ⟨"q", 170000⟩) ∧
    isActive off.store = false ∧ answer off.store (.calcOutAmountGivenIn ⟨"b", 300000⟩ "q" 0) = some (.coin ⟨"q", 170000⟩) ∧
    answer Demo.after.store (.calcOutAmountGivenIn ⟨"b", 0⟩ "q" 0) = none ∧
    answer Demo.after.store (.calcOutAmountGivenIn ⟨"b", 10 ^ 9⟩ "q" 0) = none := by decide +kernel

/-- Everybody but the contract holds 10^60 of each denom. -/
def Demo.whales : World := { Demo.w0 with bank := fun a _ => if a = "orderbook" then 0 else 10 ^ 60 }

/-- Two bids of 2^128 - 1 each, at prices 2.000001 and 2. -/
def Demo.whaleBook : World :=
  [Demo.place "alice" 1000001 .bid (2 ^ 128 - 1) none, Demo.place "alice" 1000000 .bid (2 ^ 128 - 1) none].foldl (apply Demo.ch) Demo.whales

/-- A payment of 2^128 or more is executed although the quote for it panics. -/
example : Initial Demo.ch Demo.whales ∧
    (respOf Demo.ch Demo.whaleBook (SwapReq.op ⟨"zed", ⟨"b", 2 ^ 127 + 2 ^ 100⟩, "q", 1, 0, none⟩ 10)).map Response.data =
      some (some 340282539597338053839870182094092503633) ∧ 2 ^ 128 < 340282539597338053839870182094092503633 ∧
    answer Demo.whaleBook.store (.calcOutAmountGivenIn ⟨"b", 2 ^ 127 + 2 ^ 100⟩ "q" 0) = none :=
  ⟨⟨0, fun _ => 1, "q", "b", { events := [.method "instantiate" [("quote_denom", .str "q"), ("base_denom", .str "b")]] }, rfl⟩, by decide +kernel, by decide +kernel, by decide +kernel⟩

end OB
