import Verif.SpecQuerySays
import Verif.Props.Says
import Verif.Props.Answers
/- C100: why a query is refused. -/
namespace OB
open Spec

theorem queryResult_lift {s : Store} {q : QueryMsg} {α : Type} {x : Except Err α} {f : α → Answer}
    (h : query q s = (do let y ← EM.lift x; pure (f y) : M Answer) s) : queryResult s q = x.map f := by
  unfold queryResult
  rw [h]
  cases x with
  | error e => simp only [EM.lift_error_bind]; rfl
  | ok y => simp only [EM.lift_ok_bind, EM.pure_apply]; rfl

theorem map_error {α β : Type} {x : Except Err α} {f : α → β} {e : Err} : x.map f = .error e ↔ x = .error e := by
  cases x <;> simp [Except.map]

theorem direction_error {ob : Orderbook} {a b : Denom} (h : ¬ ((a = ob.baseDenom ∧ b = ob.quoteDenom) ∨ (a = ob.quoteDenom ∧ b = ob.baseDenom))) :
    ob.directionFromPair a b = .error (.invalidPair a b) := by
  unfold Orderbook.directionFromPair
  rw [if_neg fun hh => h (.inl ⟨hh.1.symm, hh.2.symm⟩), if_neg fun hh => h (.inr ⟨hh.1.symm, hh.2.symm⟩)]

/-- The checklist of a quote. -/
theorem quote_fails {ch : Chain} {n : Nat} {w : World} {b : Book} (h : Traced ch n w b) {ob : Orderbook} (hob : w.store.orderbook = some ob)
    {depth : Dir → List (Int × Nat)} (hl : ∀ d, Depth w.store d (depth d)) (c : Coin) (out : Denom) (fee : Nat) (hsz : c.amount < 2 ^ 128) (e : Err) :
    calcOutAmountGivenIn w.store c out fee = .error e ↔ Fails (quoteChecks ob depth c out fee) e := by
  have hr := h.rel
  have hne := filledBook_rel hr hob
  have hptr : MIN_TICK ≤ ob.nextBidTick ∧ ob.nextAskTick ≤ MAX_TICK := by
    obtain ⟨ob2, h1, h2⟩ := hr.ptr
    obtain rfl := orderbook_inj hob h1
    exact ⟨h2.bidLo, h2.askHi⟩
  let r : SwapReq := ⟨"", c, out, 0, fee, none⟩
  unfold quoteChecks
  by_cases c1 : fee = 0
  swap
  · rw [fails_cons_false c1]
    refine error_iff ?_
    have : ensureSwapFee fee = .error (.invalidSwap (.fee fee)) := by unfold ensureSwapFee EXPECTED_SWAP_FEE; rw [if_neg c1]
    unfold calcOutAmountGivenIn
    rw [this, Except.error_bind']
  rw [fails_cons_true c1]
  have hfee : ensureSwapFee fee = .ok () := by unfold ensureSwapFee EXPECTED_SWAP_FEE; rw [if_pos c1]
  have e1 : calcOutAmountGivenIn w.store c out fee = (do
      let dir ← ob.directionFromPair c.denom out
      let post ← runMarketOrderInternal w.store ⟨c.amount, dir, "querier"⟩ (defaultBound dir)
      coin256ToCoin post.output) := by
    unfold calcOutAmountGivenIn
    rw [hfee, Except.ok_bind', hob]
  rw [e1]
  by_cases c2 : (c.denom = ob.baseDenom ∧ out = ob.quoteDenom) ∨ (c.denom = ob.quoteDenom ∧ out = ob.baseDenom)
  swap
  · rw [fails_cons_false c2]
    refine error_iff ?_
    rw [direction_error c2, Except.error_bind']
  rw [fails_cons_true c2]
  obtain ⟨dir, hdir, hside⟩ : ∃ dir : Dir, ob.directionFromPair c.denom out = .ok dir ∧
      (if c.denom = ob.baseDenom then Dir.bid else .ask) = dir.opposite := by
    unfold Orderbook.directionFromPair
    rcases c2 with ⟨h1, h2⟩ | ⟨h1, h2⟩
    · exact ⟨.ask, by rw [if_pos ⟨h1.symm, h2.symm⟩], by rw [if_pos h1]; rfl⟩
    · have : ob.quoteDenom ≠ ob.baseDenom := hne
      refine ⟨.bid, ?_, by rw [if_neg (by rw [h1]; exact this)]; rfl⟩
      rw [if_neg (by rw [h1]; exact fun hh => this hh.1.symm), if_pos ⟨h1.symm, h2.symm⟩]
  rw [hdir, Except.ok_bind', hside]
  by_cases c3 : c.amount ≠ 0
  swap
  · rw [fails_cons_false c3]
    refine error_iff ?_
    rw [not_not] at c3
    unfold runMarketOrderInternal
    rw [if_pos c3, Except.error_bind']
  rw [fails_cons_true c3]
  have hq : c.amount < U128 := hsz
  obtain ⟨hb1, hb2⟩ : (MIN_TICK ≤ defaultBound dir ∧ defaultBound dir ≤ MAX_TICK) ∧ BoundOk ob dir (defaultBound dir) :=
    (targetOk_iff (r := r) (dir := dir) hptr).1 (by unfold SwapReq.targetOk; simp [r])
  have hmust : ¬ Bounded dir (defaultBound dir) :=
    (mustFill_iff (r := r) (dir := dir) hb1).1 (by unfold SwapReq.mustFill; cases dir <;> simp [r, Dir.opposite])
  have hlv : r.Levels w.store dir.opposite (depth dir.opposite) := by
    refine ⟨(hl dir.opposite).1, fun t l => ?_⟩
    rw [(hl dir.opposite).2 t l]
    have : r.within dir.opposite t := by unfold SwapReq.within; simp [r]
    tauto
  have hsw0 : depth dir.opposite = levelsOf (leftAt b dir.opposite) (sweepTicks w.store ob dir (defaultBound dir)) := levels_sweep hr hob hlv
  rw [hsw0]
  have hrange := sweepTicks_range hr (ob := ob) (dir := dir) (bound := defaultBound dir)
  have hun := internal_unfold (order := ⟨c.amount, dir, "querier"⟩) hob c3 hb1 hb2
  simp only at hun
  cases c10 : matchError dir.opposite (levelsOf (leftAt b dir.opposite) (sweepTicks w.store ob dir (defaultBound dir))) c.amount with
  | some e' =>
    rw [fails_cons_false (by simp), Option.getD_some]
    refine error_iff ?_
    have hml := marketLoop_error hr (dir := dir) (ts := sweepTicks w.store ob dir (defaultBound dir))
      (fun t ht => (mem_sweepTicks.1 ht).1) (st := ⟨c.amount, ob, 0, [], D⟩) hq c10 (by simpa using sum_leftAt_lt hr)
    rw [hml, Except.error_bind'] at hun
    rw [hun, Except.error_bind']
  | none =>
  rw [fails_cons_true rfl]
  obtain ⟨⟨G, left, dust⟩, hm⟩ := matchError_none.1 c10
  rw [hm]
  obtain ⟨F, lp, hsw, rfl⟩ := match_sweep hrange D hm
  have hall : (∀ F' left' dust', some (fillPairs F, left, dust) = some (F', left', dust') → usedUp dir.opposite F' left') ↔
      usedUp dir.opposite (fillPairs F) left := by
    constructor
    · intro hP; exact hP _ _ _ rfl
    · intro hP F' left' dust' he
      simp only [Option.some.injEq, Prod.mk.injEq] at he
      obtain ⟨rfl, rfl, -⟩ := he
      exact hP
  rw [hall, usedUp_iff hsw hrange]
  by_cases c11 : valDown dir left lp = 0
  swap
  · rw [fails_cons_false c11]
    refine error_iff ?_
    obtain ⟨st, hst⟩ := marketLoop_complete hr (dir := dir) (ts := sweepTicks w.store ob dir (defaultBound dir))
      (fun t ht => (mem_sweepTicks.1 ht).1) (st := ⟨c.amount, ob, 0, [], D⟩) hq hsw
      (by have := hsw.amount_le; have := sum_leftAt_lt hr (ob := ob) (dir := dir) (bound := defaultBound dir); simp only; omega)
    obtain ⟨F2, q2, d2, lp2, hs2, he⟩ := marketLoop_spec hr hrange (by exact hq) hst
    obtain ⟨rfl, rfl, rfl, rfl⟩ := hsw.det hs2
    obtain ⟨t, ht0, ht1, hlp⟩ := hsw.lp hrange ⟨0, by decide, by decide, priceNat_zero.symm⟩
    have hin := hsw.input hrange
    rw [hst, Except.ok_bind', he] at hun
    simp only at hun
    rw [hlp, amountToValue_spec ht0 ht1 (by omega), Except.ok_bind'] at hun
    simp only [valR] at hun
    have hno : ¬ (valDown dir left lp = 0 ∨ Bounded dir (defaultBound dir)) := by rw [not_or]; exact ⟨c11, hmust⟩
    rw [← hlp] at hun
    replace hun := hun.trans (if_neg hno)
    rw [hun, Except.error_bind']
  rw [fails_cons_true c11]
  have hrun : SwapRun w.store b ob dir (defaultBound dir) c.amount F left dust lp := ⟨c3, hb1, hb2, hsw, Or.inl c11⟩
  obtain ⟨post, hpost⟩ := internal_complete hr hob (order := ⟨c.amount, dir, "querier"⟩) hq hrun
  obtain ⟨F2, q2, d2, lp2, hr2, rfl⟩ := runMarketOrderInternal_spec hr hob hq hpost
  obtain ⟨rfl, rfl, rfl, rfl⟩ := hrun.sweep.det hr2.sweep
  rw [hpost, Except.ok_bind', coin256ToCoin_eq]
  have ho : outputOf (some (fillPairs F, left, dust)) = sumAmount F := fillPairs_sum F
  rw [ho]
  by_cases c12 : sumAmount F < U128
  · rw [if_pos c12, fails_cons_true (show sumAmount F < 2 ^ 128 from c12)]
    simp only [Fails, reduceCtorEq]
  · rw [if_neg c12, fails_cons_false (show ¬ sumAmount F < 2 ^ 128 from c12)]
    exact error_iff rfl

theorem ticks_fails {s : Store} {b : Book} (h : Rel s b) (ids : List Int) (e : Err) :
    ticksById s ids = .error e ↔ Fails (ids.map fun t => (Used b t, .invalidTickId t)) e := by
  induction ids with
  | nil => simp [ticksById, Fails]
  | cons t ids ih =>
    rw [List.map_cons]
    unfold ticksById
    cases ht : s.ticks.get? t with
    | none =>
      rw [fails_cons_false (by rw [used_iff h]; simpa using ht)]
      exact error_iff rfl
    | some v =>
      rw [fails_cons_true (by rw [used_iff h, ht]; simp), ← ih]
      simp only
      cases ticksById s ids <;> simp [bind, Except.bind, pure, Except.pure]

theorem unrealized_fails {s : Store} {b : Book} (h : Rel s b) (ids : List Int) (e : Err) :
    ticksUnrealizedCancels s ids = .error e ↔ Fails (ids.map fun t => (Used b t, .invalidTickId t)) e := by
  induction ids with
  | nil => simp [ticksUnrealizedCancels, Fails]
  | cons t ids ih =>
    rw [List.map_cons]
    unfold ticksUnrealizedCancels
    cases ht : s.ticks.get? t with
    | none =>
      rw [fails_cons_false (by rw [used_iff h]; simpa using ht)]
      exact error_iff rfl
    | some v =>
      rw [fails_cons_true (by rw [used_iff h, ht]; simp), ← ih]
      simp only [h.unrealized ht, Except.ok_bind']
      cases ticksUnrealizedCancels s ids <;> simp [bind, Except.bind, pure, Except.pure]

/-- C100: a query is refused exactly for the first condition of its checklist that fails. -/
theorem C100_refused {ch : Chain} {n : Nat} {w : World} {b : Book} (h : Traced ch n w b) {ob : Orderbook} (hob : orderbookState w.store = .ok ob)
    {depth : Dir → List (Int × Nat)} (hl : ∀ d, Depth w.store d (depth d)) {q : QueryMsg} (hq : QueryFits q) (e : Err) :
    queryResult w.store q = .error e ↔ Fails (queryChecks w.store ob b depth q) e := by
  have hob' : w.store.orderbook = some ob := by
    unfold orderbookState at hob
    split at hob
    · simp at hob
    · rename_i hx; rw [hx]; simpa using hob
  have hr := h.rel
  cases q with
  | spotPrice quote base =>
    obtain ⟨ob2, h1, ⟨x, h2, -⟩, h4, h5⟩ := C43_spot_price ⟨_, h.reachable⟩ (denoms_of hob')
    simp only [queryChecks]
    have key : ∀ {q' b'}, (∃ y, answer w.store (.spotPrice q' b') = some y) → ¬ queryResult w.store (.spotPrice q' b') = .error e := by
      rintro q' b' ⟨y, hy⟩
      unfold answer at hy
      unfold queryResult
      cases hh : query (.spotPrice q' b') w.store with
      | ok a s => simp
      | err e s => rw [hh] at hy; simp at hy
    by_cases c1 : (quote = ob.quoteDenom ∧ base = ob.baseDenom) ∨ (quote = ob.baseDenom ∧ base = ob.quoteDenom)
    · rw [fails_cons_true c1]
      simp only [Fails, iff_false]
      rcases c1 with ⟨rfl, rfl⟩ | ⟨rfl, rfl⟩
      · exact key ⟨_, h2⟩
      · exact key ⟨_, h4⟩
    · rw [fails_cons_false c1]
      refine error_iff ?_
      unfold queryResult
      rw [h5 _ _ (fun hh => c1 (.inl hh)) (fun hh => c1 (.inr hh))]
  | calcOutAmountGivenIn c out fee =>
    have hsz : c.amount < 2 ^ 128 := hq
    rw [queryResult_lift (x := calcOutAmountGivenIn w.store c out fee) (f := Answer.coin) (by unfold query; simp only [EM.get_bind]), map_error]
    exact quote_fails h hob' hl c out fee hsz e
  | calcOutAmtGivenIn c out fee =>
    have hsz : c.amount < 2 ^ 128 := hq
    rw [queryResult_lift (x := calcOutAmountGivenIn w.store c out fee) (f := Answer.coin) (by unfold query; simp only [EM.get_bind]), map_error]
    exact quote_fails h hob' hl c out fee hsz e
  | getTotalPoolLiquidity =>
    rw [queryResult_lift (x := totalPoolLiquidity w.store) (f := Answer.coins) (by unfold query; simp only [EM.get_bind]), map_error]
    obtain ⟨key, -, hok⟩ := C26_pool_liquidity ⟨_, h.reachable⟩ (denoms_of hob')
    simp only [queryChecks, ← key]
    by_cases c1 : ∀ d, dirLiquidity w.store d < 2 ^ 128
    · rw [fails_cons_true c1, hok c1]
      simp [Fails]
    · rw [fails_cons_false c1]
      refine error_iff ?_
      have hbad : ∀ d, ¬ dirLiquidity w.store d < 2 ^ 128 → u128TryFrom (toUintFloor (getDirectionalLiquidity w.store d)) = .error .conversionOverflow := by
        intro d hd
        unfold u128TryFrom
        exact if_neg hd
      unfold totalPoolLiquidity
      simp only [hob']
      by_cases hA : dirLiquidity w.store .ask < 2 ^ 128
      · have hB : ¬ dirLiquidity w.store .bid < 2 ^ 128 := fun hh => c1 fun d => by cases d; exact hh; exact hA
        rw [hbad .bid hB]
        cases u128TryFrom (toUintFloor (getDirectionalLiquidity w.store .ask)) <;> rfl
      · rw [hbad .ask hA]
        rfl
  | calcInAmtGivenOut =>
    simp only [queryChecks]
    rw [fails_cons_false not_false]
    exact error_iff rfl
  | ticksById ids =>
    rw [queryResult_lift (x := ticksById w.store ids) (f := Answer.ticks) (by unfold query; simp only [EM.get_bind]), map_error]
    exact ticks_fails hr ids e
  | getUnrealizedCancels ids =>
    rw [queryResult_lift (x := ticksUnrealizedCancels w.store ids) (f := Answer.unrealized) (by unfold query; simp only [EM.get_bind]), map_error]
    exact unrealized_fails hr ids e
  | orderbookState =>
    rw [queryResult_lift (x := orderbookState w.store) (f := Answer.book) (by unfold query; simp only [EM.get_bind]), map_error, hob]
    simp [queryChecks, Fails]
  | denoms =>
    rw [queryResult_lift (x := denoms w.store) (f := fun x => Answer.denoms x.1 x.2) (by unfold query; simp only [EM.get_bind]), map_error, denoms_of hob']
    simp [queryChecks, Fails]
  | allTicks => simp only [queryChecks, Fails, iff_false]; exact fun hh => by cases hh
  | isActive => simp only [queryChecks, Fails, iff_false]; exact fun hh => by cases hh
  | getSwapFee => simp only [queryChecks, Fails, iff_false]; exact fun hh => by cases hh
  | ordersByOwner => simp only [queryChecks, Fails, iff_false]; exact fun hh => by cases hh
  | ordersByTick => simp only [queryChecks, Fails, iff_false]; exact fun hh => by cases hh
  | getMakerFee => simp only [queryChecks, Fails, iff_false]; exact fun hh => by cases hh
  | auth m => simp only [queryChecks, Fails, iff_false]; exact fun hh => by cases hh

/-- The price levels exist. -/
theorem C100_depth {ch : Chain} {w : World} (hw : Reachable ch w) : ∃ depth : Dir → List (Int × Nat), ∀ d, Depth w.store d (depth d) := by
  obtain ⟨n, hn⟩ := hw
  obtain ⟨b, h⟩ := hn.traced
  have : ∀ d, ∃ l, Depth w.store d l := by
    intro d
    obtain ⟨l, h1, h2⟩ := levels_exist h.rel ⟨"", ⟨"", 0⟩, "", 0, 0, none⟩ d
    refine ⟨l, h1, fun t x => ?_⟩
    rw [h2]
    simp [SwapReq.within]
  exact ⟨fun d => (this d).choose, fun d => (this d).choose_spec⟩

/-- C100: ... and says why. -/
theorem C100_says {ch : Chain} {n : Nat} {w : World} {b : Book} (h : Traced ch n w b) {ob : Orderbook} (hob : orderbookState w.store = .ok ob)
    {depth : Dir → List (Int × Nat)} (hl : ∀ d, Depth w.store d (depth d)) {q : QueryMsg} (hq : QueryFits q) {e : Err}
    (he : queryResult w.store q = .error e) : Says (querySays w.store ob b depth q) e.text := by
  have := says_of_fails ((C100_refused h hob hl hq e).1 he)
  have hquote : ∀ c out fee, ((quoteChecks ob depth c out fee).map fun p => (p.1, p.2.pieces)) = quoteSays ob depth c out fee := by
    intro c out fee
    simp only [quoteChecks, quoteSays, List.map_cons, List.map_nil, matchError_says]
    rfl
  have hticks : ∀ ids : List Int, ((ids.map fun t => (Used b t, Err.invalidTickId t)).map fun p => (p.1, p.2.pieces)) =
      ids.map fun t => (Used b t, badTick t) := by
    intro ids
    rw [List.map_map]
    rfl
  cases q with
  | calcOutAmountGivenIn c out fee => simp only [queryChecks, hquote] at this; exact this
  | calcOutAmtGivenIn c out fee => simp only [queryChecks, hquote] at this; exact this
  | ticksById ids => simp only [queryChecks, hticks] at this; exact this
  | getUnrealizedCancels ids => simp only [queryChecks, hticks] at this; exact this
  | _ => exact this

theorem has_state {ch : Chain} {n : Nat} {w : World} {b : Book} (h : Traced ch n w b) : ∃ ob, orderbookState w.store = .ok ob := by
  obtain ⟨ob, hob, -⟩ := h.rel.ptr
  exact ⟨ob, by unfold orderbookState; rw [hob]⟩

/-- Non-vacuity: on the demo book every kind of refusal occurs, and quotes are answered. -/
example : [queryResult Demo.after.store (.spotPrice "q" "x"), queryResult Demo.after.store (.calcOutAmountGivenIn ⟨"b", 5⟩ "q" 1),
      queryResult Demo.after.store (.calcOutAmountGivenIn ⟨"b", 5⟩ "b" 0), queryResult Demo.after.store (.calcOutAmtGivenIn ⟨"b", 0⟩ "q" 0),
      queryResult Demo.after.store (.calcOutAmtGivenIn ⟨"b", 3000000⟩ "q" 0), queryResult Demo.after.store (.ticksById [0, 10, 11, 12]),
      queryResult Demo.after.store (.getUnrealizedCancels [-7]), queryResult Demo.after.store .calcInAmtGivenOut,
      queryResult Demo.after.store (.calcOutAmtGivenIn ⟨"b", 300000⟩ "q" 0)] =
    [.error (.invalidPair "x" "q"), .error (.invalidSwap (.fee 1)), .error (.invalidPair "b" "b"), .error (.invalidSwap .zeroInput),
      .error .insufficientLiquidity, .error (.invalidTickId 11), .error (.invalidTickId (-7)), .error .panic, .ok (.coin ⟨"q", 170000⟩)] := by
  decide +kernel

example : (∃ depth : Dir → List (Int × Nat), ∀ d, Depth Demo.after.store d (depth d)) ∧ (∃ ob, orderbookState Demo.after.store = .ok ob) ∧
    Err.text (.invalidTickId 11) = some "Invalid tick ID: 11".toList := by
  refine ⟨C100_depth ⟨_, (Demo.traced Demo.history).reachable⟩, has_state (Demo.traced Demo.history), by decide +kernel⟩

end OB
