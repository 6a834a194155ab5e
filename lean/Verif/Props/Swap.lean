import Verif.Proofs.SwapObs
import Verif.Proofs.Demo
/- C18-C24: swaps. A swap `r` that takes from `side` pays what that side's orders want and receives what they deposited. -/
namespace OB
open Spec

/-- C18 (payment): an accepted swap is for the book's pair, has no swap fee and a positive input. Its first transfer pays the sender the
reported amount of the output denom, positive and at least the minimum; any other transfer returns input to the sender. These are the
only changes of balances. -/
theorem C18_swap_payment {ch : Chain} {w w' : World} (hw : Reachable ch w) {quote base : Denom} (hd : denoms w.store = .ok (quote, base))
    {r : SwapReq} {time : Nat} {resp : Response} (hs : step ch w (r.op time) = .ok (w', resp)) :
    r.fee = 0 ∧ r.tokenIn.amount ≠ 0 ∧ r.tokenIn.denom ≠ r.outDenom ∧ (∃ side, r.pair quote base side) ∧
    ∃ out refund, resp.data = some out ∧ out ≠ 0 ∧ r.minOut ≤ out ∧
      resp.msgs = ⟨r.sender, ⟨r.outDenom, out⟩, 5⟩ :: (if refund = 0 then [] else [⟨r.sender, ⟨r.tokenIn.denom, refund⟩, 1⟩]) ∧
      resp.events = [.swapExactAmountIn r.sender r.tokenIn r.outDenom r.minOut out] ∧
      Exchanged w.bank w'.bank ch.contract r.sender r.tokenIn.denom r.tokenIn.amount refund r.outDenom out := by
  obtain ⟨n, hn⟩ := hw
  obtain ⟨b, h⟩ := hn.traced
  obtain ⟨ob, hob, rfl, rfl⟩ := denoms_eq hd
  obtain ⟨dir, F, q', dust, lp, bank1, -, h2, -, h3, rfl, h5, h6, h7, -⟩ := h.swap_inv hs hob
  have hne := filledBook_rel h.rel hob
  have hdd : r.tokenIn.denom ≠ r.outDenom := by
    rw [h3.denoms.1, h3.denoms.2]
    cases dir <;> simp only [Orderbook.expectedDenom, Orderbook.oppositeDenom]
    · exact hne
    · exact Ne.symm hne
  obtain ⟨h8, h9⟩ := exchanged_of h2 hdd h6 h7
  exact ⟨h3.fee, h3.run.qpos, hdd, ⟨_, h3.pair⟩, _, q', rfl, h9, h3.minOut, rfl, rfl, h8⟩

/-- C18 (rejection): whatever the state, swaps with a nonzero fee, a zero input or equal denoms are rejected; on a reachable book so are
swaps for a pair that is not the book's. -/
theorem C18_swap_rejected {ch : Chain} {w : World} {r : SwapReq} {time : Nat} :
    (r.fee ≠ 0 ∨ r.tokenIn.amount = 0 ∨ r.tokenIn.denom = r.outDenom → Rejected ch w (r.op time)) ∧
    (∀ {quote base : Denom}, Reachable ch w → denoms w.store = .ok (quote, base) → (∀ side, ¬ r.pair quote base side) →
      Rejected ch w (r.op time)) := by
  constructor
  · intro hor
    refine rejected_of fun w' resp hs => ?_
    obtain ⟨h1, h2, bank1, h3, h4, h5, h6⟩ := step_swap_ok.1 hs
    rcases hor with h | h | h
    · unfold dispatchSwapExactAmountIn at h5
      rw [EM.bind_eq_ok] at h5
      obtain ⟨u, s1, h7, -⟩ := h5
      rw [EM.lift_eq_ok] at h7
      unfold ensureSwapFee EXPECTED_SWAP_FEE at h7
      rw [if_neg h] at h7
      simp at h7
    · exact (Bank.send_eq_ok.1 h3).1 h
    · unfold dispatchSwapExactAmountIn at h5
      rw [EM.bind_eq_ok] at h5
      obtain ⟨u, s1, -, h5⟩ := h5
      rw [EM.bind_eq_ok] at h5
      obtain ⟨u, s2, h7, -⟩ := h5
      rw [EM.ensure_eq_ok] at h7
      simp [h] at h7
  · intro quote base hw hd hno
    refine rejected_of fun w' resp hs => ?_
    obtain ⟨-, -, -, ⟨side, h⟩, -⟩ := C18_swap_payment hw hd hs
    exact hno side h

/-- Non-vacuity: on the demo book zed sells 300000 base: 170000 quote are paid, and the minimum is respected. -/
def Demo.sale : SwapReq := ⟨"zed", ⟨"b", 300000⟩, "q", 170000, 0, none⟩
def Demo.after : World := (Demo.trace Demo.history).1
theorem Demo.after_reachable : Reachable Demo.ch Demo.after := ⟨_, (Demo.traced Demo.history).reachable⟩

example : ((respOf Demo.ch Demo.after (Demo.sale.op 10)).map Response.data) = some (some 170000) := by decide +kernel
example : (match denoms Demo.after.store with | .ok p => some p | _ => none) = some ("q", "b") := by decide +kernel
example : respOf Demo.ch Demo.after (SwapReq.op { Demo.sale with minOut := 170001 } 10) = none := by decide +kernel

/-- C19: on an active book, a swap_exact_amount_in by a sender who has the input is accepted whenever the quote for it is a positive
amount that reaches the minimum. (A quote of zero cannot be executed because the bank refuses to send zero.) Conversely an accepted swap
pays exactly what was quoted, except that no quote is given (the query panics) for a payment of 2^128 or more; if the contract holds less
than that, the swap is accepted if and only if the quote is positive and reaches the minimum. -/
theorem C19_quote_equals_execution {ch : Chain} {w : World} (hw : Reachable ch w) (hn : w.HasRoom)
    (ha : isActive w.store = true) {r : SwapReq} (htg : r.target = none) (hsender : r.sender ≠ ch.contract) (hvalid : ch.addrValid r.sender = true)
    (hbal : r.tokenIn.amount ≤ w.bank r.sender r.tokenIn.denom)
    (hsz : r.tokenIn.amount < 2 ^ 128 ∧ r.minOut < 2 ^ 128 ∧ r.fee < 2 ^ 128) (time : Nat) :
    (∀ x, calcOutAmountGivenIn w.store r.tokenIn r.outDenom r.fee = .ok ⟨r.outDenom, x⟩ → x ≠ 0 → r.minOut ≤ x →
      ∃ w' resp, step ch w (r.op time) = .ok (w', resp) ∧ resp.data = some x) ∧
    (∀ w' resp, step ch w (r.op time) = .ok (w', resp) → ∃ x, resp.data = some x ∧ x ≠ 0 ∧ r.minOut ≤ x ∧
      calcOutAmountGivenIn w.store r.tokenIn r.outDenom r.fee = if x < 2 ^ 128 then .ok ⟨r.outDenom, x⟩ else .error .panic) ∧
    (w.bank ch.contract r.outDenom < 2 ^ 128 → (Accepted ch w (r.op time) ↔
      ∃ x, calcOutAmountGivenIn w.store r.tokenIn r.outDenom r.fee = .ok ⟨r.outDenom, x⟩ ∧ x ≠ 0 ∧ r.minOut ≤ x)) := by
  obtain ⟨n, hw⟩ := hw
  obtain ⟨b, h⟩ := hw.traced
  obtain ⟨ob, hob, -⟩ := h.rel.ptr
  have key : ∀ w' resp, step ch w (r.op time) = .ok (w', resp) → ∃ x, resp.data = some x ∧ x ≠ 0 ∧ r.minOut ≤ x ∧
      calcOutAmountGivenIn w.store r.tokenIn r.outDenom r.fee = (if x < 2 ^ 128 then .ok ⟨r.outDenom, x⟩ else .error .panic) ∧
      x ≤ w.bank ch.contract r.outDenom := by
    intro w' resp hs
    obtain ⟨h1, h2, bank1, h3, h4, h5, h6⟩ := step_swap_ok.1 hs
    obtain ⟨x, hx⟩ := quote_of_swap h.rel hob h1.1 (by rw [htg] at h5; exact h5)
    have hd := denoms_of hob
    obtain ⟨-, -, -, -, out, refund, g1, g2, g3, -, -, g4⟩ := C18_swap_payment ⟨n, hw⟩ hd hs
    have e : out = x := by
      have := hx.2
      rw [g1] at this
      exact Option.some.inj this
    subst e
    have := g4.contractOut
    exact ⟨out, g1, g2, g3, hx.1, by omega⟩
  have key2 : ∀ x, calcOutAmountGivenIn w.store r.tokenIn r.outDenom r.fee = .ok ⟨r.outDenom, x⟩ → x ≠ 0 → r.minOut ≤ x →
      ∃ w' resp, step ch w (r.op time) = .ok (w', resp) ∧ resp.data = some x := by
    intro x h1 h2 h3
    obtain ⟨resp, s', hq, b', hst, hnz⟩ := swap_of_quote h.rel hob ha htg hvalid hsz.1 h1 h3 (time := time)
    have hsend : ∃ bank1, w.bank.send r.sender ch.contract r.tokenIn = .ok bank1 := by
      refine ⟨_, Bank.send_eq_ok.2 ⟨?_, hbal, rfl⟩⟩
      exact quote_input_pos h1
    obtain ⟨bank1, hsend⟩ := hsend
    obtain ⟨bank2, hd⟩ := h.dispatch hn.room.lt_D hst (bank1 := bank1) (by
      intro d
      have := Bank.send_receive hsend hsender d
      rw [this, swap_inflow]) (hnz h2)
    have hs : step ch w (r.op time) = .ok (⟨s', bank2⟩, resp) :=
      step_swap_ok.2 ⟨⟨hsz.1, hsz.2.1, hsz.2.2, by simp [htg]⟩, hsender, bank1, hsend, ha, hq, hd⟩
    refine ⟨_, resp, hs, ?_⟩
    obtain ⟨y, g1, -, -, g4, -⟩ := key _ _ hs
    rw [h1] at g4
    split at g4
    · simp only [Except.ok.injEq, Coin.mk.injEq, true_and] at g4
      rw [g4]; exact g1
    · simp at g4
  refine ⟨key2, fun w' resp hs => ?_, fun hb => ⟨?_, ?_⟩⟩
  · obtain ⟨x, g1, g2, g3, g4, -⟩ := key w' resp hs
    exact ⟨x, g1, g2, g3, g4⟩
  · rintro ⟨w', resp, hs⟩
    obtain ⟨x, -, g2, g3, g4, g5⟩ := key w' resp hs
    rw [if_pos (by omega)] at g4
    exact ⟨x, g4, g2, g3⟩
  · rintro ⟨x, h1, h2, h3⟩
    obtain ⟨w', resp, hs, -⟩ := key2 x h1 h2 h3
    exact ⟨w', resp, hs⟩

/-- Non-vacuity: the quote for the demo sale is what it pays. -/
example : (match calcOutAmountGivenIn Demo.after.store ⟨"b", 300000⟩ "q" 0 with | .ok c => some c | _ => none) = some ⟨"q", 170000⟩ := by
  decide +kernel
example : ReachableIn Demo.ch 10 Demo.after ∧ isActive Demo.after.store = true ∧ Demo.ch.addrValid "zed" = true ∧
    300000 ≤ Demo.after.bank "zed" "b" ∧ Demo.after.bank Demo.ch.contract "q" < 2 ^ 128 :=
  ⟨(Demo.traced Demo.history).reachable, by decide +kernel, by decide +kernel, by decide +kernel, by decide +kernel⟩

/-- C20: a swap takes from a tick only after every tick with a better price on that side has been emptied. -/
theorem C20_best_price_first {ch : Chain} {w w' : World} (hw : Reachable ch w) {quote base : Denom}
    (hd : denoms w.store = .ok (quote, base)) {r : SwapReq} {time : Nat} {resp : Response}
    (hs : step ch w (r.op time) = .ok (w', resp)) {side : Dir} (hp : r.pair quote base side) (t t' : Int) (hb : Better side t t')
    (ht : taken w.store w'.store t' side ≠ 0) : tickLiquidity w'.store t side = 0 := by
  obtain ⟨n, hn⟩ := hw
  obtain ⟨b, h⟩ := hn.traced
  obtain ⟨ob, hob, rfl, rfl⟩ := denoms_eq hd
  obtain ⟨dir, F, q', dust, lp, bank1, -, h2, -, h3, -, h5, h6, h7, hF, -, h8, -⟩ := h.swap_inv hs hob
  obtain rfl := pair_unique (filledBook_rel h.rel hob) h3.pair hp
  rw [h8] at ht
  have hmem : t' ∈ F.map Fill.tick := by
    by_contra hc; exact ht (fillAt_notin hc)
  obtain ⟨f, hf, rfl⟩ := List.mem_map.1 hmem
  have hl := swapped_liq_at h.rel hF ob t dir.opposite
  rw [← h5, takenBy, if_pos rfl] at hl
  by_cases hz : leftAt b dir.opposite t = 0
  · have : tickLiquidity w.store t dir.opposite = 0 := by rw [h.rel.tickLiq]; exact hz
    omega
  · have := hF.best f hf t (better_iff.1 hb) hz
    rw [this, h.rel.tickLiq] at hl
    unfold leftAt at hl
    omega

/-- Non-vacuity: the demo sale takes the rest of tick 0 and part of the lower tick -5000000. -/
example : (taken Demo.after.store (apply Demo.ch Demo.after (Demo.sale.op 10)).store (-5000000) .bid,
    taken Demo.after.store (apply Demo.ch Demo.after (Demo.sale.op 10)).store 0 .bid,
    tickLiquidity (apply Demo.ch Demo.after (Demo.sale.op 10)).store 0 .bid) = (130000, 40000, 0) := by decide +kernel

/-- C21 (fair charge): the charge for `a` units taken at a tick is their value at the tick's price rounded up; only for bids above price
10^18 it may fall short of the value, by less than 10^-18. -/
theorem C21_charge_fair (side : Dir) (a : Nat) (t : Int) (ht : ValidTick t) :
    value side a t < charge side a t + 1 / 10 ^ 18 ∧
    (side = .ask ∨ price t ≤ 10 ^ 18 → charge side a t = ⌈value side a t⌉₊ ∧ value side a t ≤ charge side a t) ∧
    (charge side a t : ℚ) < value side a t + 1 := by
  obtain ⟨h0, h1⟩ := validTick_iff.1 ht
  have hnn : 0 ≤ value side a t := by
    have := spec_price_pos h0 h1
    cases side <;> simp only [value] <;> positivity
  have hle : charge side a t ≤ ⌈value side a t⌉₊ := by
    cases side
    · rw [← charge_eq h0 h1]; exact (valUp_bid_bounds h0 h1).1
    · exact le_refl _
  have hup : (charge side a t : ℚ) < value side a t + 1 :=
    lt_of_le_of_lt (by exact_mod_cast hle) (Nat.ceil_lt_add_one hnn)
  have hge : side = .ask ∨ price t ≤ 10 ^ 18 → charge side a t = ⌈value side a t⌉₊ ∧ value side a t ≤ charge side a t := by
    intro hor
    have e : charge side a t = ⌈value side a t⌉₊ := by
      cases side
      · rw [← charge_eq h0 h1, valUp_bid_spec h0 h1]; simpa using hor
      · rfl
    exact ⟨e, by rw [e]; exact Nat.le_ceil _⟩
  refine ⟨?_, hge, hup⟩
  cases side
  · rw [← charge_eq h0 h1]; exact (valUp_bid_bounds h0 h1).2
  · have := (hge (Or.inl rfl)).2
    have h3 : (0 : ℚ) < 1 / 10 ^ 18 := by norm_num
    linarith

/-- Non-vacuity: buying 3 base at price 1.5 costs 5 quote. -/
example : ValidTick 500000 ∧ charge .ask 3 500000 = 5 ∧ value .ask 3 500000 = 4.5 := by
  refine ⟨by unfold ValidTick; norm_num, ?_, by unfold value price; norm_num⟩
  unfold charge
  simp only
  rw [Nat.ceil_eq_iff (by norm_num)]
  unfold value price
  norm_num

/-- C21 (nothing else is charged) and C22 (every unit of the input is accounted for): the input is what the taken amounts cost, plus the
refund that is sent back, plus dust that stays in the contract. Only ticks on the swap's side are taken from. Where liquidity remains on
that side (up to the target, if there is one), refund and dust together buy less than one unit. -/
theorem C22_input_accounted {ch : Chain} {w w' : World} (hw : Reachable ch w) {quote base : Denom}
    (hd : denoms w.store = .ok (quote, base)) {r : SwapReq} {time : Nat} {resp : Response}
    (hs : step ch w (r.op time) = .ok (w', resp)) {side : Dir} (hp : r.pair quote base side) :
    ∃ refund dust, resp.msgs.tail = (if refund = 0 then [] else [⟨r.sender, ⟨r.tokenIn.denom, refund⟩, 1⟩]) ∧
      overTicks (fun t => charge side (taken w.store w'.store t side) t) + refund + dust = r.tokenIn.amount ∧
      (refund = 0 ∨ dust = 0) ∧
      (∀ t, r.within side t → tickLiquidity w'.store t side ≠ 0 → value side.opposite (refund + dust) t < 1) ∧
      (r.target = none → ∃ last, taken w.store w'.store last side ≠ 0 ∧ value side.opposite refund last < 1 ∧
        ∀ t, taken w.store w'.store t side ≠ 0 → t = last ∨ Better side t last) := by
  obtain ⟨n, hn⟩ := hw
  obtain ⟨b, h⟩ := hn.traced
  obtain ⟨ob, hob, rfl, rfl⟩ := denoms_eq hd
  obtain ⟨dir, F, q', dust, lp, bank1, -, h2, -, h3, rfl, h5, h6, h7, hF, hFr, h8, -⟩ := h.swap_inv hs hob
  obtain rfl := pair_unique (filledBook_rel h.rel hob) h3.pair hp
  have hne := filledBook_rel h.rel hob
  have hr := h.rel
  have hrun := h3.run
  have hrange := sweepTicks_range hr (ob := ob) (dir := dir) (bound := r.target.getD (defaultBound dir))
  have hsort := sweepTicks_sorted hr.ticksSorted (ob := ob) (dir := dir) (bound := r.target.getD (defaultBound dir))
  have hin := hrun.sweep.input hrange
  have hfl := hrun.sweep.fills
  have htk : ∀ t, taken w.store w'.store t dir.opposite ≠ 0 → ∃ f ∈ F, f.tick = t := by
    intro t ht
    rw [h8] at ht
    by_contra hc
    refine ht (fillAt_notin fun hm => hc ?_)
    obtain ⟨f, hf, rfl⟩ := List.mem_map.1 hm
    exact ⟨f, hf, rfl⟩
  refine ⟨q', dust, rfl, ?_, ?_, ?_, ?_⟩
  · rw [total_charge hF hFr h8 (fun f hf => (hfl f hf).2.2.2.2)]; exact hin
  · by_cases hdz : dust = 0
    · exact Or.inr hdz
    · exact Or.inl (hrun.sweep.dust_worthless.2 hdz)
  · intro t hwi hl
    have hliq := swapped_liq_at hr hF ob t dir.opposite
    rw [← h5, takenBy, if_pos rfl, hr.tickLiq] at hliq
    have hleft : leftAt b dir.opposite t ≠ 0 := by unfold leftAt; omega
    have hk := leftAt_known hr hleft
    have hrt := hr.known_range hk
    have hmem : t ∈ sweepTicks w.store ob dir (r.target.getD (defaultBound dir)) := by
      rw [mem_sweepTicks]
      refine ⟨hk, ?_⟩
      obtain ⟨ob', h10, h11⟩ := hr.ptr
      obtain rfl := orderbook_inj hob h10
      unfold SwapReq.within at hwi
      cases dir
      · have := h11.ask t hleft
        cases htg : r.target with
        | none => simp only [InReach, Option.getD_none, defaultBound]; exact ⟨this, hrt.2⟩
        | some x =>
          have := hwi x htg
          simp only [Better, Dir.opposite] at this
          simp only [InReach, Option.getD_some]; omega
      · have := h11.bid t hleft
        cases htg : r.target with
        | none => simp only [InReach, Option.getD_none, defaultBound]; exact ⟨hrt.1, this⟩
        | some x =>
          have := hwi x htg
          simp only [Better, Dir.opposite] at this
          simp only [InReach, Option.getD_some]; omega
    rcases hrun.sweep.exhausts hrange hsort t hmem hleft with ⟨g, hg, rfl, hga⟩ | hz
    · rw [fillAt_mem hF.nodup hg, hga] at hliq
      unfold leftAt at hliq
      omega
    · rw [Dir.opposite_opposite]
      have := floor_value_zero hrt.1 hrt.2 hz
      exact_mod_cast this
  · intro htg
    have hz : valDown dir q' lp = 0 := by
      rcases hrun.full with h | h
      · exact h
      · rw [htg, Option.getD_none] at h
        cases dir <;> simp [Bounded, defaultBound] at h
    have hdd : r.tokenIn.denom ≠ r.outDenom := by
      rw [h3.denoms.1, h3.denoms.2]
      cases dir <;> simp only [Orderbook.expectedDenom, Orderbook.oppositeDenom]
      · exact hne
      · exact Ne.symm hne
    have hFne : F ≠ [] := by
      rintro rfl
      exact (exchanged_of h2 hdd h6 h7).2 rfl
    obtain ⟨f, hf, hv, hg⟩ := (hrun.sweep.last hsort hz).2 hFne
    have hft := mem_tickRange.1 (hFr f hf)
    refine ⟨f.tick, ?_, ?_, ?_⟩
    · rw [h8, fillAt_mem hF.nodup hf]
      have := hF.pos f hf
      omega
    · rw [Dir.opposite_opposite]; exact floor_value_zero hft.1 hft.2 hv
    · intro t ht
      obtain ⟨g, hgF, rfl⟩ := htk t ht
      rw [better_iff, Dir.opposite_opposite]
      exact hg g hgF

/-- C21 for whole swaps: the input minus what is sent back splits into what is charged at each tick and dust; at every tick the charge is at least the
value of what is taken there at the tick's price (short of it by less than 10^-18 only for bids above price 10^18) and less than one unit above it. Nothing
is charged where nothing is taken. -/
theorem C21_swap_fair {ch : Chain} {w w' : World} (hw : Reachable ch w) {quote base : Denom} (hd : denoms w.store = .ok (quote, base))
    {r : SwapReq} {time : Nat} {resp : Response} (hs : step ch w (r.op time) = .ok (w', resp)) {side : Dir} (hp : r.pair quote base side) :
    ∃ (cost : Int → Nat) (refund dust : Nat), resp.msgs.tail = (if refund = 0 then [] else [⟨r.sender, ⟨r.tokenIn.denom, refund⟩, 1⟩]) ∧
      overTicks cost + refund + dust = r.tokenIn.amount ∧
      ∀ t, ValidTick t → let x := value side (taken w.store w'.store t side) t
        (taken w.store w'.store t side = 0 → cost t = 0) ∧ x < cost t + 1 / 10 ^ 18 ∧ (side = .ask ∨ price t ≤ 10 ^ 18 → x ≤ cost t) ∧ (cost t : ℚ) < x + 1 := by
  obtain ⟨refund, dust, h1, h2, -⟩ := C22_input_accounted hw hd hs hp
  refine ⟨fun t => charge side (taken w.store w'.store t side) t, refund, dust, h1, h2, fun t ht => ?_⟩
  obtain ⟨k1, k2, k3⟩ := C21_charge_fair side (taken w.store w'.store t side) t ht
  refine ⟨fun e => ?_, k1, fun e => (k2 e).2, k3⟩
  simp only [e]
  cases side <;> simp [charge, value]

-- Its hypotheses are those of C22, see the example of C22.

/-- Non-vacuity: the demo sale (no refund), and a purchase of 30 quote for 29 base, both on reachable books, accepted. -/
example : ((respOf Demo.ch Demo.after (Demo.buy "zed" 30 1)).map Response.data) = some (some 29) := by decide +kernel

/-- C23 (target respected): swap_to_tick takes nothing beyond its target, and every tick it takes nothing from is left exactly as it was. -/
theorem C23_target_not_crossed {ch : Chain} {w w' : World} (hw : Reachable ch w) {quote base : Denom}
    (hd : denoms w.store = .ok (quote, base)) {r : SwapReq} {time : Nat} {resp : Response}
    (hs : step ch w (r.op time) = .ok (w', resp)) {side : Dir} (hp : r.pair quote base side) (t : Int) :
    (¬ r.within side t → taken w.store w'.store t side = 0) ∧
    (taken w.store w'.store t side = 0 → w'.store.ticks.get? t = w.store.ticks.get? t) := by
  obtain ⟨n, hn⟩ := hw
  obtain ⟨b, h⟩ := hn.traced
  obtain ⟨ob, hob, rfl, rfl⟩ := denoms_eq hd
  obtain ⟨dir, F, q', dust, lp, bank1, -, h2, -, h3, -, h5, h6, h7, hF, hFr, h8, -⟩ := h.swap_inv hs hob
  obtain rfl := pair_unique (filledBook_rel h.rel hob) h3.pair hp
  have hr := h.rel
  rw [h8]
  constructor
  · intro hwi
    refine fillAt_notin fun hm => hwi ?_
    have hmem := (mem_sweepTicks.1 (h3.run.sweep.sublist.subset hm)).2
    intro x hx
    rw [hx, Option.getD_some] at hmem
    cases dir <;> simp only [InReach, Better, Dir.opposite] at * <;> omega
  · intro hz
    have hm : t ∉ F.map Fill.tick := by
      intro hm
      obtain ⟨f, hf, rfl⟩ := List.mem_map.1 hm
      rw [fillAt_mem hF.nodup hf] at hz
      exact absurd hz (hF.pos f hf).ne'
    rw [h5]
    exact (swapped_get hF.nodup t).2 hm

/-- C23 (bad targets): a target that is not a valid tick, or that is on the wrong side of the best price pointer, is rejected. -/
theorem C23_bad_target_rejected {ch : Chain} {w : World} (hw : Reachable ch w) {ob : Orderbook} (hob : orderbookState w.store = .ok ob)
    {r : SwapReq} {time : Nat} {target : Int} (ht : r.target = some target)
    (hbad : ¬ ValidTick target ∨
      (r.pair ob.quoteDenom ob.baseDenom .bid ∧ ob.nextBidTick < target) ∨
      (r.pair ob.quoteDenom ob.baseDenom .ask ∧ target < ob.nextAskTick)) : Rejected ch w (r.op time) := by
  obtain ⟨n, hn⟩ := hw
  obtain ⟨b, h⟩ := hn.traced
  have hob' : w.store.orderbook = some ob := by
    unfold orderbookState at hob
    split at hob
    · simp at hob
    · rename_i hx; rw [hx]; simpa using hob
  refine rejected_of fun w' resp hs => ?_
  obtain ⟨dir, F, q', dust, lp, bank1, -, h2, -, h3, -⟩ := h.swap_inv hs hob'
  have hne := filledBook_rel h.rel hob'
  have h4 := h3.run.boundRange
  have h5 := h3.run.boundOk
  rw [ht, Option.getD_some] at h4 h5
  rcases hbad with hb | ⟨hb, hc⟩ | ⟨hb, hc⟩
  · exact hb (validTick_iff.2 h4)
  · have := pair_unique hne h3.pair hb
    cases dir <;> simp only [Dir.opposite, reduceCtorEq, BoundOk] at *
    omega
  · have := pair_unique hne h3.pair hb
    cases dir <;> simp only [Dir.opposite, reduceCtorEq, BoundOk] at *
    omega

/-- Non-vacuity: a sale bounded by tick -100 takes only the 40000 left at tick 0 and refunds the rest; a target above the best bid fails. -/
def Demo.boundedSale (t : Int) : SwapReq := ⟨"zed", ⟨"b", 300000⟩, "q", 1, 0, some t⟩

example : ((respOf Demo.ch Demo.after ((Demo.boundedSale (-100)).op 10)).map Response.msgs) =
    some [⟨"zed", ⟨"q", 40000⟩, 5⟩, ⟨"zed", ⟨"b", 260000⟩, 1⟩] := by decide +kernel
example : (match orderbookState Demo.after.store with | .ok ob => some (ob.nextBidTick, ob.nextAskTick) | _ => none) = some (0, 10) := by
  decide +kernel
example : (Demo.boundedSale 5).pair "q" "b" .bid := ⟨rfl, rfl⟩

/-- C24: the amount paid out is the sum of what the ticks of the swap's side lost and what the side's total lost. The other side,
the orders, and the amounts ever placed do not change. -/
theorem C24_swap_conservation {ch : Chain} {w w' : World} (hw : Reachable ch w) {quote base : Denom}
    (hd : denoms w.store = .ok (quote, base)) {r : SwapReq} {time : Nat} {resp : Response}
    (hs : step ch w (r.op time) = .ok (w', resp)) {side : Dir} (hp : r.pair quote base side) :
    ∃ out, resp.data = some out ∧
      overTicks (fun t => taken w.store w'.store t side) = out ∧
      (∀ t, tickLiquidity w'.store t side ≤ tickLiquidity w.store t side) ∧
      dirLiquidity w'.store side + out = dirLiquidity w.store side ∧
      dirLiquidity w'.store side.opposite = dirLiquidity w.store side.opposite ∧
      (∀ t, ((w'.store.ticks.get? t).getD .default).getValues side.opposite = ((w.store.ticks.get? t).getD .default).getValues side.opposite) ∧
      (∀ t, (((w'.store.ticks.get? t).getD .default).getValues side).ctv = (((w.store.ticks.get? t).getD .default).getValues side).ctv) ∧
      w'.store.orders = w.store.orders := by
  obtain ⟨n, hn⟩ := hw
  obtain ⟨b, h⟩ := hn.traced
  obtain ⟨ob, hob, rfl, rfl⟩ := denoms_eq hd
  obtain ⟨dir, F, q', dust, lp, bank1, -, h2, -, h3, rfl, h5, h6, h7, hF, hFr, h8, -⟩ := h.swap_inv hs hob
  obtain rfl := pair_unique (filledBook_rel h.rel hob) h3.pair hp
  have hr := h.rel
  have hopp : dir ≠ dir.opposite := by cases dir <;> simp [Dir.opposite]
  refine ⟨_, rfl, total_taken hF hFr h8, ?_, ?_, ?_, ?_, ?_, ?_⟩
  · intro t
    have := swapped_liq_at hr hF ob t dir.opposite
    rw [h5]; omega
  · rw [h5]; exact swapped_dirLiq hr hF ob
  · rw [h5]
    unfold dirLiquidity getDirectionalLiquidity
    rw [swappedStore_dirLiq, Dir.opposite_opposite]
    simp only [if_neg hopp]
  · intro t
    rw [h5, Dir.opposite_opposite]
    exact swapped_tv_ne hF.nodup t hopp
  · intro t
    rw [h5]
    have := swapped_tv_taken (s := w.store) (d := dir.opposite) (ob := ob) hF.nodup t dir.opposite
    unfold tv at this
    rw [this]
  · rw [h5]; rfl

end OB
