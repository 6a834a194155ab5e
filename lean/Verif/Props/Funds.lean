import Verif.SpecBook
import Verif.Props.Claim
import Verif.Props.Cancel
import Verif.Props.Swap
import Verif.Props.Book
/- C27, C46, C47: funds. -/
namespace OB
open Spec

/-! ### C27 -/

theorem owedTotal_eq {t : Int} (ht : MIN_TICK ≤ t ∧ t ≤ MAX_TICK) (b : Book) (d : Dir) : owedTotal d t (b t d) = dueAt b d t := by
  unfold owedTotal dueAt sumBy
  congr 1
  exact List.map_congr_left fun x _ => (payout_eq ht).symm

/-- C27: as long as fewer than 10^18 orders have ever been placed (and whatever else has happened) the contract holds, in each denom, at least the unfilled remainders of all live
orders deposited in it plus the tick-price value of all unclaimed fills payable in it. -/
theorem C27_solvency {ch : Chain} {n : Nat} {w : World} {b : Book} (h : Traced ch n w b)
    (hn : w.store.orderId.getD 0 < 10 ^ 18) {quote base : Denom}
    (hd : denoms w.store = .ok (quote, base)) (d : Dir) :
    overTicks (fun t => openTotal (b t d)) + overTicks (fun t => owedTotal d.opposite t (b t d.opposite)) ≤
      w.bank ch.contract (denomIn quote base d) := by
  obtain ⟨ob, hob, rfl, rfl⟩ := denoms_eq hd
  have hr := h.rel
  have hc := h.covered (by unfold D; exact hn) hob d
  rw [denomIn_eq, overTicks_eq, overTicks_eq]
  have e1 : total (fun t => openTotal (b t d)) = openOf b d := by
    rw [openOf_eq]
    refine total_congr fun t _ => ?_
    obtain ⟨r, rt, hs, -, -⟩ := hr.sides t d
    exact openTotal_eq hs.ok
  have e2 : total (fun t => owedTotal d.opposite t (b t d.opposite)) = dueOf b d.opposite := by
    unfold dueOf
    exact total_congr fun t ht => owedTotal_eq (mem_tickRange.1 ht) b d.opposite
  rw [e1, e2]
  exact hc

theorem StoreStep.nonzero {ch : Chain} {sender : Addr} {funds : List Coin} {time : Nat} {msg : ExecuteMsg} {s s' : Store} {b b' : Book}
    {resp : Response} (h : StoreStep ch (.execute sender funds time msg) s b resp s' b') (hr : Rel s b) : ∀ m ∈ resp.msgs, m.coin.amount ≠ 0 := by
  cases h with
  | place => simp
  | cancel h1 h2 h3 h4 h5 =>
    intro m hm
    simp only [List.mem_singleton] at hm
    subst hm
    have := h4.2
    simp only; omega
  | claim h1 h2 h3 h4 =>
    obtain ⟨_, _, _, _, -, -, -, -, -, -, g1, -⟩ := h4.msgs_sum hr h2
    exact fun m hm => (g1 m hm).1
  | batch h1 h2 h3 h4 => exact h4.nonzero hr
  | config h1 h2 h3 h4 => rw [h4]; simp

/-- C27: no transfer of an execute message ever fails: if the contract accepts the message, the transaction succeeds. -/
theorem C27_execute_payable {ch : Chain} {w : World} (hw : Reachable ch w)
    (hn : w.store.orderId.getD 0 + 1 < 10 ^ 18) {sender : Addr}
    {funds : List Coin} {time : Nat} {msg : ExecuteMsg} (hs : sender ≠ ch.contract) (hm : msg.wellTyped = true) {bank1 : Bank}
    (hf : w.bank.sendAll sender ch.contract funds = .ok bank1) {resp : Response} {s' : Store}
    (hx : execute (ch.env time) ⟨sender, funds⟩ msg w.store = .ok resp s') :
    ∃ bank2, step ch w (.execute sender funds time msg) = .ok (⟨s', bank2⟩, resp) := by
  obtain ⟨n, hw⟩ := hw
  obtain ⟨b, h⟩ := hw.traced
  obtain ⟨b', hst⟩ := execute_ok h.rel hm hx
  obtain ⟨bank2, hb⟩ := h.dispatch (by unfold D; exact hn) hst (bank1 := bank1)
    (fun d => by rw [Bank.sendAll_receive hf hs]; exact le_refl _) (hst.nonzero h.rel)
  exact ⟨bank2, step_execute_ok.2 ⟨hs, hm, bank1, hf, hx, hb⟩⟩

/-- C27: a swap that the contract computes fails in the bank only if its output is zero (the bank sends no zero coins), never for lack of funds. -/
theorem C27_swap_payable {ch : Chain} {w : World} (hw : Reachable ch w)
    (hn : w.store.orderId.getD 0 + 1 < 10 ^ 18) {r : SwapReq} {time : Nat}
    (hs : r.sender ≠ ch.contract) (hbal : r.tokenIn.amount ≤ w.bank r.sender r.tokenIn.denom) (hsz : r.tokenIn.amount < 2 ^ 128)
    (hsz2 : r.minOut < 2 ^ 128) (htgt : ∀ t, r.target = some t → -2 ^ 63 ≤ t ∧ t < 2 ^ 63) {msg : SudoMsg} (hmsg : r.op time = .sudo time msg)
    {resp : Response} {s' : Store} (hx : «sudo» (ch.env time) msg w.store = .ok resp s') (hz : resp.data ≠ some 0) :
    ∃ bank2, step ch w (r.op time) = .ok (⟨s', bank2⟩, resp) := by
  obtain ⟨n, hw⟩ := hw
  obtain ⟨b, h⟩ := hw.traced
  have hr := h.rel
  obtain ⟨ob, hob, -⟩ := hr.ptr
  obtain ⟨msg', g1, g2, g3⟩ := swapReq_op_eq r time
  rw [hmsg] at g1
  obtain rfl : msg = msg' := by simpa using g1
  obtain ⟨ha, hx⟩ := (sudo_swap g2).1 hx
  obtain ⟨dir, F, q', dust, lp, k1, k2, k3⟩ := dispatchSwap_eq_ok hr hob hsz hx
  have hst : StoreStep ch (r.op time) w.store b (swapResponse r.sender r.tokenIn r.outDenom r.minOut (sumAmount F) q')
      (swappedStore w.store dir.opposite F ob) (filledBook b F dir.opposite) := by
    rw [hmsg]; exact .swap ha hob g2 hsz k1
  obtain ⟨bank1, hsend⟩ : ∃ bank1, w.bank.send r.sender ch.contract r.tokenIn = .ok bank1 := ⟨_, Bank.send_eq_ok.2 ⟨k1.run.qpos, hbal, rfl⟩⟩
  have hnz : sumAmount F ≠ 0 := by
    intro h0
    apply hz
    rw [k2]
    show some (sumAmount F) = some 0
    rw [h0]
  obtain ⟨bank2, hd⟩ := h.dispatch (by unfold D; exact hn) hst (bank1 := bank1) (by
    intro d
    have := Bank.send_receive hsend hs d
    rw [this, swap_inflow]) (swapMsgs_pos hnz)
  refine ⟨bank2, ?_⟩
  have hfee := k1.fee
  refine step_swap_ok.2 ⟨⟨hsz, hsz2, ?_, ?_⟩, hs, bank1, hsend, ha, hx, ?_⟩
  · rw [hfee]; unfold U128; norm_num
  · intro t ht
    unfold i64Ok
    rw [decide_eq_true_eq]
    exact htgt t ht
  · rw [k2]; exact hd

/-- Non-vacuity of C27: the demo book after 10 operations; the contract holds 540000 quote for the open bids and 110000 base for the open ask
(50000) and dave's unclaimed fill (60000). -/
example : Traced Demo.ch 10 Demo.after (Demo.trace Demo.history).2 ∧ Demo.after.store.orderId.getD 0 + 1 < 10 ^ 18 ∧
    (Demo.after.bank "orderbook" "q", Demo.after.bank "orderbook" "b") = (540000, 110000) := by
  refine ⟨Demo.traced Demo.history, ?_, ?_⟩ <;> decide +kernel

/-! ### C46 -/

/-- C46: on an active book (that has room) every live order with an unclaimed fill can be claimed by anyone. -/
theorem C46_claim_succeeds {ch : Chain} {n : Nat} {w : World} {b : Book} (h : Traced ch n w b) (hn : w.HasRoom) (ha : isActive w.store = true)
    {tick : Int} {dir : Dir} {x : Entry} (hx : x ∈ b tick dir) (hl : x.Live) (hc : x.claimed < x.filled) {anyone : Addr}
    (hs : anyone ≠ ch.contract) (time : Nat) : Accepted ch w (.execute anyone [] time (.claimLimit tick x.id)) :=
  h.claim_step hn.few hs ha hx hl hc time

theorem received_filter (a : Addr) (d : Denom) (ms : List SendMsg) :
    received a d (ms.filter fun m => m.coin.amount ≠ 0) = received a d ms := by
  unfold received
  induction ms with
  | nil => rfl
  | cons m ms ih =>
    rw [List.filter_cons]
    by_cases h : m.coin.amount = 0
    · simp only [h, ne_eq, not_true_eq_false, decide_false, Bool.false_eq_true, if_false, List.map_cons, List.sum_cons, ite_self, Nat.zero_add]
      simpa using ih
    · simp only [h, ne_eq, not_false_eq_true, decide_true, if_true, List.map_cons, List.sum_cons]
      simpa using ih

theorem received_split_self {a rc : Addr} {d : Denom} {r : Option Nat} {f v : Nat} :
    v ≤ received a d (split a a rc d r f v) + v * f / 10 ^ 18 := by
  unfold split
  rw [received_filter]
  simp only [received, List.map_cons, List.map_nil, List.sum_cons, List.sum_nil, and_self, if_true, and_true]
  generalize v * r.getD 0 / 10 ^ 18 = B
  generalize v * f / 10 ^ 18 = F
  split <;> split <;> omega

theorem received_ne {a : Addr} {d : Denom} {ms : List SendMsg} (h : ∀ m ∈ ms, m.coin.denom ≠ d) : received a d ms = 0 := by
  unfold received
  induction ms with
  | nil => rfl
  | cons m ms ih =>
    rw [List.map_cons, List.sum_cons, ih (fun m hm => h m (by simp [hm])), if_neg (fun hc => h m (by simp) hc.2)]

theorem split_denom {caller owner rc : Addr} {d : Denom} {r : Option Nat} {f v : Nat} :
    ∀ m ∈ split caller owner rc d r f v, m.coin.denom = d := by
  unfold split
  intro m hm
  have := (List.mem_filter.1 hm).1
  simp only [List.mem_cons, List.not_mem_nil, or_false] at this
  rcases this with rfl | rfl | rfl <;> rfl

theorem denomIn_ne_out {quote base : Denom} (h : quote ≠ base) (d : Dir) : denomOut quote base d ≠ denomIn quote base d := by
  cases d <;> simp only [denomIn, denomOut]
  · exact Ne.symm h
  · exact h

/-- The exit of an order's owner: claim, then cancel. -/
theorem exit_room {ch : Chain} {n : Nat} {w : World} {b : Book} (h : Traced ch n w b) (hn : Room 8 w.store) (ha : isActive w.store = true)
    {quote base : Denom} (hd : denoms w.store = .ok (quote, base)) {tick : Int} {dir : Dir} {x : Entry} (hx : x ∈ b tick dir) (hl : x.Live)
    (time : Nat) :
    let w' := run ch w [.execute x.owner [] time (.claimLimit tick x.id), .execute x.owner [] time (.cancelLimit tick x.id)]
    w'.store.orders.get? (tick, x.id) = none ∧
    w'.bank x.owner (denomIn quote base dir) = w.bank x.owner (denomIn quote base dir) + (x.placed - x.filled) ∧
    w.bank x.owner (denomOut quote base dir) + payout dir (x.filled - x.claimed) tick ≤
      w'.bank x.owner (denomOut quote base dir) + payout dir (x.filled - x.claimed) tick * getMakerFee w.store / 10 ^ 18 := by
  intro w'
  have hr := h.rel
  have how := h.owner_ne _ _ _ hx
  obtain ⟨ob, hob, rfl, rfl⟩ := denoms_eq hd
  have hne := denomIn_ne_out (filledBook_rel hr hob) dir
  obtain ⟨p, q, hsp⟩ := List.append_of_mem hx
  obtain ⟨hcf, hfp, -, -⟩ := C11_time_priority h hsp
  -- the cancel of an order without unclaimed fill
  have hcancel : ∀ {n1 : Nat} {w1 : World} {b1 : Book} {y : Entry}, Traced ch n1 w1 b1 → Room 4 w1.store → isActive w1.store = true →
      denoms w1.store = .ok (ob.quoteDenom, ob.baseDenom) → y ∈ b1 tick dir → y.Live → y.filled = y.claimed → y.id = x.id → y.owner = x.owner →
      (apply ch w1 (.execute x.owner [] time (.cancelLimit tick x.id))).store.orders.get? (tick, x.id) = none ∧
      (∀ d, (apply ch w1 (.execute x.owner [] time (.cancelLimit tick x.id))).bank x.owner d =
        w1.bank x.owner d + if d = denomIn ob.quoteDenom ob.baseDenom dir then y.placed - y.filled else 0) := by
    intro n1 w1 b1 y h1 hn1 ha1 hd1 hy hyl hyc hyid hyo
    obtain ⟨w2, resp, hs⟩ := h1.cancel_step hn1 ha1 hy (h1.owner_ne _ _ _ hy) hyl hyc time
    rw [hyid, hyo] at hs
    have ea : apply ch w1 (.execute x.owner [] time (.cancelLimit tick x.id)) = w2 := by unfold apply; rw [hs]
    rw [ea]
    obtain ⟨dir2, z, hz, hzid, -, -, hzc, -, -, hpaid, -, hord, -, -⟩ := C09_cancel_effects h1 hd1 hs
    obtain ⟨py, qy, hspy⟩ := List.append_of_mem hy
    obtain ⟨-, rfl, rfl⟩ := h1.rel.same_entry hspy hz (by rw [hzid, hyid])
    refine ⟨by rw [hord, if_pos rfl], fun d => ?_⟩
    split
    · subst_vars; rw [hpaid.to_, hzc]
    · rw [hpaid.other _ _ (Or.inr ‹_›)]; rfl
  by_cases hc : x.claimed < x.filled
  · obtain ⟨w1, resp, hs⟩ := h.claim_step (hn.mono (by omega)) how ha hx hl hc time
    have ea : apply ch w (.execute x.owner [] time (.claimLimit tick x.id)) = w1 := by unfold apply; rw [hs]
    have hw' : w' = apply ch w1 (.execute x.owner [] time (.cancelLimit tick x.id)) := by
      show apply ch (apply ch w _) _ = _
      rw [ea]
    have ht1 := Traced.ok h hs
    obtain ⟨dir2, y, hy, rc, hyid, -, -, -, -, hmsgs, -, hset, -, -, hord, -, -, -⟩ := C12_claim_effects h hd hs
    obtain ⟨-, rfl, rfl⟩ := hr.same_entry hsp hy hyid
    have hin := hset y.owner (denomIn ob.quoteDenom ob.baseDenom dir2)
    have hout := hset y.owner (denomOut ob.quoteDenom ob.baseDenom dir2)
    rw [if_neg how, Nat.add_zero] at hin hout
    rw [hmsgs, received_ne (fun m hm => by rw [split_denom m hm]; exact hne), Nat.add_zero] at hin
    have hself := received_split_self (a := y.owner) (rc := rc) (d := denomOut ob.quoteDenom ob.baseDenom dir2) (r := y.bounty)
      (f := getMakerFee w.store) (v := payout dir2 (y.filled - y.claimed) tick)
    rw [← hmsgs] at hself
    obtain ⟨dir3, p3, x3, q3, ob3, rc3, s1, k1, k2, -, -, -, -, -, -, k9, k10, -, -, k13⟩ := h.claim_inv hs
    obtain ⟨-, rfl, rfl⟩ := hr.same_entry hsp (show x3 ∈ b tick dir3 by rw [k1]; simp) k2
    rw [k13] at ht1
    have hcf1 : SameConf w.store w1.store := by
      rw [k10]; exact k9.conf.trans (claimedStore_conf _ _ _)
    have ha1 : isActive w1.store = true := by unfold isActive at ha ⊢; rw [hcf1.active]; exact ha
    have hd1 : denoms w1.store = .ok (ob.quoteDenom, ob.baseDenom) := denoms_of (by rw [hcf1.orderbook]; exact hob)
    by_cases hfull : x3.filled = x3.placed
    · rw [if_pos hfull, Option.map_eq_none_iff] at hord
      have hrej : Rejected ch w1 (.execute x3.owner [] time (.cancelLimit tick x3.id)) := by
        rw [rejected_iff]
        rintro ⟨w2, resp2, hs2⟩
        obtain ⟨_, _, _, _, _, _, _, _, _, _, ⟨o, ho, -⟩, -⟩ := C09_cancel_effects ht1 hd1 hs2
        rw [hord] at ho
        simp at ho
      rw [hw', hrej.2]
      refine ⟨hord, by rw [hin]; omega, by omega⟩
    · obtain ⟨g1, g2⟩ := hcancel ht1 ((h.step hs).own (Or.inl rfl) hn) ha1 hd1 (y := { x3 with claimed := x3.filled })
        (by rw [Book.set_self]; simp) ⟨hl.1, by simp only; omega⟩ rfl rfl rfl
      rw [hw', g2, g2, if_pos rfl, if_neg hne, hin]
      exact ⟨g1, rfl, by omega⟩
  · have hceq : x.filled = x.claimed := by omega
    have hrej : Rejected ch w (.execute x.owner [] time (.claimLimit tick x.id)) := by
      rw [rejected_iff, claim_iff_room h (hn.mono (by omega)) ha how]
      rintro ⟨-, d2, y, hy, hyid, -, hyc⟩
      obtain ⟨-, -, rfl⟩ := hr.same_entry hsp hy hyid
      omega
    have hw' : w' = apply ch w (.execute x.owner [] time (.cancelLimit tick x.id)) := by
      show apply ch (apply ch w _) _ = _
      rw [hrej.2]
    obtain ⟨g1, g2⟩ := hcancel h (hn.mono (by omega)) ha hd hx hl hceq rfl rfl
    have hv : payout dir (x.filled - x.claimed) tick = 0 := by
      rw [hceq, Nat.sub_self, ← payout_eq (hr.range tick dir (by rw [hsp]; simp)), valDown_zero]
    rw [hw', g2, g2, if_pos rfl, if_neg hne, hv]
    exact ⟨g1, rfl, by omega⟩

/-- C46 (exit): on an active book the owner of a live order can always leave with everything it is worth: claiming and then cancelling it
removes the order, refunds the whole unfilled quantity and pays at least the tick-price value of the unclaimed fill minus the maker fee. -/
theorem C46_exit {ch : Chain} {n : Nat} {w : World} {b : Book} (h : Traced ch n w b) (hn : w.HasRoom) (ha : isActive w.store = true)
    {quote base : Denom} (hd : denoms w.store = .ok (quote, base)) {tick : Int} {dir : Dir} {x : Entry} (hx : x ∈ b tick dir) (hl : x.Live)
    (time : Nat) :
    let w' := run ch w [.execute x.owner [] time (.claimLimit tick x.id), .execute x.owner [] time (.cancelLimit tick x.id)]
    w'.store.orders.get? (tick, x.id) = none ∧
    w'.bank x.owner (denomIn quote base dir) = w.bank x.owner (denomIn quote base dir) + (x.placed - x.filled) ∧
    w.bank x.owner (denomOut quote base dir) + payout dir (x.filled - x.claimed) tick ≤
      w'.bank x.owner (denomOut quote base dir) + payout dir (x.filled - x.claimed) tick * getMakerFee w.store / 10 ^ 18 := by
  exact exit_room h (hn.room.mono (by omega)) ha hd hx hl time

/-- Non-vacuity of C46: dave's order 3 of the demo book (60000 of 100000 filled): he leaves with 40000 quote and 58800 base. -/
example : Traced Demo.ch 10 Demo.after (Demo.trace Demo.history).2 ∧
    (∃ x ∈ (Demo.trace Demo.history).2 0 .bid, x.owner = "dave" ∧ x.id = 3 ∧ x.Live ∧ x.claimed < x.filled ∧ x.filled < x.placed) ∧
    (let w' := run Demo.ch Demo.after [.execute "dave" [] 5 (.claimLimit 0 3), .execute "dave" [] 5 (.cancelLimit 0 3)]
     (w'.bank "dave" "q" - Demo.after.bank "dave" "q", w'.bank "dave" "b" - Demo.after.bank "dave" "b") = (40000, 58800)) := by
  refine ⟨Demo.traced Demo.history, ?_, ?_⟩ <;> decide +kernel

/-! ### C47 -/

theorem spent_eq (d : Denom) (ms : List SendMsg) : spent d ms = msgSum d ms := by
  unfold spent
  induction ms with
  | nil => rfl
  | cons m ms ih => rw [List.map_cons, List.sum_cons, ih, msgSum_cons]

theorem amountOf_eq (d : Denom) (cs : List Coin) : amountOf d cs = coinSum d cs := by
  unfold amountOf
  induction cs with
  | nil => rfl
  | cons m ms ih => rw [List.map_cons, List.sum_cons, ih, coinSum_cons]

theorem deposit_eq (op : Op) : deposit op = op.inflow := by
  cases op with
  | «sudo» time msg => cases msg <;> rfl
  | _ => rfl

theorem split_same {x y : Entry} {sender rc : Addr} {dn : Denom} {f v : Nat} (h1 : y.owner = x.owner) (h2 : y.bounty = x.bounty) :
    split sender y.owner rc dn y.bounty f v = split sender x.owner rc dn x.bounty f v := by rw [h1, h2]

/-- Transfers of a claim, and how it changes the queues. -/
theorem ClaimStep.justified {sender : Addr} {tick : Int} {id : Nat} {s s' : Store} {b b' : Book} {r : Nat × List SendMsg × LimitOrder}
    (h : ClaimStep sender tick id s b r s' b') (hr : Rel s b) {ob : Orderbook} (hob : s.orderbook = some ob) :
    (∃ dir x rc, x.id = id ∧ x ∈ b tick dir ∧ x.Live ∧ x.claimed < x.filled ∧ s.makerFeeRecipient = some rc ∧
      r.2.1 = split sender x.owner rc (denomOut ob.quoteDenom ob.baseDenom dir) x.bounty (getMakerFee s) (payout dir (x.filled - x.claimed) tick)) ∧
    (∀ t d, ∀ y ∈ b' t d, y.claimed < y.filled → y ∈ b t d) := by
  obtain ⟨k1, k2, k3, k4, k5, k6, k7⟩ := h
  rename_i s1 dir p q x ob' rc
  obtain rfl := orderbook_inj hob k4
  refine ⟨⟨dir, x, rc, k3, by rw [k1]; simp, k2, k7, k5, ?_⟩, ?_⟩
  · rw [denomOut_eq, ← payout_eq (hr.range tick dir (by rw [k1]; simp)), ← claimMsgs_eq_split]
  · intro t d y g2 g4
    by_cases he : t = tick ∧ d = dir
    · obtain ⟨rfl, rfl⟩ := he
      rw [Book.set_self] at g2
      rw [k1]
      rcases List.mem_append.1 g2 with g2 | g2
      · exact List.mem_append.2 (Or.inl g2)
      · rcases List.mem_cons.1 g2 with rfl | g2
        · simp only at g4; omega
        · exact List.mem_append.2 (Or.inr (List.mem_cons_of_mem _ g2))
    · rw [Book.set_ne _ _ (by tauto)] at g2
      exact g2

/-- Transfers of a run of claims. -/
theorem ClaimRun.justified {sender : Addr} {ob : Orderbook} {l : List (Int × Nat)} {s s' : Store} {b b' : Book} {ms : List SendMsg}
    {es : List Event} (h : ClaimRun sender ob l s b ms es s' b') (hr : Rel s b) (hob : s.orderbook = some ob) :
    ∀ m ∈ ms, ∃ tick dir x rc, (tick, x.id) ∈ l ∧ x ∈ b tick dir ∧ x.Live ∧ x.claimed < x.filled ∧ s.makerFeeRecipient = some rc ∧
      m ∈ split sender x.owner rc (denomOut ob.quoteDenom ob.baseDenom dir) x.bounty (getMakerFee s) (payout dir (x.filled - x.claimed) tick) := by
  induction h with
  | nil => simp
  | @ok tick id rest s b r s1 b1 ms es s' b' h1 h2 _ ih =>
    intro m hm
    have hcf := h2.conf
    rcases List.mem_append.1 hm with hm | hm
    · obtain ⟨dir, x, rc, rfl, k2, k3, k4, k5, k6⟩ := (h2.justified hr hob).1
      exact ⟨tick, dir, x, rc, by simp, k2, k3, k4, k5, by rw [← k6]; exact hm⟩
    · obtain ⟨t2, d2, x, rc, g1, g2, g3, g4, g5, g6⟩ := ih h2.rel (by rw [hcf.orderbook]; exact hob) m hm
      have hx : x ∈ b t2 d2 := (h2.justified hr hob).2 _ _ _ g2 g4
      refine ⟨t2, d2, x, rc, by simp [g1], hx, g3, g4, by rw [← hcf.recipient]; exact g5, ?_⟩
      have : getMakerFee s1 = getMakerFee s := by unfold getMakerFee; rw [hcf.fee]
      rw [← this]; exact g6
  | @skip tick id rest s b e s1 ms es s' b' h1 h2 _ ih =>
    intro m hm
    have hcf := h2.conf
    obtain ⟨t2, d2, x, rc, g1, g2, g3, g4, g5, g6⟩ := ih (h2.rel hr) (by rw [hcf.orderbook]; exact hob) m hm
    refine ⟨t2, d2, x, rc, by simp [g1], g2, g3, g4, by rw [← hcf.recipient]; exact g5, ?_⟩
    have : getMakerFee s1 = getMakerFee s := by unfold getMakerFee; rw [hcf.fee]
    rw [← this]; exact g6

/-- C47: in any accepted operation the contract's balances decrease only through the transfers of the response, after the operation's own deposit
has been received, and every one of these transfers is justified: a refund to the owner who cancels, a share of a claimed fill, or the output
or change of a swap. -/
theorem C47_outflow_justified {ch : Chain} {n : Nat} {w w' : World} {b : Book} (h : Traced ch n w b) {quote base : Denom}
    (hd : denoms w.store = .ok (quote, base)) {op : Op} {resp : Response} (hs : step ch w op = .ok (w', resp)) :
    (∀ d, w.bank ch.contract d + amountOf d (deposit op) ≤ w'.bank ch.contract d + spent d resp.msgs) ∧
    (∀ m ∈ resp.msgs, Justified w b quote base w'.store op m) := by
  obtain ⟨ob, hob, rfl, rfl⟩ := denoms_eq hd
  have hr := h.rel
  refine ⟨?_, ?_⟩
  · intro d
    obtain ⟨bank1, hb1, hb2⟩ := step_bank hs
    have a2 := Bank.dispatch_pay hb1 d
    have a3 := hb2 d
    rw [spent_eq, amountOf_eq, deposit_eq]
    omega
  · have hst := h.step hs
    have hs0 := hs
    generalize b.observe _ _ _ _ = b' at hst
    generalize hs' : w'.store = s' at hst
    cases hst with
    | place => simp
    | @cancel time tick dir _ s1 _ ob' p q x tr ts1 h1 h2 h3 h4 h5 =>
      intro m hm
      simp only [List.mem_singleton] at hm
      subst hm
      obtain rfl := orderbook_inj hob h2
      rw [← denomIn_eq, ← h5]
      exact .refund (by rw [h3]; simp) h4 h5
    | @claim sender time tick id _ _ ob' r _ _ h1 h2 h3 h4 =>
      intro m hm
      obtain ⟨dir, x, rc, rfl, k2, k3, k4, k5, k6⟩ := (h4.justified hr hob).1
      exact .claim k2 k3 k4 k5 (by rw [← k6]; exact hm)
    | @batch sender time l _ _ ob' ms es _ _ h1 h2 h3 h4 =>
      intro m hm
      obtain rfl := orderbook_inj hob h2
      obtain ⟨tick, dir, x, rc, g1, g2, g3, g4, g5, g6⟩ := h4.justified hr hob m hm
      exact .batch g1 g2 g3 g4 g5 g6
    | @swap time msg sender c out mo fee target _ _ ob' dir F q' dust lp h1 h2 h3 h4 h5 =>
      obtain rfl := orderbook_inj hob h2
      obtain ⟨r, hr1, hr2⟩ : ∃ r : SwapReq, Op.sudo time msg = r.op time ∧ r = ⟨sender, c, out, mo, fee, target⟩ := by
        refine ⟨⟨sender, c, out, mo, fee, target⟩, ?_, rfl⟩
        cases msg <;> simp [SudoMsg.swapArgs] at h3
        · obtain ⟨rfl, rfl, rfl, rfl, rfl, rfl⟩ := h3; rfl
        · obtain ⟨rfl, rfl, rfl, rfl, rfl, rfl⟩ := h3; rfl
      rw [hr1] at hs0 ⊢
      have hreach : Reachable ch w := ⟨n, h.reachable⟩
      have hp : r.pair ob'.quoteDenom ob'.baseDenom dir.opposite := by
        subst hr2; exact SwapOk.pair (r := ⟨sender, c, out, mo, fee, target⟩) h5
      obtain ⟨refund, d2, e1, e2, -⟩ := C22_input_accounted hreach hd hs0 hp
      obtain ⟨o2, f1, f2, -⟩ := C24_swap_conservation hreach hd hs0 hp
      obtain ⟨-, -, -, -, o3, rf3, g1, -, -, g2, -, -⟩ := C18_swap_payment hreach hd hs0
      rw [f1] at g1
      obtain rfl : o2 = o3 := by simpa using g1
      rw [g2] at e1 ⊢
      rw [List.tail_cons] at e1
      intro m hm
      rw [hs'] at f2 e2
      rcases List.mem_cons.1 hm with rfl | hm
      · rw [← f2]; exact .output hp
      · rw [e1] at hm
        split at hm
        · simp at hm
        · simp only [List.mem_singleton] at hm
          subst hm
          exact .change hp (by omega)
    | config h1 h2 h3 h4 => rw [h4]; simp

/-- C47: placing an order, auth messages, sudo admin messages, migration and other accounts' transfers never lower any balance of the contract. -/
theorem C47_no_outflow {ch : Chain} {w w' : World} (hw : Reachable ch w) {op : Op} {resp : Response} (hs : step ch w op = .ok (w', resp))
    (hop : match op with
      | .execute _ _ _ (.placeLimit ..) => True
      | .execute _ _ _ (.auth _) => True
      | .execute .. => False
      | .sudo _ (.swapExactAmountIn ..) => False
      | .sudo _ (.swapToTick ..) => False
      | _ => True) (d : Denom) : w.bank ch.contract d + amountOf d (deposit op) ≤ w'.bank ch.contract d := by
  obtain ⟨n, hn⟩ := hw
  obtain ⟨b, h⟩ := hn.traced
  obtain ⟨ob, hob, -⟩ := h.rel.ptr
  have h1 := (C47_outflow_justified h (denoms_of hob) hs).1 d
  have hst := h.step hs
  have h2 : resp.msgs = [] := by
    generalize b.observe _ _ _ _ = b' at hst
    generalize hs' : w'.store = s' at hst
    cases hst with
    | place => rfl
    | cancel => exact hop.elim
    | claim => exact hop.elim
    | batch => exact hop.elim
    | @swap time msg _ _ _ _ _ _ _ _ _ _ _ _ _ _ _ _ h3 _ _ =>
      cases msg with
      | swapExactAmountIn => exact hop.elim
      | swapToTick => exact hop.elim
      | _ => simp [SudoMsg.swapArgs] at h3
    | config h1 h2 h3 h4 => exact h4
  rw [h2] at h1
  exact h1

/-- Non-vacuity of C47: the sale on the demo book pays 170000 quote out of the contract for 300000 base received. -/
example : (let w' := apply Demo.ch Demo.after (Demo.sell "zed" 300000 0)
     (Demo.after.bank "orderbook" "q" - w'.bank "orderbook" "q", w'.bank "orderbook" "b" - Demo.after.bank "orderbook" "b")) = (170000, 300000) := by
  decide +kernel
/-- ... and placing an order only brings funds in. -/
example : (let w' := apply Demo.ch Demo.after (Demo.place "zed" 5 .ask 77 none)
     (w'.bank "orderbook" "b" - Demo.after.bank "orderbook" "b", w'.bank "orderbook" "q" - Demo.after.bank "orderbook" "q")) = (77, 0) := by
  decide +kernel

end OB
