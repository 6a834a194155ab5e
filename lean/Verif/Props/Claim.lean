import Verif.Proofs.ClaimObs
import Verif.Proofs.Demo
/- C11-C16: claiming. -/
namespace OB
open Spec

/-- C11 (orders): the stored orders are exactly the live orders of the bookkeeper's queues, with the same data; the stored quantity is
what has not been claimed yet. -/
theorem C11_orders_are_live_entries {ch : Chain} {n : Nat} {w : World} {b : Book} (h : Traced ch n w b) (tick : Int) (id : Nat) :
    (∀ o, w.store.orders.get? (tick, id) = some o → ∃ dir, ∃ x ∈ b tick dir, x.Live ∧ x.id = id ∧ o.tickId = tick ∧ o.orderId = id ∧
      o.dir = dir ∧ o.owner = x.owner ∧ o.claimBounty = x.bounty ∧ o.placedQuantity = x.placed ∧ o.placedAt = x.placedAt ∧
      o.quantity = x.placed - x.claimed) ∧
    (∀ dir, ∀ x ∈ b tick dir, x.Live → x.id = id → ∃ o, w.store.orders.get? (tick, id) = some o) := by
  have hr := h.rel
  constructor
  · intro o ho
    obtain ⟨dir, p, x, q, h1, h2, h3, rfl⟩ := (hr.orders tick id o).1 ho
    exact ⟨dir, x, by rw [h1]; simp, h2, h3, rfl, h3, rfl, rfl, rfl, rfl, rfl, rfl⟩
  · intro dir x hx hl hid
    obtain ⟨p, q, hsp⟩ := List.append_of_mem hx
    exact ⟨_, (hr.orders tick id _).2 ⟨dir, p, x, q, hsp, hl, hid, rfl⟩⟩

/-- C11 (time priority): in the bookkeeper's queues an order is filled only when every older order of the queue has nothing left; and
claimed ≤ filled ≤ placed. -/
theorem C11_time_priority {ch : Chain} {n : Nat} {w : World} {b : Book} (h : Traced ch n w b) {tick : Int} {dir : Dir} {p q : List Entry}
    {x : Entry} (hq : b tick dir = p ++ x :: q) :
    x.claimed ≤ x.filled ∧ x.filled ≤ x.placed ∧ (x.cancelled = true → x.filled = x.claimed) ∧
    ∀ y ∈ q, y.filled ≠ 0 → x.left = 0 := by
  obtain ⟨r, rt, hs, -, -⟩ := h.rel.sides tick dir
  have hx := hs.ok x (by rw [hq]; simp)
  refine ⟨hx.claimed_le, hx.filled_le, fun hc => (hx.canc hc).1, ?_⟩
  intro y hy hne
  have hf := hs.fifo
  have hok := hs.ok
  rw [hq, fifo_append] at hf
  rw [hq] at hok
  obtain ⟨-, h1, h2⟩ := hf
  generalize sumBy Entry.filled (p ++ x :: q) - sumBy Entry.cap p = S at h1 h2
  have hle : S - x.cap ≠ 0 := by
    intro h0
    rw [h0] at h2
    exact hne (fifo_zero h2 y hy)
  have := hx.filled_add_left
  omega

theorem claim_iff_room {ch : Chain} {n : Nat} {w : World} {b : Book} (h : Traced ch n w b) (hn : Room 4 w.store)
    (ha : isActive w.store = true) {sender : Addr} (hs : sender ≠ ch.contract) (funds : List Coin) (time : Nat) (tick : Int) (id : Nat) :
    Accepted ch w (.execute sender funds time (.claimLimit tick id)) ↔
      funds = [] ∧ ∃ dir, ∃ x ∈ b tick dir, x.id = id ∧ x.Live ∧ x.claimed < x.filled := by
  constructor
  · rintro ⟨w', resp, hok⟩
    obtain ⟨dir, p, x, q, ob, rc, s1, h1, h2, h3, h4, h5, -⟩ := h.claim_inv hok
    exact ⟨h5, dir, x, by rw [h1]; simp, h2, h3, h4⟩
  · rintro ⟨rfl, dir, x, hx, rfl, hl, hc⟩
    exact h.claim_step hn hs ha hx hl hc time

/-- C11 (condition): on an active book a claim (by anyone) is accepted exactly when it attaches no funds and the order is live and has a fill
(by time priority) that is not claimed yet. -/
theorem C11_claim_iff_unclaimed_fill {ch : Chain} {n : Nat} {w : World} {b : Book} (h : Traced ch n w b) (hn : w.HasRoom)
    (ha : isActive w.store = true) {sender : Addr} (hs : sender ≠ ch.contract) (funds : List Coin) (time : Nat) (tick : Int) (id : Nat) :
    Accepted ch w (.execute sender funds time (.claimLimit tick id)) ↔
      funds = [] ∧ ∃ dir, ∃ x ∈ b tick dir, x.id = id ∧ x.Live ∧ x.claimed < x.filled :=
  claim_iff_room h hn.few ha hs funds time tick id

/-- C11 (amount) and C12: an accepted claim is of a live order with an unclaimed fill; it pays exactly the tick-price value (rounded
down) of filled − claimed, divided by the reference split between the order's owner, the caller (bounty) and the fee
recipient (fee at the current rate), all in the output denom, and nothing to anyone else. The order keeps exactly its unfilled
part (and disappears if that is zero); no other order and no liquidity changes. -/
theorem C12_claim_effects {ch : Chain} {n : Nat} {w : World} {b : Book} (h : Traced ch n w b) {quote base : Denom}
    (hd : denoms w.store = .ok (quote, base)) {sender : Addr} {funds : List Coin} {time : Nat} {tick : Int} {id : Nat} {w' : World}
    {resp : Response} (hs : step ch w (.execute sender funds time (.claimLimit tick id)) = .ok (w', resp)) :
    ∃ dir, ∃ x ∈ b tick dir, ∃ recipient, x.id = id ∧ x.Live ∧ x.claimed < x.filled ∧ funds = [] ∧
      w.store.makerFeeRecipient = some recipient ∧
      resp.msgs = split sender x.owner recipient (denomOut quote base dir) x.bounty (getMakerFee w.store)
        (payout dir (x.filled - x.claimed) tick) ∧
      sentAll resp.msgs = payout dir (x.filled - x.claimed) tick ∧
      Settled w.bank w'.bank ch.contract resp.msgs ∧
      (∃ o, w.store.orders.get? (tick, id) = some o ∧ o.owner = x.owner ∧ o.claimBounty = x.bounty ∧ o.dir = dir) ∧
      (∀ k, k ≠ (tick, id) → w'.store.orders.get? k = w.store.orders.get? k) ∧
      (w'.store.orders.get? (tick, id)).map LimitOrder.quantity = (if x.filled = x.placed then none else some (x.placed - x.filled)) ∧
      (∀ t d, tickLiquidity w'.store t d = tickLiquidity w.store t d) ∧ (∀ d, dirLiquidity w'.store d = dirLiquidity w.store d) ∧
      resp.events = [.limitClaimed sender tick id (x.placed - x.filled) x.owner dir (sent 2 resp.msgs) x.placed
        (decide (x.filled = x.placed)) (denomIn quote base dir) (denomOut quote base dir)] := by
  obtain ⟨ob, hob, rfl, rfl⟩ := denoms_eq hd
  have hr := h.rel
  have ht' := Traced.ok h hs
  obtain ⟨dir, p, x, q, ob', rc, s1, h1, rfl, h3, h4, h5, h6, h7, h8, h9, h10, h11, h12, h13⟩ := h.claim_inv hs
  obtain rfl := orderbook_inj hob h6
  have hx : x ∈ b tick dir := by rw [h1]; simp
  have hrange := hr.range tick dir (by rw [h1]; simp)
  obtain ⟨-, hfp, -, -⟩ := C11_time_priority h h1
  have hmsgs : resp.msgs = split sender x.owner rc (denomOut ob'.quoteDenom ob'.baseDenom dir) x.bounty (getMakerFee w.store)
      (payout dir (x.filled - x.claimed) tick) := by
    rw [h11, denomOut_eq, ← payout_eq hrange]; exact claimMsgs_eq_split ..
  have hfacts := split_facts (caller := sender) (owner := x.owner) (rc := rc) (denom := denomOut ob'.quoteDenom ob'.baseDenom dir)
    (r := x.bounty) (f := getMakerFee w.store) (v := payout dir (x.filled - x.claimed) tick)
    (bountyOk_iff.1 (hr.bounty tick dir x hx)) hr.conf.fee
  have hr' : Rel w'.store (b.set tick dir (p ++ { x with claimed := x.filled } :: q)) := by rw [← h13]; exact ht'.rel
  have hget : ∀ k, w'.store.orders.get? k = if k = (tick, x.id) then
      (if x.placed - x.filled = 0 then none else some (orderOf tick dir (sumBy Entry.placed p) { x with claimed := x.filled }))
      else w.store.orders.get? k := by
    intro k
    have e : s1.orders = w.store.orders := by rw [h9.store]
    rw [h10, ← e]
    unfold claimedStore
    have eq : (orderOf tick dir (sumBy Entry.placed p) { x with claimed := x.filled }).quantity = x.placed - x.filled := rfl
    have eid : (orderOf tick dir (sumBy Entry.placed p) { x with claimed := x.filled }).orderId = x.id := rfl
    rw [eq, eid]
    by_cases hz : x.placed - x.filled = 0
    · rw [if_pos hz, if_pos hz]; exact SMap.get?_erase ..
    · rw [if_neg hz, if_neg hz]; exact SMap.get?_insert ..
  have hl2 : Entry.left { x with claimed := x.filled } = x.left := rfl
  refine ⟨dir, x, hx, rc, rfl, h3, h4, h5, h7, hmsgs, by rw [hmsgs]; exact hfacts.1, Bank.dispatch_settled h12,
    ⟨_, (hr.orders tick x.id _).2 ⟨dir, p, x, q, h1, h3, rfl, rfl⟩, rfl, rfl, rfl⟩, ?_, ?_, ?_, ?_, ?_⟩
  · intro k hk; rw [hget, if_neg hk]
  · rw [hget, if_pos rfl]
    by_cases hz : x.filled = x.placed
    · rw [if_pos (by omega), if_pos hz]; rfl
    · rw [if_neg (by omega), if_neg hz]; rfl
  · intro t d
    rw [hr'.tickLiq, hr.tickLiq]
    by_cases he : t = tick ∧ d = dir
    · obtain ⟨rfl, rfl⟩ := he
      rw [Book.set_self, h1]; simp [hl2]
    · rw [Book.set_ne _ _ (by tauto)]
  · intro d
    rw [hr'.dirLiquidity, hr.dirLiquidity]
    have := openOf_drop (b := b) (l := p ++ { x with claimed := x.filled } :: q) (k := 0) hrange (by rw [h1]; simp [hl2]) d
    simpa using this
  · rw [hmsgs, hfacts.2.2.2.2, h11]
    unfold claimResp
    rw [ownerAmount_eq, payout_eq hrange, denomIn_eq, denomOut_eq]
    have : decide (x.placed - x.filled = 0) = decide (x.filled = x.placed) := by
      rw [decide_eq_decide]; omega
    simp only [this]

/-- Non-vacuity of C11/C12: after the demo history, zed claims dave's partially filled order 3: of the 60000 filled, dave gets 58200, zed
the 1% bounty and the fee recipient 2%. -/
example : Traced Demo.ch 10 (Demo.trace Demo.history).1 (Demo.trace Demo.history).2 ∧ (Demo.trace Demo.history).1.HasRoom ∧
    isActive (Demo.trace Demo.history).1.store = true ∧
    (∃ x ∈ (Demo.trace Demo.history).2 0 .bid, x.id = 3 ∧ x.Live ∧ x.claimed < x.filled ∧ x.filled < x.placed) ∧
    (respOf Demo.ch (Demo.trace Demo.history).1 (Demo.claim "zed" 0 3)).map Response.msgs =
      some [⟨"dave", ⟨"b", 58200⟩, 2⟩, ⟨"zed", ⟨"b", 600⟩, 3⟩, ⟨"fees", ⟨"b", 1200⟩, 4⟩] := by
  refine ⟨Demo.traced Demo.history, Demo.room _ (by decide +kernel), ?_, ?_, ?_⟩ <;> decide +kernel

/-- C13: in every reachable configuration the fee rate is at most 5% and every order's bounty rate at most 1%; of every claim the caller's bounty
is at most 1% and at most the order's rate, the fee at most 5% and at most the configured rate, and the owner
receives at least 94%. -/
theorem C13_owner_share {ch : Chain} {n : Nat} {w : World} {b : Book} (h : Traced ch n w b) :
    getMakerFee w.store ≤ 5 * 10 ^ 16 ∧ (∀ k o r, w.store.orders.get? k = some o → o.claimBounty = some r → r ≤ 10 ^ 16) ∧
    ∀ sender funds time tick id w' resp, step ch w (.execute sender funds time (.claimLimit tick id)) = .ok (w', resp) →
      ∃ o, w.store.orders.get? (tick, id) = some o ∧
      100 * sent 3 resp.msgs ≤ sentAll resp.msgs ∧ 10 ^ 18 * sent 3 resp.msgs ≤ o.claimBounty.getD 0 * sentAll resp.msgs ∧
      20 * sent 4 resp.msgs ≤ sentAll resp.msgs ∧ 10 ^ 18 * sent 4 resp.msgs ≤ getMakerFee w.store * sentAll resp.msgs ∧
      94 * sentAll resp.msgs ≤ 100 * sent 2 resp.msgs ∧ (∀ m ∈ resp.msgs, m.replyId = 2 → m.to = o.owner) ∧
      (∀ m ∈ resp.msgs, m.replyId = 3 → m.to = sender) ∧ (∀ m ∈ resp.msgs, m.replyId = 4 → w.store.makerFeeRecipient = some m.to) := by
  have hr := h.rel
  refine ⟨hr.conf.fee, ?_, ?_⟩
  · rintro ⟨tick, id⟩ o r ho hb
    obtain ⟨dir, p, x, q, h1, h2, h3, rfl⟩ := (hr.orders tick id o).1 ho
    exact bountyOk_iff.1 (hr.bounty tick dir x (by rw [h1]; simp)) r hb
  · intro sender funds time tick id w' resp hs
    obtain ⟨ob, hob, -⟩ := hr.ptr
    obtain ⟨dir, x, hx, rc, h1, h2, h3, h4, h5, h6, h7, h8, ⟨o, h9, h10, h11, h12⟩, -⟩ := C12_claim_effects h (denoms_of hob) hs
    refine ⟨o, h9, ?_⟩
    have hfacts := split_facts (caller := sender) (owner := x.owner) (rc := rc) (denom := denomOut ob.quoteDenom ob.baseDenom dir)
      (r := x.bounty) (f := getMakerFee w.store) (v := payout dir (x.filled - x.claimed) tick)
      (bountyOk_iff.1 (hr.bounty tick dir x hx)) hr.conf.fee
    have hrates := split_rates (caller := sender) (owner := x.owner) (rc := rc) (denom := denomOut ob.quoteDenom ob.baseDenom dir)
      (r := x.bounty) (f := getMakerFee w.store) (v := payout dir (x.filled - x.claimed) tick)
    rw [← h6, ← h7] at hfacts hrates
    obtain ⟨g1, g2, g3, g4, -⟩ := hfacts
    obtain ⟨k1, k2, k3⟩ := hrates
    rw [h11, h10, h5]
    refine ⟨by omega, k1, by omega, k2, by omega, fun m hm => (k3 m hm).1, fun m hm => (k3 m hm).2.1, fun m hm hm4 => ?_⟩
    rw [(k3 m hm).2.2 hm4]

/-- Non-vacuity: see the demo claim above; there the owner keeps 97%. -/
example : (58200 : Nat) * 100 ≥ 94 * 60000 := by norm_num

/-- C14 (no double claim): immediately after an accepted claim the same claim, by anyone, is rejected. -/
theorem C14_no_double_claim {ch : Chain} {w : World} (hw : Reachable ch w) {sender : Addr} {funds : List Coin} {time : Nat} {tick : Int} {id : Nat}
    {w' : World} {resp : Response} (hs : step ch w (.execute sender funds time (.claimLimit tick id)) = .ok (w', resp))
    (anyone : Addr) (funds' : List Coin) (time' : Nat) (tick' : Int) :
    Rejected ch w' (.execute anyone funds' time' (.claimLimit tick' id)) := by
  obtain ⟨n, hn⟩ := hw
  obtain ⟨b, h⟩ := hn.traced
  have ht' := Traced.ok h hs
  obtain ⟨dir, p, x, q, ob', rc, s1, h1, rfl, h3, h4, h5, h6, h7, h8, h9, h10, h11, h12, h13⟩ := h.claim_inv hs
  rw [h13] at ht'
  rw [rejected_iff_respOf]
  refine ht'.claim_resp_none (Or.inr (Or.inr fun d y hy hyid hl => ?_))
  obtain ⟨-, -, rfl⟩ := ht'.rel.same_entry (show b.set tick dir (p ++ { x with claimed := x.filled } :: q) tick dir = p ++ { x with claimed := x.filled } :: q
    from Book.set_self ..) hy hyid
  exact le_refl _

/-- C14 (full claim is final): once a claim has covered the whole order, it is gone, and can never be claimed or cancelled again. -/
theorem C14_full_claim_final {ch : Chain} {w : World} (hw : Reachable ch w) {sender : Addr} {funds : List Coin} {time : Nat} {tick : Int} {id : Nat}
    {w' : World} {resp : Response} (hs : step ch w (.execute sender funds time (.claimLimit tick id)) = .ok (w', resp))
    (hfull : w'.store.orders.get? (tick, id) = none) (ops : List Op) (tick' : Int) (anyone : Addr) (funds' : List Coin) (time' : Nat) :
    (run ch w' ops).store.orders.get? (tick', id) = none ∧
    Rejected ch (run ch w' ops) (.execute anyone funds' time' (.cancelLimit tick' id)) ∧
    Rejected ch (run ch w' ops) (.execute anyone funds' time' (.claimLimit tick' id)) := by
  obtain ⟨n, hn⟩ := hw
  obtain ⟨b, h⟩ := hn.traced
  have ht' := Traced.ok h hs
  obtain ⟨b2, h2, hgrow, -⟩ := ht'.run_grows ops
  obtain ⟨dir, p, x, q, ob', rc, s1, h1, rfl, h3, h4, h5, h6, h7, h8, h9, h10, h11, h12, h13⟩ := h.claim_inv hs
  rw [h13] at ht' hgrow
  have hx' : ({ x with claimed := x.filled } : Entry) ∈ b.set tick dir (p ++ { x with claimed := x.filled } :: q) tick dir := by
    rw [Book.set_self]; simp
  have hdead' : ¬ Entry.Live { x with claimed := x.filled } := by
    intro hl
    rcases ht'.rel.lookup tick x.id with ⟨-, k2⟩ | ⟨dd, pp, y, qq, k1, k2, k3, k4⟩
    · exact k2 dir _ hx' rfl hl
    · rw [hfull] at k4; simp at k4
  have hdead : ∃ x2 ∈ b2 tick dir, x2.id = x.id ∧ ¬ x2.Live := by
    obtain ⟨x2, hx2, he⟩ := (hgrow tick dir).mem hx'
    refine ⟨x2, hx2, he.id, ?_⟩
    have hfp := (C11_time_priority h h1).2.1
    have : x.filled = x.placed := by
      by_contra hne
      exact hdead' ⟨h3.1, by show x.filled < x.placed; omega⟩
    have e := he.done (by show x.filled = x.placed; exact this)
    rw [e]; exact hdead'
  obtain ⟨x2, hx2, hid, hnl⟩ := hdead
  have huniq : ∀ d, ∀ y ∈ b2 tick' d, y.id = x.id → ¬ y.Live := by
    intro d y hy hyid
    obtain ⟨p, q, hsp⟩ := List.append_of_mem hx2
    obtain ⟨-, -, rfl⟩ := h2.rel.same_entry hsp hy (by rw [hid, hyid])
    exact hnl
  refine ⟨?_, ?_, ?_⟩
  · rcases h2.rel.lookup tick' x.id with ⟨k1, -⟩ | ⟨dd, pp, y, qq, k1, k2, k3, k4⟩
    · exact k1
    · exact absurd k2 (huniq dd y (by rw [k1]; simp) k3)
  · rw [rejected_iff_respOf]
    refine h2.cancel_resp_none ?_
    rintro ⟨d, y, hy, hyid, hl, -⟩
    exact huniq d y hy hyid hl
  · rw [rejected_iff_respOf]
    exact h2.claim_resp_none (Or.inr (Or.inr fun d y hy hyid hl => absurd hl (huniq d y hy hyid)))

/-- C14 (total): over any history from instantiation, what an order's owner was paid by claims and refunded by cancels corresponds to a claimed
part `c` and a refunded part `r` of the order with `c + r` at most the placed quantity: the claims paid at most the tick-price value of
`c`, the refunds were exactly `r`. -/
theorem C14_total {ch : Chain} {w0 : World} (hi : Initial ch w0) (ops : List Op) {owner : Addr} {tick : Int} {id : Nat} {dir : Dir}
    {quantity : Nat} {d1 d2 : Denom} (he : Event.placeLimit owner tick id dir quantity d1 d2 ∈ log ch w0 ops) :
    ∃ c r, c + r ≤ quantity ∧ claimedOut id (log ch w0 ops) ≤ payout dir c tick ∧ refunded id (log ch w0 ops) = r := by
  obtain ⟨b, hb, hbk⟩ := (Booked.init).run (.init hi) ops
  obtain ⟨x, hx, hxid, hxp, -⟩ := hbk.places _ _ _ _ _ _ _ he
  obtain ⟨⟨g1, -⟩, g2⟩ := hbk.amounts tick dir x hx
  have hrange := hb.rel.range tick dir (List.ne_nil_of_mem hx)
  obtain ⟨p, q, hsp⟩ := List.append_of_mem hx
  obtain ⟨k1, k2, k3, -⟩ := C11_time_priority hb hsp
  rw [hxid] at g1 g2
  rw [payout_eq hrange] at g1
  refine ⟨x.claimed, if x.cancelled then x.placed - x.claimed else 0, ?_, by simpa using g1, by simpa [Entry.refund] using g2⟩
  rw [← hxp]
  split <;> omega

/-- Non-vacuity of C14: in the demo dave's order (100000 placed) is claimed twice: 60000 of it, then after another swap the rest; alice's order
is refunded. The claims and refund are visible in the log. -/
example : ∃ owner q d1 d2, Event.placeLimit owner 0 3 .bid q d1 d2 ∈
      log Demo.ch Demo.w0 (Demo.history ++ [Demo.claim "zed" 0 3, Demo.sell "frank" 40000 1, Demo.claim "zed" 0 3]) ∧
    claimedOut 3 (log Demo.ch Demo.w0 (Demo.history ++ [Demo.claim "zed" 0 3, Demo.sell "frank" 40000 1, Demo.claim "zed" 0 3])) = 97000 ∧
    refunded 0 (log Demo.ch Demo.w0 Demo.history) = 100000 := by
  refine ⟨"dave", 100000, "q", "b", ?_, ?_, ?_⟩ <;> decide +kernel

/-- C15: from any state (reachable or not), the claim's outcome does not depend on the caller, except that the caller receives the bounty: if one caller's claim
is accepted, any other caller's is too, with the same new contract state and the same response up to the address of the
bounty transfer (and of the sender named in the event). -/
theorem C15_caller_independent {ch : Chain} {w : World} {s1 s2 : Addr} (h1 : s1 ≠ ch.contract) (h2 : s2 ≠ ch.contract) {time : Nat} {tick : Int} {id : Nat} :
    (∀ w1 r1, step ch w (.execute s1 [] time (.claimLimit tick id)) = .ok (w1, r1) →
      (∀ m ∈ r1.msgs, m.replyId = 3 → m.to = s1) ∧
      ∃ w2, step ch w (.execute s2 [] time (.claimLimit tick id)) = .ok (w2, forCaller s2 r1) ∧ w2.store = w1.store) ∧
    (Rejected ch w (.execute s1 [] time (.claimLimit tick id)) ↔ Rejected ch w (.execute s2 [] time (.claimLimit tick id))) := by
  have key : ∀ s1 s2 : Addr, s1 ≠ ch.contract → s2 ≠ ch.contract → ∀ w1 r1, step ch w (.execute s1 [] time (.claimLimit tick id)) = .ok (w1, r1) →
      (∀ m ∈ r1.msgs, m.replyId = 3 → m.to = s1) ∧
      ∃ w2, step ch w (.execute s2 [] time (.claimLimit tick id)) = .ok (w2, forCaller s2 r1) ∧ w2.store = w1.store := by
    intro s1 s2 h1 h2 w1 r1 hs
    obtain ⟨-, hwt, bank1, hb, he, hd⟩ := step_execute_ok.1 hs
    cases ha : isActive w.store with
    | false => rw [execute_inactive ha (by simp)] at he; simp at he
    | true =>
      rw [execute_active ha] at he
      change claimLimit _ _ _ _ _ = _ at he
      have hsim := claimLimit_sim (ch.env time) s1 s2 tick id w.store
      rw [he] at hsim
      cases h3 : claimLimit (ch.env time) ⟨s2, []⟩ tick id w.store with
      | err e s => rw [h3] at hsim; exact absurd hsim (by simp [Res.Sim])
      | ok r2 st2 =>
        rw [h3] at hsim
        obtain ⟨rfl, rfl, hto⟩ := hsim
        refine ⟨hto, ?_⟩
        obtain ⟨bank2, hb2⟩ := dispatch_agree (c := ch.contract) (ms := r1.msgs) (ms' := (forCaller s2 r1).msgs) (b1 := bank1) (b2 := bank1) (by
          show List.Forall₂ _ r1.msgs (r1.msgs.map _)
          rw [List.forall₂_map_right_iff, List.forall₂_same]
          intro m hm
          by_cases hk : m.replyId = 3
          · simp only [hk, if_true, true_and, hto m hm hk, h1, h2]
          · simp only [hk, if_false, true_and]) (fun d => rfl) hd
        refine ⟨⟨w1.store, bank2⟩, step_execute_ok.2 ⟨h2, hwt, bank1, hb, ?_, hb2⟩, rfl⟩
        rw [execute_active ha]
        exact h3
  refine ⟨key s1 s2 h1 h2, ?_⟩
  rw [rejected_iff, rejected_iff, not_iff_not]
  constructor
  · rintro ⟨w1, r1, h⟩; obtain ⟨-, w2, g, -⟩ := key s1 s2 h1 h2 w1 r1 h; exact ⟨_, _, g⟩
  · rintro ⟨w1, r1, h⟩; obtain ⟨-, w2, g, -⟩ := key s2 s1 h2 h1 w1 r1 h; exact ⟨_, _, g⟩

/-- Non-vacuity: the demo claim by zed and by dave himself. -/
example : (respOf Demo.ch (Demo.trace Demo.history).1 (Demo.claim "dave" 0 3)).map Response.msgs =
      some [⟨"dave", ⟨"b", 58200⟩, 2⟩, ⟨"dave", ⟨"b", 600⟩, 3⟩, ⟨"fees", ⟨"b", 1200⟩, 4⟩] := by decide +kernel

/-- C16: an accepted batch claim does exactly what the single claims, in the same order and ignoring rejected ones, would do: same balances, same events, same
orders, same liquidity and the same bookkeeping from then on. -/
theorem C16_batch_is_sequence {ch : Chain} {n : Nat} {w : World} {b : Book} (h : Traced ch n w b) {sender : Addr} {funds : List Coin} {time : Nat}
    {l : List (Int × Nat)} (hn : w.HasRoom) {w' : World} {resp : Response}
    (hs : step ch w (.execute sender funds time (.batchClaim l)) = .ok (w', resp)) :
    funds = [] ∧ l.length ≤ 100 ∧
    (run ch w (singles sender time l)).bank = w'.bank ∧
    resp.events = .method "batchClaimLimit" [("sender", .str sender)] :: log ch w (singles sender time l) ∧
    (∀ k, w'.store.orders.get? k = (run ch w (singles sender time l)).store.orders.get? k) ∧
    (∀ t d, tickLiquidity w'.store t d = tickLiquidity (run ch w (singles sender time l)).store t d) ∧
    (∀ d, dirLiquidity w'.store d = dirLiquidity (run ch w (singles sender time l)).store d) ∧
    ∃ b', Traced ch (n + 1) w' b' ∧ Traced ch (n + l.length) (run ch w (singles sender time l)) b' := by
  obtain ⟨hne, -, bank1, hsend, -, hdisp⟩ := step_execute_ok.1 hs
  have ht' := Traced.ok h hs
  have hst := h.step hs
  generalize hbo : b.observe _ _ _ _ = b' at hst ht'
  generalize hs' : w'.store = s' at hst
  cases hst with
  | config h1 => simp [Op.isConfig] at h1
  | @batch _ _ _ _ _ ob ms es _ _ h1 h2 h3 h4 =>
    have e : bank1 = w.bank := by
      have : (Except.ok w.bank : Except Err Bank) = .ok bank1 := hsend
      exact (Except.ok.inj this).symm
    rw [e] at hdisp
    obtain ⟨j1, j2, j3, j4⟩ := batch_singles h4 time hne h2 h1 h (hn.room.mono (by have : MAX_BATCH_CLAIM = 100 := rfl; omega)) (.refl _) hdisp
    have hr1 := ht'.rel
    have hr2 := j1.rel
    rw [hs'] at hr1
    refine ⟨rfl, h3, j2, by rw [j3], ?_, ?_, ?_, b', ht', j1⟩
    · rintro ⟨t, i⟩
      refine Option.ext fun o => ?_
      rw [hr1.orders, hr2.orders]
    · intro t d; rw [hr1.tickLiq, hr2.tickLiq]
    · intro d; rw [hr1.dirLiquidity, hr2.dirLiquidity]

/-- C16 (acceptance): on an active book a batch claim without funds is accepted exactly when it has at most 100 entries (each of which a valid `i64`/`u64` pair):
no entry, however wrong, can make it fail. -/
theorem C16_batch_accepted_iff {ch : Chain} {n : Nat} {w : World} {b : Book} (h : Traced ch n w b) (hn : w.HasRoom) (ha : isActive w.store = true)
    {sender : Addr} (hs : sender ≠ ch.contract) (time : Nat) {l : List (Int × Nat)}
    (hl : ∀ k ∈ l, (-(2 ^ 63) ≤ k.1 ∧ k.1 < 2 ^ 63) ∧ k.2 < 2 ^ 64) :
    Accepted ch w (.execute sender [] time (.batchClaim l)) ↔ l.length ≤ 100 := by
  constructor
  · rintro ⟨w', resp, hok⟩
    have hst := h.step hok
    generalize b.observe _ _ _ _ = b' at hst
    generalize w'.store = s' at hst
    cases hst with
    | config h1 => simp [Op.isConfig] at h1
    | batch h1 h2 h3 h4 => exact h3
  · intro hlen
    obtain ⟨ob, hob, -⟩ := h.rel.ptr
    have hwt : (ExecuteMsg.batchClaim l).wellTyped = true := by
      simp only [ExecuteMsg.wellTyped, List.all_eq_true, Bool.and_eq_true, i64Ok, decide_eq_true_eq]
      intro k hk
      exact hl k hk
    obtain ⟨⟨ms, es⟩, s', hloop⟩ := batchLoop_total (sender := sender) (ob := ob) (l := l) h.rel (fun t => by
      have := hn.room.cnt_lt t
      omega)
    obtain ⟨b', hrun⟩ := batchLoop_ok h.rel hloop
    have hbatch : batchClaimLimits ⟨sender, []⟩ (ch.env time) l w.store = .ok { msgs := ms, events := .method "batchClaimLimit" [("sender", .str sender)] :: es } s' := by
      unfold batchClaimLimits
      rw [EM.bind_ok_of (x := EM.lift (nonpayable (MessageInfo.mk sender []).funds)) (a := ()) (s' := w.store) rfl]
      rw [EM.bind_ok_of (x := EM.ensure _ _) (a := ()) (s' := w.store) (EM.ensure_eq_ok.2 ⟨(decide_eq_true (p := l.length ≤ MAX_BATCH_CLAIM) hlen), rfl⟩)]
      rw [EM.bind_ok_of (loadOrderbook_some hob)]
      rw [EM.bind_ok_of hloop]
      rfl
    have hss : StoreStep ch (.execute sender [] time (.batchClaim l)) w.store b { msgs := ms, events := .method "batchClaimLimit" [("sender", .str sender)] :: es } s' b' :=
      StoreStep.batch ha hob hlen hrun
    obtain ⟨bank2, hb2⟩ := h.dispatch hn.room.lt_D hss (bank1 := w.bank) (fun d => by simp [Op.inflow])
      (hrun.nonzero h.rel)
    refine ⟨⟨s', bank2⟩, _, step_execute_ok.2 ⟨hs, hwt, w.bank, rfl, (?_ : _ = Res.ok { msgs := ms, events := .method "batchClaimLimit" [("sender", .str sender)] :: es } _), hb2⟩⟩
    rw [execute_active ha]
    exact hbatch

/-- Non-vacuity: a batch with a missing order, a duplicate and an unfilled order pays dave's claim once. -/
example : (respOf Demo.ch (Demo.trace Demo.history).1 (.execute "zed" [] 9 (.batchClaim [(5, 77), (0, 3), (0, 3), (10, 1)]))).map Response.msgs =
      some [⟨"dave", ⟨"b", 58200⟩, 2⟩, ⟨"zed", ⟨"b", 600⟩, 3⟩, ⟨"fees", ⟨"b", 1200⟩, 4⟩] := by decide +kernel

end OB
