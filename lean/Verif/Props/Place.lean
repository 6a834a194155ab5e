import Verif.Proofs.Observe
import Verif.Proofs.Demo
/- C05-C07: placing limit orders. -/
namespace OB
open Spec

/-- C05: on an active book (that has room) a placement is accepted exactly when the tick is valid, the
quantity is positive (and a `Uint128`), the bounty is at most 1% (10^16 atomics), exactly the quantity of the deposit denom is
attached, and the sender owns it. Every other placement is rejected and changes nothing. -/
theorem C05_place_acceptance {ch : Chain} {w : World} (hw : Reachable ch w) (hn : w.HasRoom)
    {quote base : Denom} (hd : denoms w.store = .ok (quote, base)) (ha : isActive w.store = true)
    {sender : Addr} (hs : sender ≠ ch.contract) (funds : List Coin) (time : Nat) (tick : Int) (dir : Dir) (q : Nat) (bounty : Option Nat) :
    let op : Op := .execute sender funds time (.placeLimit tick dir q bounty)
    (Accepted ch w op ↔ ValidTick tick ∧ 0 < q ∧ q < 2 ^ 128 ∧ (∀ r, bounty = some r → r ≤ 10 ^ 16) ∧
      funds = [⟨denomIn quote base dir, q⟩] ∧ q ≤ w.bank sender (denomIn quote base dir)) ∧
    (¬ Accepted ch w op → Rejected ch w op) := by
  obtain ⟨n, hw⟩ := hw
  intro op
  refine ⟨?_, rejected_iff.2⟩
  obtain ⟨b, hb⟩ := hw.traced
  obtain ⟨ob, hob, rfl, rfl⟩ := denoms_eq hd
  rw [denomIn_eq, validTick_iff, ← bountyOk_iff]
  constructor
  · rintro ⟨w', resp, h⟩
    obtain ⟨-, hwt, bank1, h1, h2, -⟩ := step_execute_ok.1 h
    have hq : q < U128 := by
      simp only [ExecuteMsg.wellTyped, Bool.and_eq_true, decide_eq_true_eq] at hwt
      exact hwt.1.2
    rw [execute_active ha] at h2
    obtain ⟨ob', hob', hc, -, -⟩ := (placeLimit_eq_ok hq).1 h2
    obtain rfl := orderbook_inj hob hob'
    refine ⟨hc.range, hc.pos, hq, hc.bounty, hc.funds, ?_⟩
    have hf : funds = [⟨ob'.expectedDenom dir, q⟩] := hc.funds
    rw [hf, Bank.sendAll_single, Bank.send_eq_ok] at h1
    exact h1.2.1
  · rintro ⟨h1, h2, h3, h4, h5, h6⟩
    have hc : PlaceCond w.store ob funds tick dir q bounty := (placeCond_iff hb.rel hb.limits hn.room h3).2 ⟨h1, h2, h4, h5⟩
    obtain ⟨bank1, hsend⟩ : ∃ bank1, w.bank.sendAll sender ch.contract funds = .ok bank1 := by
      rw [h5]; exact ⟨_, Bank.sendAll_single.2 (Bank.send_eq_ok.2 ⟨by simp; omega, h6, rfl⟩)⟩
    refine ⟨⟨placedStore w.store ob tick dir sender q bounty time, bank1⟩, _, step_execute_ok.2 ⟨hs, ?_, _, hsend, (?_ : _ = Res.ok { events := [.placeLimit sender tick (w.store.orderId.getD 0) dir q (ob.expectedDenom dir) (ob.oppositeDenom dir)] } _), Bank.dispatch_nil _ _⟩⟩
    · have h4' := bountyOk_iff.1 h4
      unfold MIN_TICK MAX_TICK at h1
      simp only [ExecuteMsg.wellTyped, i64Ok, Bool.and_eq_true, decide_eq_true_eq]
      refine ⟨⟨⟨by omega, by omega⟩, h3⟩, ?_⟩
      cases bounty with
      | none => rfl
      | some r =>
        have := h4' r rfl
        have : (10 : Nat) ^ 16 < U256 := by unfold U256; norm_num
        simp only [decide_eq_true_eq]; omega
    · rw [execute_active ha]
      exact (placeLimit_eq_ok h3).2 ⟨ob, hob, hc, rfl, rfl⟩

/-- Non-vacuity: after the demo history the hypotheses hold, a placement with a bounty satisfies the condition, and is accepted. -/
example : Reachable Demo.ch (Demo.trace Demo.history).1 ∧ (Demo.trace Demo.history).1.HasRoom ∧
    denoms (Demo.trace Demo.history).1.store = .ok ("q", "b") ∧ isActive (Demo.trace Demo.history).1.store = true ∧
    (respOf Demo.ch (Demo.trace Demo.history).1 (Demo.place "zed" (-3) .ask 5 (some 77))).isSome = true ∧
    (respOf Demo.ch (Demo.trace Demo.history).1 (Demo.place "zed" (-3) .ask 5 (some (10 ^ 16 + 1)))).isSome = false := by
  refine ⟨⟨_, (Demo.traced Demo.history).reachable⟩, Demo.room _ (by decide +kernel), ?_, ?_, ?_, ?_⟩ <;> decide +kernel

/-- C06 (fresh ids): the id announced for a new order is above the ids of all orders ever placed before. -/
theorem C06_fresh_id {ch : Chain} {n : Nat} {w : World} {b : Book} (h : Traced ch n w b) {sender : Addr} {funds : List Coin} {time : Nat}
    {tick : Int} {dir : Dir} {q : Nat} {bounty : Option Nat} {w' : World} {resp : Response}
    (hs : step ch w (.execute sender funds time (.placeLimit tick dir q bounty)) = .ok (w', resp)) :
    ∃ id d1 d2, resp.events = [.placeLimit sender tick id dir q d1 d2] ∧ ∀ t d, ∀ x ∈ b t d, x.id < id := by
  have hst := h.step hs
  have hr := h.rel
  generalize b.observe _ _ _ _ = b' at hst
  generalize w'.store = s' at hst
  cases hst with
  | place h1 h2 h3 h4 => exact ⟨_, _, _, rfl, hr.ids.lt⟩
  | config h1 => simp [Op.isConfig] at h1

/-- C06 (unique ids): no two orders on the book, on whatever ticks, share an id. -/
theorem C06_unique_ids {ch : Chain} {w : World} (hw : Reachable ch w) {t t' : Int} {id : Nat} {o o' : LimitOrder}
    (ho : w.store.orders.get? (t, id) = some o) (ho' : w.store.orders.get? (t', id) = some o') : t = t' ∧ o = o' := by
  obtain ⟨n, hn⟩ := hw
  obtain ⟨b, hb⟩ := hn.traced
  have hr := hb.rel
  obtain ⟨dir, p, x, q, h1, h2, h3, h4⟩ := (hr.orders _ _ _).1 ho
  obtain ⟨dir', p', x', q', h1', h2', h3', h4'⟩ := (hr.orders _ _ _).1 ho'
  obtain ⟨rfl, -⟩ := hr.ids.disj t dir t' dir' x x' (by rw [h1]; simp) (by rw [h1']; simp) (by rw [h3, h3'])
  rw [ho] at ho'
  exact ⟨rfl, Option.some.inj ho'⟩

/-- C06 (no reuse): an order that was on the book and is gone never comes back, on any tick, whatever happens. -/
theorem C06_never_reused {ch : Chain} {w : World} (hw : Reachable ch w) {t : Int} {id : Nat} {o : LimitOrder}
    (ho : w.store.orders.get? (t, id) = some o) (ops ops' : List Op)
    (hgone : (run ch w ops).store.orders.get? (t, id) = none) (t' : Int) :
    (run ch (run ch w ops) ops').store.orders.get? (t', id) = none := by
  obtain ⟨n, hn⟩ := hw
  obtain ⟨b, hb⟩ := hn.traced
  obtain ⟨b1, hb1, hg1, -⟩ := hb.run_grows ops
  obtain ⟨b2, hb2, hg2, -⟩ := hb1.run_grows ops'
  obtain ⟨dir, p, x, q, h1, h2, rfl, h4⟩ := (hb.rel.orders _ _ _).1 ho
  obtain ⟨x1, hx1, he1⟩ := (hg1 t dir).mem (show x ∈ b t dir by rw [h1]; simp)
  obtain ⟨x2, hx2, he2⟩ := (hg2 t dir).mem hx1
  have hdead : ¬ x1.Live := by
    rcases hb1.rel.lookup t x.id with ⟨-, h5⟩ | ⟨_, _, _, _, -, -, -, h5⟩
    · exact h5 dir x1 hx1 he1.id
    · rw [hgone] at h5; simp at h5
  have heq : x2 = x1 := by
    obtain ⟨r, rt, hsr, -, -⟩ := hb1.rel.sides t dir
    have hok := hsr.ok x1 hx1
    by_cases hc : x1.cancelled = true
    · exact he2.dead hc
    · refine he2.done ?_
      have h6 : ¬ x1.claimed < x1.placed := fun hlt => hdead ⟨by simpa using hc, hlt⟩
      have h7 := hok.claimed_le; have h8 := hok.filled_le
      omega
  subst heq
  rcases hb2.rel.lookup t' x.id with ⟨h5, -⟩ | ⟨d', p', y, q', h5, h6, h7, h8⟩
  · exact h5
  · exfalso
    obtain ⟨rfl, rfl, rfl⟩ := hb2.rel.same_entry h5 hx2 (by rw [he1.id, h7])
    exact hdead h6

/-- Non-vacuity: order 0 of the demo was on the book before its cancel and is gone after it. -/
example : ((Demo.trace (Demo.history.take 7)).1.store.orders.get? (0, 0)).isSome = true ∧
    (run Demo.ch (Demo.trace (Demo.history.take 7)).1 [Demo.cancel "alice" 0 0]).store.orders.get? (0, 0) = none ∧
    ((Demo.trace Demo.history).1.store.orders.get? (0, 3)).isSome = true := by
  refine ⟨?_, ?_, ?_⟩ <;> decide +kernel

theorem add_ite_aux {A B L L' q : Nat} {c : Prop} [Decidable c] (h : A + (if c then L else 0) = B + (if c then L' else 0)) (e : L' = L + q) :
    A = B + if c then q else 0 := by
  subst e
  split at h <;> simp_all
  omega

theorem openOf_snoc {b : Book} {tick : Int} {dir : Dir} {s : Store} {sender : Addr} {q : Nat} {bounty : Option Nat} {time : Nat}
    (ht : MIN_TICK ≤ tick ∧ tick ≤ MAX_TICK) (d : Dir) :
    openOf (b.set tick dir (b tick dir ++ [newEntry s sender q bounty time])) d = openOf b d + if d = dir then q else 0 :=
  add_ite_aux (openOf_set (b := b) (tick := tick) (dir := dir) (q := b tick dir ++ [newEntry s sender q bounty time]) (mem_tickRange.2 ht) d)
    (by simp [newEntry, Entry.left])

/-- C07: all effects of an accepted placement. One order is added under a fresh id; the liquidity of its tick side and of its
direction grows by the quantity; every other order, every other tick, the other side of the tick, the sumtrees and the
configuration stay as they are; the only transfer is the deposit. -/
theorem C07_place_effects {ch : Chain} {w : World} (hw : Reachable ch w) {quote base : Denom} (hd : denoms w.store = .ok (quote, base))
    {sender : Addr} {funds : List Coin} {time : Nat} {tick : Int} {dir : Dir} {q : Nat} {bounty : Option Nat} {w' : World} {resp : Response}
    (hs : step ch w (.execute sender funds time (.placeLimit tick dir q bounty)) = .ok (w', resp)) :
    ∃ id o, resp = { events := [.placeLimit sender tick id dir q (denomIn quote base dir) (denomOut quote base dir)] } ∧
      w.store.orders.get? (tick, id) = none ∧
      (∀ k, w'.store.orders.get? k = if k = (tick, id) then some o else w.store.orders.get? k) ∧
      (o.owner = sender ∧ o.orderId = id ∧ o.tickId = tick ∧ o.dir = dir ∧ o.quantity = q ∧ o.placedQuantity = q ∧ o.claimBounty = bounty ∧
        o.placedAt = time) ∧
      (∀ t d, tickLiquidity w'.store t d = tickLiquidity w.store t d + if t = tick ∧ d = dir then q else 0) ∧
      (∀ d, dirLiquidity w'.store d = dirLiquidity w.store d + if d = dir then q else 0) ∧
      (∀ t, t ≠ tick → w'.store.ticks.get? t = w.store.ticks.get? t) ∧
      (∀ d, d ≠ dir → ((w'.store.ticks.get? tick).getD .default).getValues d = ((w.store.ticks.get? tick).getD .default).getValues d) ∧
      w'.store.trees = w.store.trees ∧
      (w'.store.isActive = w.store.isActive ∧ w'.store.makerFee = w.store.makerFee ∧
        w'.store.makerFeeRecipient = w.store.makerFeeRecipient ∧ w'.store.admin = w.store.admin ∧
        w'.store.adminOffer = w.store.adminOffer ∧ w'.store.moderator = w.store.moderator ∧
        w'.store.moderatorOffer = w.store.moderatorOffer ∧ denoms w'.store = denoms w.store) ∧
      Paid w.bank w'.bank sender ch.contract (denomIn quote base dir) q := by
  obtain ⟨n, hn⟩ := hw
  obtain ⟨b, hb⟩ := hn.traced
  obtain ⟨ob, hob, rfl, rfl⟩ := denoms_eq hd
  obtain ⟨hne, -, bank1, hsend, -, hdisp⟩ := step_execute_ok.1 hs
  have hr := hb.rel
  have hst := hb.step hs
  have hr' := hst.rel hr
  generalize b.observe _ _ _ _ = b' at hst hr'
  generalize hs' : w'.store = s' at hst hr' ⊢
  cases hst with
  | config h1 => simp [Op.isConfig] at h1
  | @place _ _ _ _ _ _ _ _ _ ob' h1 h2 h3 h4 =>
    obtain rfl := orderbook_inj hob h2
    rw [denomIn_eq, denomOut_eq]
    have hlook : w.store.orders.get? (tick, w.store.orderId.getD 0) = none := by
      rcases hr.lookup tick (w.store.orderId.getD 0) with ⟨h5, -⟩ | ⟨d', p', y, q', h5, h6, h7, h8⟩
      · exact h5
      · have := hr.ids.lt tick d' y (by rw [h5]; simp)
        omega
    refine ⟨_, placedOrder w.store tick dir sender q bounty time, rfl, hlook, fun k => ?_, ⟨rfl, rfl, rfl, rfl, rfl, rfl, rfl, rfl⟩, ?_, ?_, ?_, ?_, rfl,
      ⟨rfl, rfl, rfl, rfl, rfl, rfl, rfl, ?_⟩, ?_⟩
    · show SMap.get? (w.store.orders.insert _ _) k = _
      rw [SMap.get?_insert]
    · intro t d
      rw [hr'.tickLiq, hr.tickLiq]
      by_cases he : t = tick ∧ d = dir
      · obtain ⟨rfl, rfl⟩ := he
        rw [Book.set_self]; simp [newEntry, Entry.left]
      · rw [Book.set_ne _ _ (by tauto), if_neg he]; rfl
    · intro d
      rw [hr'.dirLiquidity, hr.dirLiquidity]
      exact openOf_snoc h4.range d
    · intro t ht
      show SMap.get? (w.store.ticks.insert _ _) t = _
      rw [SMap.get?_insert_ne _ _ ht]
    · intro d hdd
      show ((SMap.get? (w.store.ticks.insert _ _) tick).getD .default).getValues d = _
      rw [SMap.get?_insert_self, Option.getD_some, getValues_setValues_ne _ _ hdd]
    · rw [denoms_of hob]
      obtain ⟨e1, e2⟩ := withPlaced_denoms ob' tick dir
      show Except.ok ((ob'.withPlaced tick dir).quoteDenom, (ob'.withPlaced tick dir).baseDenom) = _
      rw [e1, e2]
    · have hf : funds = [⟨ob'.expectedDenom dir, q⟩] := h4.funds
      rw [hf, Bank.sendAll_single] at hsend
      have : bank1 = w'.bank := by simpa [Bank.dispatch] using hdisp
      rw [← this]
      exact paid_of_send hsend hne

/-- Non-vacuity: an accepted placement in a book with other orders. -/
example : (respOf Demo.ch (Demo.trace Demo.history).1 (Demo.place "zed" 0 .bid 5 none)).isSome = true := by decide +kernel

end OB
