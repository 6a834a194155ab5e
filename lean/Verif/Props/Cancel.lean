import Verif.Proofs.Observe
import Verif.Proofs.Demo
/- C08-C10: cancelling limit orders. -/
namespace OB
open Spec

/-- C08: whatever the state (reachable or not), a cancel by anyone but the order's owner is rejected. -/
theorem C08_only_owner_cancels {ch : Chain} {w : World} {tick : Int} {id : Nat} {o : LimitOrder}
    (ho : w.store.orders.get? (tick, id) = some o) {sender : Addr} (hne : sender ≠ o.owner) (funds : List Coin) (time : Nat) :
    Rejected ch w (.execute sender funds time (.cancelLimit tick id)) := by
  refine rejected_of fun w' resp h => ?_
  obtain ⟨-, -, bank1, -, h2, -⟩ := step_execute_ok.1 h
  cases ha : isActive w.store with
  | false => rw [execute_inactive ha (by simp)] at h2; simp at h2
  | true =>
    rw [execute_active ha] at h2
    change cancelLimit _ _ _ _ _ = _ at h2
    by_cases hf : funds = []
    · subst hf
      rw [cancelLimit_unauthorized ho hne] at h2; simp at h2
    · rw [cancelLimit_payable (info := ⟨sender, funds⟩) hf] at h2; simp at h2

/-- Non-vacuity: order 3 of the demo belongs to dave. -/
example : ∃ o, (Demo.trace Demo.history).1.store.orders.get? (0, 3) = some o ∧ "zed" ≠ o.owner := by
  have h : ((Demo.trace Demo.history).1.store.orders.get? (0, 3)).map LimitOrder.owner = some "dave" := by decide +kernel
  obtain ⟨o, h1, h2⟩ := Option.map_eq_some_iff.1 h
  exact ⟨o, h1, by rw [h2]; decide⟩

/-- C09 (condition): the owner's cancel of a live order on an active book is accepted exactly when no part of the order has been
filled (by time priority) since its last claim. `b` is the bookkeeper's view of the history. -/
theorem C09_cancel_iff_no_unclaimed_fill {ch : Chain} {n : Nat} {w : World} {b : Book} (h : Traced ch n w b) (hn : w.HasRoom)
    (ha : isActive w.store = true) {tick : Int} {dir : Dir} {x : Entry} (hx : x ∈ b tick dir) (hl : x.Live) (time : Nat) :
    Accepted ch w (.execute x.owner [] time (.cancelLimit tick x.id)) ↔ x.filled = x.claimed := by
  constructor
  · rintro ⟨w', resp, hs⟩
    have hst := h.step hs
    have hr := h.rel
    generalize b.observe _ _ _ _ = b' at hst
    generalize w'.store = s' at hst
    generalize hid : x.id = id at hst
    generalize x.owner = owner at hst
    cases hst with
    | config h1 => simp [Op.isConfig] at h1
    | cancel h1 h2 h3 h4 h5 h6 h7 h8 h9 =>
      obtain ⟨-, -, rfl⟩ := hr.same_entry h3 hx hid
      exact h5
  · intro hc
    exact h.cancel_step hn.few ha hx (h.owner_ne _ _ _ hx) hl hc time

/-- C09 (effects): an accepted cancel is by the owner of a live order without unclaimed fill and attaches no funds; the owner is paid
exactly the remaining quantity in the deposit denom; exactly this order is removed and its quantity leaves the liquidity. -/
theorem C09_cancel_effects {ch : Chain} {n : Nat} {w : World} {b : Book} (h : Traced ch n w b) {quote base : Denom}
    (hd : denoms w.store = .ok (quote, base)) {sender : Addr} {funds : List Coin} {time : Nat} {tick : Int} {id : Nat} {w' : World}
    {resp : Response} (hs : step ch w (.execute sender funds time (.cancelLimit tick id)) = .ok (w', resp)) :
    ∃ dir, ∃ x ∈ b tick dir, x.id = id ∧ x.Live ∧ x.owner = sender ∧ x.filled = x.claimed ∧ funds = [] ∧
      resp.msgs = [⟨sender, ⟨denomIn quote base dir, x.placed - x.claimed⟩, 1⟩] ∧
      Paid w.bank w'.bank ch.contract sender (denomIn quote base dir) (x.placed - x.claimed) ∧
      (∃ o, w.store.orders.get? (tick, id) = some o ∧ o.owner = sender ∧ o.quantity = x.placed - x.claimed) ∧
      (∀ k, w'.store.orders.get? k = if k = (tick, id) then none else w.store.orders.get? k) ∧
      (∀ t d, tickLiquidity w'.store t d + (if t = tick ∧ d = dir then x.placed - x.claimed else 0) = tickLiquidity w.store t d) ∧
      (∀ d, dirLiquidity w'.store d + (if d = dir then x.placed - x.claimed else 0) = dirLiquidity w.store d) := by
  obtain ⟨ob, hob, rfl, rfl⟩ := denoms_eq hd
  obtain ⟨hne, -, bank1, hsend, -, hdisp⟩ := step_execute_ok.1 hs
  have hr := h.rel
  have hst := h.step hs
  have hr' := hst.rel hr
  generalize b.observe _ _ _ _ = b' at hst hr'
  generalize hs' : w'.store = s' at hst hr' ⊢
  cases hst with
  | config h1 => simp [Op.isConfig] at h1
  | @cancel _ _ dir _ s1 _ ob' p q x tr ts1 h1 h2 h3 h4 h5 h6 h7 h8 h9 =>
    obtain rfl := orderbook_inj hob h2
    have hx : x ∈ b tick dir := by rw [h3]; simp
    have hleft : x.left = x.placed - x.claimed := by unfold Entry.left; rw [h4.1, h5]; simp
    have hcl : Entry.left { x with cancelled := true } = 0 := by simp [Entry.left]
    refine ⟨dir, x, hx, rfl, h4, rfl, h5, rfl, by rw [denomIn_eq]; rfl, ?_, ?_, fun k => ?_, ?_, ?_⟩
    · rw [denomIn_eq]
      have e : bank1 = w.bank := by
        have : (Except.ok w.bank : Except Err Bank) = .ok bank1 := hsend
        exact (Except.ok.inj this).symm
      rw [e, Bank.dispatch_single] at hdisp
      exact paid_of_send hdisp (Ne.symm hne)
    · exact ⟨_, (hr.orders tick x.id _).2 ⟨dir, p, x, q, h3, h4, rfl, rfl⟩, rfl, rfl⟩
    · have e : s1.orders = w.store.orders := by rw [h6.store]
      show SMap.get? (s1.orders.erase (tick, x.id)) k = _
      rw [SMap.get?_erase, e]
    · intro t d
      rw [hr'.tickLiq, hr.tickLiq]
      by_cases he : t = tick ∧ d = dir
      · obtain ⟨rfl, rfl⟩ := he
        rw [Book.set_self, h3]; simp only [sumBy_append, sumBy_cons, hleft, hcl]; simp; omega
      · rw [Book.set_ne _ _ (by tauto), if_neg he]; rfl
    · intro d
      rw [hr'.dirLiquidity, hr.dirLiquidity]
      refine (openOf_drop (hr.range tick dir (by rw [h3]; simp)) ?_ d)
      rw [h3]; simp only [sumBy_append, sumBy_cons, hleft, hcl]; omega

/-- C09 (finality): after an accepted cancel the order can never be cancelled or claimed again, whatever happens in between. -/
theorem C09_cancel_final {ch : Chain} {w : World} (hw : Reachable ch w) {sender : Addr} {funds : List Coin} {time : Nat} {tick : Int}
    {id : Nat} {w' : World} {resp : Response} (hs : step ch w (.execute sender funds time (.cancelLimit tick id)) = .ok (w', resp))
    (ops : List Op) (tick' : Int) (anyone : Addr) (funds' : List Coin) (time' : Nat) :
    Rejected ch (run ch w' ops) (.execute anyone funds' time' (.cancelLimit tick' id)) ∧
    Rejected ch (run ch w' ops) (.execute anyone funds' time' (.claimLimit tick' id)) := by
  obtain ⟨n, hn⟩ := hw
  obtain ⟨b, h⟩ := hn.traced
  obtain ⟨b2, h2, hgrow, -⟩ := (Traced.ok h hs).run_grows ops
  have hr := h.rel
  have hst := h.step hs
  generalize b.observe _ _ _ _ = b' at hst hgrow
  generalize w'.store = s' at hst hgrow
  have hdead : ∃ dir, ∃ x ∈ b2 tick dir, x.id = id ∧ ¬ x.Live := by
    cases hst with
    | config h1 => simp [Op.isConfig] at h1
    | @cancel _ _ dir _ s1 _ ob' p q x tr ts1 g1 g2 g3 g4 g5 g6 g7 g8 g9 =>
      obtain ⟨x2, hx2, he⟩ := (hgrow tick dir).mem
        (show ({ x with cancelled := true } : Entry) ∈ _ by rw [Book.set_self]; simp)
      have e := he.dead rfl
      exact ⟨dir, x2, hx2, he.id, by rw [e]; rintro ⟨hc, -⟩; simp at hc⟩
  obtain ⟨dir, x, hx, hid, hnl⟩ := hdead
  have huniq : ∀ d, ∀ y ∈ b2 tick' d, y.id = id → ¬ y.Live := by
    intro d y hy hyid
    obtain ⟨p, q, hsp⟩ := List.append_of_mem hx
    obtain ⟨-, -, rfl⟩ := h2.rel.same_entry hsp hy (by rw [hid, hyid])
    exact hnl
  constructor
  · refine rejected_of fun w2 r2 hs2 => ?_
    have hst2 := h2.step hs2
    generalize b2.observe _ _ _ _ = b3 at hst2
    generalize w2.store = s3 at hst2
    cases hst2 with
    | config h1 => simp [Op.isConfig] at h1
    | cancel g1 g2 g3 g4 g5 g6 g7 g8 g9 => exact huniq _ _ (by rw [g3]; simp) rfl g4
  · rw [rejected_iff_respOf]
    exact h2.claim_resp_none (Or.inr (Or.inr fun d y hy hyid hl => absurd hl (huniq d y hy hyid)))

/-- Non-vacuity of the C09 theorems: before the swap of the demo carol's order 2 (behind a cancelled one) is live and unfilled and
her cancel is accepted; after the swap dave's order 3 is live with an unclaimed fill and his cancel is rejected. -/
example : Traced Demo.ch 8 (Demo.trace (Demo.history.take 8)).1 (Demo.trace (Demo.history.take 8)).2 ∧
    isActive (Demo.trace (Demo.history.take 8)).1.store = true ∧
    (∃ x ∈ (Demo.trace (Demo.history.take 8)).2 0 .bid, x.Live ∧ x.id = 2 ∧ x.filled = x.claimed) ∧
    (respOf Demo.ch (Demo.trace (Demo.history.take 8)).1 (Demo.cancel "carol" 0 2)).isSome = true ∧
    (∃ x ∈ (Demo.trace Demo.history).2 0 .bid, x.Live ∧ x.id = 3 ∧ x.filled ≠ x.claimed) ∧
    (respOf Demo.ch (Demo.trace Demo.history).1 (Demo.cancel "dave" 0 3)).isSome = false := by
  refine ⟨Demo.traced (Demo.history.take 8), ?_, ?_, ?_, ?_, ?_⟩ <;> decide +kernel

/-- C10: an accepted cancel changes no other order: in the bookkeeper's queues all other orders keep their position, fills and claims; and in
the contract, every claim of any order by anyone gives exactly the same response (payments included) after the cancel as before it,
and so does every cancel of any other order. -/
theorem C10_cancel_keeps_others {ch : Chain} {n : Nat} {w : World} {b : Book} (h : Traced ch n w b) (hn : w.HasRoom)
    {sender : Addr} {funds : List Coin} {time : Nat} {tick : Int} {id : Nat} {w' : World} {resp : Response}
    (hs : step ch w (.execute sender funds time (.cancelLimit tick id)) = .ok (w', resp)) :
    (∃ b', Traced ch (n + 1) w' b' ∧ ∀ t d, (b' t d).filter (fun x => x.id ≠ id) = (b t d).filter (fun x => x.id ≠ id)) ∧
    (∀ caller funds' time' t i, respOf ch w' (.execute caller funds' time' (.claimLimit t i)) =
      respOf ch w (.execute caller funds' time' (.claimLimit t i))) ∧
    (∀ caller funds' time' t i, i ≠ id → respOf ch w' (.execute caller funds' time' (.cancelLimit t i)) =
      respOf ch w (.execute caller funds' time' (.cancelLimit t i))) := by
  have ht' := Traced.ok h hs
  have hr := h.rel
  have hr' := ht'.rel
  have hst := h.step hs
  have hn' : Room 4 w'.store := (hst.counts.forth hn).mono (by omega)
  have hdis : ∀ {b : Book} {w : World} {caller : Addr} {funds' : List Coin} {time' : Nat} {msg : ExecuteMsg}, caller = ch.contract →
      respOf ch w (.execute caller funds' time' msg) = none := by
    intro b w caller funds' time' msg hc
    exact respOf_of_not fun w' r hok => step_sender hok hc
  generalize hb' : b.observe _ _ _ _ = b' at hst ht' hr'
  have hact : isActive w.store = true ∧ isActive w'.store = true ∧ (∃ ob, w.store.orderbook = some ob ∧ w'.store.orderbook = some ob) ∧
      getMakerFee w'.store = getMakerFee w.store ∧ w'.store.makerFeeRecipient = w.store.makerFeeRecipient ∧
      (∃ dir p q x, b tick dir = p ++ x :: q ∧ x.id = id ∧ x.filled = x.claimed ∧ b' = b.set tick dir (p ++ { x with cancelled := true } :: q)) := by
    generalize w'.store = s' at hst
    cases hst with
    | config h1 => simp [Op.isConfig] at h1
    | @cancel _ _ dir _ s1 _ ob p q x tr ts1 g1 g2 g3 g4 g5 g6 g7 g8 g9 =>
      have e := g6.store
      refine ⟨g1, ?_, ⟨ob, g2, ?_⟩, ?_, ?_, dir, p, q, x, g3, rfl, g5, rfl⟩
      · show s1.isActive.getD true = true
        rw [e]; exact g1
      · show s1.orderbook = some ob
        rw [e]; exact g2
      · show s1.makerFee.getD 0 = _
        rw [e]; rfl
      · show s1.makerFeeRecipient = _
        rw [e]
  obtain ⟨ha, ha', ⟨ob, hob, hob'⟩, hfee, hrc, dir, p, q, x, hsp, hxid, hfc, rfl⟩ := hact
  obtain ⟨rc, hrc0⟩ := hr.recipient
  have hrc1 : w'.store.makerFeeRecipient = some rc := by rw [hrc, hrc0]
  -- entries with other ids are the same
  have hmem : ∀ t d y, y.id ≠ id → (y ∈ b.set tick dir (p ++ { x with cancelled := true } :: q) t d ↔ y ∈ b t d) := by
    intro t d y hy
    by_cases he : t = tick ∧ d = dir
    · obtain ⟨rfl, rfl⟩ := he
      rw [Book.set_self, hsp]
      have h1 : y ≠ x := by rintro rfl; exact hy hxid
      have h2 : y ≠ { x with cancelled := true } := by rintro rfl; exact hy hxid
      simp [h1, h2]
    · rw [Book.set_ne _ _ (by tauto)]
  refine ⟨⟨_, ht', ?_⟩, ?_, ?_⟩
  · intro t d
    by_cases he : t = tick ∧ d = dir
    · obtain ⟨rfl, rfl⟩ := he
      rw [Book.set_self, hsp]
      simp [List.filter_append, List.filter_cons, hxid]
    · rw [Book.set_ne _ _ (by tauto)]
  · intro caller funds' time' t i
    by_cases hc : caller = ch.contract
    · rw [hdis (b := b) hc, hdis (b := b) hc]
    by_cases hf : funds' = []
    · subst hf
      by_cases hi : i = id
      · subst hi
        rw [ht'.claim_resp_none, h.claim_resp_none]
        · right; right
          intro d y hy hyid hl
          obtain ⟨-, -, rfl⟩ := hr.same_entry hsp hy (by rw [hyid, hxid])
          exact le_of_eq hfc
        · right; right
          intro d y hy hyid hl
          have hx' : ({ x with cancelled := true } : Entry) ∈ b.set tick dir (p ++ { x with cancelled := true } :: q) tick dir := by
            rw [Book.set_self]; simp
          obtain ⟨p', q', hsp'⟩ := List.append_of_mem hx'
          obtain ⟨-, -, rfl⟩ := hr'.same_entry hsp' hy (by rw [hyid, ← hxid])
          exact absurd hl.1 (by simp)
      · rcases h.claim_outcome hn.few hc t i with ⟨d, y, hy, hyid, hl, hlt⟩ | hno
        · subst hyid
          rw [h.claim_resp hn.few hc ha hy hl hlt time' hob hrc0,
            ht'.claim_resp hn' hc ha' ((hmem t d y hi).2 hy) hl hlt time' hob' hrc1, hfee]
        · rw [h.claim_resp_none (Or.inr (Or.inr hno)), ht'.claim_resp_none]
          right; right
          intro d y hy hyid
          exact hno d y ((hmem t d y (by rw [hyid]; exact hi)).1 hy) hyid
    · rw [h.claim_resp_none (Or.inl hf), ht'.claim_resp_none (Or.inl hf)]
  · intro caller funds' time' t i hi
    by_cases hex : ∃ d, ∃ y ∈ b t d, y.id = i ∧ y.Live ∧ y.filled = y.claimed ∧ y.owner = caller ∧ funds' = []
    · obtain ⟨d, y, hy, rfl, hl, hyf, rfl, rfl⟩ := hex
      rw [h.cancel_resp hn.few ha hy hl hyf time' hob,
        ht'.cancel_resp hn' ha' ((hmem t d y hi).2 hy) hl hyf time' hob']
    · rw [h.cancel_resp_none hex, ht'.cancel_resp_none]
      rintro ⟨d, y, hy, hyid, hrest⟩
      exact hex ⟨d, y, (hmem t d y (by rw [hyid]; exact hi)).1 hy, hyid, hrest⟩

/-- Non-vacuity: with a fill pending on dave's order 3, erin's order 4 is cancelled; dave's claim exists before and after. -/
example : (Demo.trace Demo.history).1.HasRoom ∧ (respOf Demo.ch (Demo.trace Demo.history).1 (Demo.cancel "erin" (-5000000) 4)).isSome = true ∧
    (respOf Demo.ch (Demo.trace Demo.history).1 (Demo.claim "zed" 0 3)).isSome = true := by
  refine ⟨Demo.room _ (by decide +kernel), ?_, ?_⟩ <;> decide +kernel

end OB
