import Verif.Proofs.Refine
import Verif.Props.Setup
import Verif.Props.Room
/- C67: the contract is the reference exchange. -/
namespace OB
open Spec

/-- The decisions agree. -/
theorem ref_decision {ch : Chain} {n : Nat} {w : World} {b : Book} (h : Traced ch n w b) (hn : w.HasRoom) (op : Op) (e : Err) :
    step ch w op = .error e ↔ verdict ((refOf w b).checks ch op) = some e := by
  rw [verdict_some]
  cases op with
  | execute sender funds time msg =>
    cases msg with
    | placeLimit tick dir q bounty => exact checks_place h hn ..
    | cancelLimit tick id => exact checks_cancel h hn ..
    | claimLimit tick id => exact checks_claim h hn ..
    | batchClaim l => exact checks_batch h hn ..
    | auth m => exact checks_auth ..
  | «sudo» time msg =>
    cases msg with
    | swapExactAmountIn a c out m fee => exact checks_swap h hn ⟨a, c, out, m, fee, none⟩ time e
    | swapToTick a c out m fee t => exact checks_swap h hn ⟨a, c, out, m, fee, some t⟩ time e
    | swapExactAmountOut => exact checks_swapOut ..
    | transferAdmin a => exact checks_gov ch w b time _ (x := ch.addrValid a) rfl e
    | removeAdmin => exact checks_gov ch w b time _ (x := true) rfl e
    | setActive x => exact checks_gov ch w b time _ (x := true) rfl e
  | migrate =>
    obtain ⟨resp, hm, -⟩ := C45_migrate ch w
    rw [hm]
    simp [Ref.checks, Fails]
  | transfer src dst c => exact checks_transfer ..
  | mint dst c => simp [step, Ref.checks, Fails]

/-- The effects agree: the book. -/
theorem ref_effect {ch : Chain} {n : Nat} {w w' : World} {b : Book} (h : Traced ch n w b) {op : Op} {resp : Response}
    (hs : step ch w op = .ok (w', resp)) :
    (refOf w b).effect op = (refS w'.store (b.observe op w.store w'.store resp) w.bank, resp) := by
  have hr := h.rel
  obtain ⟨ob, hob, -⟩ := hr.ptr
  have swapCase : ∀ (r : SwapReq) (time : Nat), step ch w (r.op time) = .ok (w', resp) → 
      (refOf w b).swapEffect r = (refS w'.store (b.observe (r.op time) w.store w'.store resp) w.bank, resp) := by
    intro r time hs
    obtain ⟨dir, F, q', dust, lp, bank1, hact, -, hsz, h3, h4, h5, -, -, hF, -, -, -⟩ := h.swap_inv hs hob
    have hside : r.side (refOf w b).base = dir.opposite := by
      rw [(refOf_denoms (b := b) hob).2]
      have hne := filledBook_rel hr hob
      unfold SwapReq.side
      rw [h3.denoms.1]
      cases dir <;> simp [Orderbook.expectedDenom, Dir.opposite, hne]
    have hl := levels_sweep hr hob (dir := dir) (ref_levels h r dir.opposite)
    have hm := sweep_match h3.run.sweep (sweepTicks_range hr)
    rw [← hl] at hm
    unfold Ref.swapEffect
    rw [hside, hm]
    simp only
    rw [ref_trade hob r dir.opposite hF]
    have hob2 : b.observe (r.op time) w.store w'.store resp = filledBook b F dir.opposite := by
      have hst := h.step hs
      obtain ⟨msg, g1, g2, g3⟩ := swapReq_op_eq r time
      have hSS : StoreStep ch (r.op time) w.store b resp w'.store (filledBook b F dir.opposite) := by
        rw [g1, h4, h5]
        exact .swap hact hob g2 hsz h3
      exact hSS.observe hr
    rw [hob2, h5, h4]
  have same : ∀ op, (op = .migrate ∨ (∃ src dst c, op = .transfer src dst c) ∨ (∃ dst c, op = .mint dst c)) →
      step ch w op = .ok (w', resp) →
      (refOf w b, ({} : Response)) = (refS w'.store (b.observe op w.store w'.store resp) w.bank, resp) := by
    intro op hop hs
    obtain ⟨e1, e2⟩ := step_other_store hs hop
    subst e2
    rw [e1]
    rfl
  cases op with
  | execute sender funds time msg =>
    cases msg with
    | auth m =>
      obtain ⟨-, -, bank, -, h2, -⟩ := step_execute_ok.1 hs
      rw [execute_auth] at h2
      have hst := h.step hs
      have hroles := authDispatch_roles h2
      have hresp := authDispatch_resp h2
      subst hresp
      have hb : b.observe (.execute sender funds time (.auth m)) w.store w'.store { events := [confEvent m] } = b := by
        cases m <;> rfl
      rw [hb] at hst ⊢
      generalize w'.store = s' at hst hroles ⊢
      cases hst with
      | config h1 h2 h3 h4 h5 =>
        rw [refS_conf ⟨h2.orderId, h2.orderbook, h2.ticks, h2.dirLiq, h2.orders, h2.trees⟩ b, hroles]
        rfl
    | placeLimit tick dir q bounty =>
      have hst := h.step hs
      generalize b.observe _ _ _ _ = b' at hst ⊢
      generalize w'.store = s' at hst ⊢
      cases hst with
      | place h1 h2 h3 h4 => exact ref_place h2 ..
      | config h1 => simp [Op.isConfig] at h1
    | cancelLimit tick id =>
      have hst := h.step hs
      generalize b.observe _ _ _ _ = b' at hst ⊢
      generalize w'.store = s' at hst ⊢
      cases hst with
      | cancel h1 h2 h3 h4 h5 h6 h7 h8 h9 =>
        rename_i dir s1 ob p q x tr ts1
        have ho : (refOf w b).order _ x.id = some (dir, x) := (refOf_order hr).2 ⟨by rw [h3]; simp, rfl, h4⟩
        have hc := ref_cancel (k := w.bank) hr h2 h3 h5 h6.conf
        simp only [Ref.effect, Ref.userEffect, ho, hc]
        rfl
      | config h1 => simp [Op.isConfig] at h1
    | claimLimit tick id =>
      have hst := h.step hs
      generalize b.observe _ _ _ _ = b' at hst ⊢
      generalize w'.store = s' at hst ⊢
      cases hst with
      | claim h1 h2 h3 h4 =>
        obtain ⟨dir, x, g1, g2, g3⟩ := ref_claim (k := w.bank) hr h2 h4
        simp only [Ref.effect, Ref.userEffect, g1, g3]
      | config h1 => simp [Op.isConfig] at h1
    | batchClaim l =>
      have hst := h.step hs
      generalize b.observe _ _ _ _ = b' at hst ⊢
      generalize w'.store = s' at hst ⊢
      cases hst with
      | batch h1 h2 h3 h4 =>
        simp only [Ref.effect, Ref.userEffect, ref_claims (k := w.bank) h4 hr h2]
      | config h1 => simp [Op.isConfig] at h1
  | «sudo» time msg =>
    by_cases hd : msg.deposit = none
    · obtain ⟨-, h2, -⟩ := (step_sudo_none hd).1 hs
      obtain ⟨hroles, hsame⟩ := sudo_roles hd h2 time
      have hresp := sudo_resp hd h2 time (refOf w b)
      have hb : b.observe (.sudo time msg) w.store w'.store resp = b := by
        rw [hresp]
        cases msg <;> first | rfl | simp [SudoMsg.deposit] at hd
      rw [hb, refS_conf hsame b, hroles]
      refine Prod.ext ?_ hresp.symm
      cases msg <;> first | rfl | simp [SudoMsg.deposit] at hd
    · cases msg <;> simp only [SudoMsg.deposit, not_true, reduceCtorEq, not_false_eq_true] at hd
      · exact swapCase ⟨_, _, _, _, _, none⟩ time hs
      · exact swapCase ⟨_, _, _, _, _, some _⟩ time hs
  | migrate => exact same _ (.inl rfl) hs
  | transfer src dst c => exact same _ (.inr (.inl ⟨_, _, _, rfl⟩)) hs
  | mint dst c => exact same _ (.inr (.inr ⟨_, _, rfl⟩)) hs

/-- The effects agree: the balances. -/
theorem ref_money {ch : Chain} {w w' : World} (b : Book) {op : Op} {resp : Response}
    (hs : step ch w op = .ok (w', resp)) : w'.bank = (refOf w b).money ch op resp.msgs := by
  have swapCase : ∀ (r : SwapReq) (time : Nat), step ch w (r.op time) = .ok (w', resp) →
      w'.bank = payOut ch.contract (pay w.bank r.sender ch.contract [r.tokenIn]) resp.msgs := by
    intro r time hs
    obtain ⟨-, -, bank1, h1, -, -, h2⟩ := step_swap_ok.1 hs
    rw [← send_pay h1]
    exact dispatch_payOut h2
  cases op with
  | execute sender funds time msg =>
    obtain ⟨h0, -, bank, h1, -, h2⟩ := step_execute_ok.1 hs
    unfold Ref.money
    simp only [payment]
    have e : (refOf w b).bank = w.bank := rfl
    rw [e, ← sendAll_pay h0 h1]
    exact dispatch_payOut h2
  | «sudo» time msg =>
    by_cases hd : msg.deposit = none
    · obtain ⟨-, -, h2⟩ := (step_sudo_none hd).1 hs
      have := dispatch_payOut h2
      cases msg <;> first | exact this | simp [SudoMsg.deposit] at hd
    · cases msg <;> simp only [SudoMsg.deposit, not_true, reduceCtorEq, not_false_eq_true] at hd
      · exact swapCase ⟨_, _, _, _, _, none⟩ time hs
      · exact swapCase ⟨_, _, _, _, _, some _⟩ time hs
  | migrate =>
    simp only [step, runTx_eq_ok] at hs
    exact dispatch_payOut hs.2
  | transfer src dst c =>
    simp only [step] at hs
    split at hs
    · simp at hs
    · rw [Except.bind_eq_ok'] at hs
      obtain ⟨bank, h1, h2⟩ := hs
      simp only [Except.pure_eq', Except.ok.injEq, Prod.mk.injEq] at h2
      obtain ⟨rfl, rfl⟩ := h2
      exact send_pay h1
  | mint dst c =>
    simp only [step, Except.ok.injEq, Prod.mk.injEq] at hs
    obtain ⟨rfl, rfl⟩ := hs
    funext a d
    simp only [Ref.money]
    split <;> rfl

/-- C67 (one operation): from any reachable state that has room, the reference exchange accepts exactly the operations that
the contract accepts, gives the same response - transfers, events, data - or the same error, and reaches the state that belongs to the
contract's. -/
theorem C67_step {ch : Chain} {n : Nat} {w : World} {b : Book} (h : Traced ch n w b) (hn : w.HasRoom) (op : Op) :
    (refOf w b).step ch op = match step ch w op with
      | .ok (w', resp) => .ok (refOf w' (b.observe op w.store w'.store resp), resp)
      | .error e => .error e := by
  unfold Ref.step
  cases hs : step ch w op with
  | error e =>
    rw [(ref_decision h hn op e).1 hs]
  | ok x =>
    obtain ⟨w', resp⟩ := x
    have hv : verdict ((refOf w b).checks ch op) = none := by
      cases hv : verdict ((refOf w b).checks ch op) with
      | none => rfl
      | some e => rw [(ref_decision h hn op e).2 hv] at hs; cases hs
    rw [hv]
    simp only
    rw [ref_effect h hs]
    simp only
    rw [← ref_money b hs]
    rfl

theorem run_cons (ch : Chain) (w : World) (op : Op) (ops : List Op) : run ch w (op :: ops) = run ch (apply ch w op) ops := rfl

/-- Counters never decrease, so a run that ends with room has had room all along. -/
theorem run_room_back {ch : Chain} {ops : List Op} {n : Nat} {w : World} {b : Book} (h : Traced ch n w b)
    (hr : (run ch w ops).HasRoom) : w.HasRoom := by
  induction ops generalizing n w b with
  | nil => exact hr
  | cons op ops ih =>
    rw [run_cons] at hr
    cases hs : step ch w op with
    | error e =>
      have ha : apply ch w op = w := by unfold apply; rw [hs]
      rw [ha] at hr
      exact ih h hr
    | ok x =>
      obtain ⟨w', resp⟩ := x
      have ha : apply ch w op = w' := by unfold apply; rw [hs]
      rw [ha] at hr
      exact room_back h hs (ih (Traced.ok h hs) hr)

theorem ref_run {ch : Chain} {ops : List Op} {n : Nat} {w : World} {b : Book} (h : Traced ch n w b) (hn : (run ch w ops).HasRoom) :
    answers ch w ops = (Ref.run ch (refOf w b) ops).2 ∧
    ∃ b', Traced ch (n + ops.length) (run ch w ops) b' ∧ (Ref.run ch (refOf w b) ops).1 = refOf (run ch w ops) b' := by
  induction ops generalizing n w b with
  | nil => exact ⟨rfl, b, h, rfl⟩
  | cons op ops ih =>
    have hst := C67_step h (run_room_back h hn) op
    rw [run_cons] at hn ⊢
    unfold answers Ref.run
    have hlen : n + (op :: ops).length = n + 1 + ops.length := by rw [List.length_cons]; omega
    cases hs : step ch w op with
    | error e =>
      rw [hs] at hst
      simp only at hst
      have ha : apply ch w op = w := by unfold apply; rw [hs]
      rw [ha] at hn
      rw [hst, ha, hlen]
      simp only
      obtain ⟨i1, i2⟩ := ih (Traced.failed h hs) hn
      exact ⟨by rw [i1], i2⟩
    | ok x =>
      obtain ⟨w', resp⟩ := x
      rw [hs] at hst
      simp only at hst
      have ha : apply ch w op = w' := by unfold apply; rw [hs]
      rw [ha] at hn
      rw [hst, ha, hlen]
      simp only
      obtain ⟨i1, i2⟩ := ih (Traced.ok h hs) hn
      exact ⟨by rw [i1], i2⟩

theorem fresh_ref {ch : Chain} {w : World} (hi : Initial ch w) {quote base : Denom} (hd : denoms w.store = .ok (quote, base)) :
    refOf w Book.empty = Ref.fresh quote base w.bank := by
  have hroles := initial_roles hi
  obtain ⟨time, supply, quote', base', resp, h⟩ := hi
  simp only [instantiate, createOrderbook, saveOrderbook, setMakerFee, setMakerFeeRecipient,
    EM.bind_eq_ok, EM.ensure_eq_ok, EM.modify_eq_ok, EM.pure_eq_ok] at h
  obtain ⟨_, _, ⟨-, rfl⟩, _, _, rfl, _, _, ⟨-, rfl⟩, _, _, rfl, _, _, ⟨_, _, ⟨hne, rfl⟩, _, _, ⟨-, rfl⟩, _, _, ⟨-, rfl⟩, _, _, rfl,
    _, _, ⟨_, _, ⟨hfee, rfl⟩, _, _, rfl, -, rfl⟩, _, _, ⟨-, rfl⟩, rfl⟩, -, hs⟩ := h
  rw [hs] at hd
  simp only [denoms, Except.ok.injEq, Prod.mk.injEq] at hd
  obtain ⟨rfl, rfl⟩ := hd
  unfold refOf refS Ref.fresh
  rw [hroles, hs]
  rfl

/-- The `current_tick` field is never changed. -/
theorem current_zero {ch : Chain} {n : Nat} {w : World} {b : Book} (h : Traced ch n w b) {ob : Orderbook} (hob : w.store.orderbook = some ob) :
    ob.currentTick = 0 := by
  induction h generalizing ob with
  | init hi =>
    obtain ⟨time, supply, quote', base', resp, h⟩ := hi
    simp only [instantiate, createOrderbook, saveOrderbook, setMakerFee, setMakerFeeRecipient,
      EM.bind_eq_ok, EM.ensure_eq_ok, EM.modify_eq_ok, EM.pure_eq_ok] at h
    obtain ⟨_, _, ⟨-, rfl⟩, _, _, rfl, _, _, ⟨-, rfl⟩, _, _, rfl, _, _, ⟨_, _, ⟨hne, rfl⟩, _, _, ⟨-, rfl⟩, _, _, ⟨-, rfl⟩, _, _, rfl,
      _, _, ⟨_, _, ⟨hfee, rfl⟩, _, _, rfl, -, rfl⟩, _, _, ⟨-, rfl⟩, rfl⟩, -, hs⟩ := h
    rw [hs] at hob
    cases hob
    rfl
  | failed _ _ ih => exact ih hob
  | @ok n w b op w' resp h hs ih =>
    have hst := h.step hs
    generalize b.observe _ _ _ _ = b' at hst
    generalize w'.store = s' at hst hob
    generalize w.store = s at hst ih
    cases hst with
    | place h1 h2 h3 h4 =>
      cases hob
      have := ih h2
      have e : ∀ (o : Orderbook) (t : Int) (d : Dir), (o.withPlaced t d).currentTick = o.currentTick := by
        intro o t d
        cases d <;> simp only [Orderbook.withPlaced] <;> split_ifs <;> rfl
      rw [e]; exact this
    | cancel h1 h2 h3 h4 h5 h6 => exact ih (h6.conf.orderbook.symm.trans hob)
    | claim h1 h2 h3 h4 => exact ih (h4.conf.orderbook.symm.trans hob)
    | batch h1 h2 h3 h4 => exact ih (h4.conf.orderbook.symm.trans hob)
    | swap h1 h2 h3 h4 h5 =>
      cases hob
      have := ih h2
      rename_i dir F _ _ _
      rw [ptrAfter_eq]
      cases F.getLast? with
      | none => exact this
      | some f => cases dir <;> exact this
    | config h1 h2 => exact ih (h2.orderbook.symm.trans hob)

/-- C67 (whole histories): start the contract and the reference exchange on the same pair and the same balances and feed both any history
(that leaves room). They give the same answer - response or error - to every single operation, and end up with the same balances
of all accounts, the same configuration, the same best-tick pointers, the same live orders and the same liquidity. -/
theorem C67_refines {ch : Chain} {w0 : World} (hi : Initial ch w0) {quote base : Denom} (hd : denoms w0.store = .ok (quote, base))
    (ops : List Op) (hn : (run ch w0 ops).HasRoom) :
    let w := run ch w0 ops
    let r := (Ref.run ch (Ref.fresh quote base w0.bank) ops).1
    answers ch w0 ops = (Ref.run ch (Ref.fresh quote base w0.bank) ops).2 ∧
    w.bank = r.bank ∧ roles w.store = r.conf ∧
    answer w.store .orderbookState = some (.book ⟨r.quote, r.base, 0, r.best .bid, r.best .ask⟩) ∧
    (∀ tick id, (w.store.orders.get? (tick, id)).map (fun o => (o.dir, o.owner, o.quantity, o.placedQuantity, o.claimBounty, o.placedAt)) =
      (r.order tick id).map fun x => (x.1, x.2.owner, x.2.placed - x.2.claimed, x.2.placed, x.2.bounty, x.2.placedAt)) ∧
    ∀ t d, tickLiquidity w.store t d = openTotal (r.queues t d) := by
  intro w r
  have h0 := Traced.init hi
  have hr := ref_run (ops := ops) h0 hn
  rw [fresh_ref hi hd] at hr
  obtain ⟨h1, b', h2, h3⟩ := hr
  have hw : w = run ch w0 ops := rfl
  have hr' : r = refOf (run ch w0 ops) b' := h3
  clear_value w r
  subst hw hr'
  obtain ⟨ob, hob, -⟩ := h2.rel.ptr
  refine ⟨h1, rfl, rfl, ?_, ?_, ?_⟩
  · rw [answer_orderbookState hob]
    have := current_zero h2 hob
    simp [refS, hob, ← this]
  · intro tick id
    rcases h2.rel.lookup tick id with ⟨g1, g2⟩ | ⟨dir, p, x, q, g1, g2, g3, g4⟩
    · have : (refOf (run ch w0 ops) b').order tick id = none := by
        cases hg : (refOf (run ch w0 ops) b').order tick id with
        | none => rfl
        | some y =>
          obtain ⟨d, x⟩ := y
          obtain ⟨k1, k2, k3⟩ := (refOf_order h2.rel).1 hg
          exact absurd k3 (g2 d x k1 k2)
      rw [g1, this]; rfl
    · have : (refOf (run ch w0 ops) b').order tick id = some (dir, x) := (refOf_order h2.rel).2 ⟨by rw [g1]; simp, g3, g2⟩
      rw [g4, this]; rfl
  · intro t d
    exact (C26_tick_liquidity h2 t d).2

/-! ### Non-vacuity -/

namespace Demo

/-- The demo history and some more: a claim, a second claim of the same order and a cancellation by a stranger that fail. -/
def longer : List Op := history ++ [claim "zed" 0 3, claim "zed" 0 3, cancel "frank" 10 1, buy "frank" 20000 1]

end Demo

/-- The hypotheses hold for this history, in which twelve operations succeed and two fail; the reference exchange says so, too. -/
example : (Ref.run Demo.ch (Ref.fresh "q" "b" Demo.bank0) Demo.longer).2 = answers Demo.ch Demo.w0 Demo.longer ∧
    ((answers Demo.ch Demo.w0 Demo.longer).map fun r => match r with | .ok _ => none | .error e => some e) =
      List.replicate 11 none ++ [some .zeroClaim, some .unauthorized, none] :=
  ⟨((C67_refines Demo.initial (quote := "q") (base := "b") rfl Demo.longer ((C72_room Demo.initial _).2.1 (by decide +kernel))).1).symm, by decide +kernel⟩

/-- What the reference exchange knows after it: the live orders 1 (partly filled), 3 (40000 left) and 4, and the balances. -/
example : let r := (Ref.run Demo.ch (Ref.fresh "q" "b" Demo.bank0) Demo.longer).1
    [r.bank "zed" "b", r.bank "fees" "b", r.bank "dave" "b"] = [10 ^ 30 + 600, 10 ^ 30 + 1200, 10 ^ 30 + 58200] ∧
    ((r.order 0 3).map fun x => (x.1, x.2.owner, x.2.placed - x.2.claimed)) = some (.bid, "dave", 40000) ∧ r.order 0 0 = none := by
  intro r
  obtain ⟨-, h2, -, -, h5, -⟩ := C67_refines Demo.initial (quote := "q") (base := "b") rfl Demo.longer ((C72_room Demo.initial _).2.1 (by decide +kernel))
  refine ⟨?_, ?_, ?_⟩
  · have hb : r.bank = (run Demo.ch Demo.w0 Demo.longer).bank := h2.symm
    rw [hb]
    decide +kernel
  · have h := congrArg (Option.map fun y => (y.1, y.2.1, y.2.2.1)) (h5 0 3)
    simp only [Option.map_map] at h
    refine h.symm.trans ?_
    decide +kernel
  · have h := h5 0 0
    have e : ((run Demo.ch Demo.w0 Demo.longer).store.orders.get? (0, 0)) = none := by decide +kernel
    rw [e] at h
    cases hr : r.order 0 0 with
    | none => rfl
    | some y =>
      rw [show (Ref.run Demo.ch (Ref.fresh "q" "b" Demo.w0.bank) Demo.longer).1.order 0 0 = some y from hr] at h
      cases h

end OB
