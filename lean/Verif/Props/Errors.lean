import Verif.SpecErr
import Verif.Props.Tree
import Verif.Props.Place
import Verif.Props.Claim
import Verif.Props.Engine
/- C49, C50: the reason given for a rejection is always the first violated condition of a documented checklist, and there is no other reason. -/
namespace OB
open Spec

/-- The common part of a user's message. -/
theorem user_fails {ch : Chain} {w : World} {sender : Addr} {funds : List Coin} {time : Nat} {msg : ExecuteMsg} {rest : List (Prop × Err)}
    {e : Err} (hm : ∀ m, msg ≠ .auth m)
    (h : sender ≠ ch.contract → msg.wellTyped = true → ∀ bank, w.bank.sendAll sender ch.contract funds = .ok bank → isActive w.store = true →
      (runTx ch w bank (execute (ch.env time) ⟨sender, funds⟩ msg) = .error e ↔ Fails rest e)) :
    step ch w (.execute sender funds time msg) = .error e ↔ Fails (userChecks ch w sender funds msg ++ rest) e := by
  simp only [userChecks, List.cons_append, List.nil_append, Fails]
  simp only [step]
  by_cases h1 : sender = ch.contract
  · rw [if_pos h1]
    simp only [Except.error.injEq, h1, ne_eq, not_true, not_false_eq_true, true_and, false_and, or_false]
    exact eq_comm
  rw [if_neg h1]
  cases h2 : msg.wellTyped
  · simp only [Bool.not_false, if_true, Except.error.injEq, ne_eq, h1, not_true, not_false_eq_true, true_and, false_and, or_false,
      false_or, Bool.false_eq_true]
    exact eq_comm
  simp only [Bool.not_true, Bool.false_eq_true, if_false, ne_eq, h1, not_true, not_false_eq_true, true_and, false_and, false_or]
  cases h3 : w.bank.sendAll sender ch.contract funds with
  | error e' =>
    simp only [Except.error_bind', Bank.sendAll_error h3, Except.error.injEq, reduceCtorEq, exists_false, not_false_eq_true, true_and,
      false_and, or_false]
    exact eq_comm
  | ok bank =>
    simp only [Except.ok_bind', Except.ok.injEq, exists_eq', not_true, true_and, false_and, false_or]
    cases h4 : isActive w.store with
    | false =>
      rw [runTx_err (execute_inactive h4 hm)]
      simp only [Bool.false_eq_true, not_false_eq_true, true_and, false_and, or_false, Except.error.injEq]
      exact eq_comm
    | true => simpa using h h1 h2 bank h3 h4

/-- C49 (place): in every reachable state that has room, a placement is rejected exactly for the first of these reasons that applies. -/
theorem C49_place_errors {ch : Chain} {w : World} (hw : Reachable ch w) (hn : w.HasRoom)
    {quote base : Denom} (hd : denoms w.store = .ok (quote, base)) (sender : Addr) (funds : List Coin) (time : Nat) (tick : Int) (dir : Dir)
    (q : Nat) (bounty : Option Nat) (e : Err) :
    step ch w (.execute sender funds time (.placeLimit tick dir q bounty)) = .error e ↔
      Fails (userChecks ch w sender funds (.placeLimit tick dir q bounty) ++
        ([(ValidTick tick, .invalidTickId tick), (0 < q, .invalidQuantity q),
          ((∀ r, bounty = some r → r ≤ 10 ^ 16), .invalidClaimBounty bounty)] ++ fundsChecks (denomIn quote base dir) funds q)) e := by
  obtain ⟨n, hw⟩ := hw
  obtain ⟨b, hb⟩ := hw.traced
  obtain ⟨ob, hob, rfl, rfl⟩ := denoms_eq hd
  refine user_fails (by simp) fun h1 h2 bank h3 h4 => ?_
  have hex : execute (ch.env time) ⟨sender, funds⟩ (.placeLimit tick dir q bounty) w.store =
    placeLimit (ch.env time) ⟨sender, funds⟩ tick dir q bounty w.store := execute_active h4
  have hq : q < U128 := by
    simp only [ExecuteMsg.wellTyped, Bool.and_eq_true, decide_eq_true_eq] at h2
    exact h2.1.2
  have herr : ∀ e', (∃ s', placeLimit (ch.env time) ⟨sender, funds⟩ tick dir q bounty w.store = .err e' s') →
      (runTx ch w bank (execute (ch.env time) ⟨sender, funds⟩ (.placeLimit tick dir q bounty)) = .error e ↔ e = e') := by
    rintro e' ⟨s', h⟩
    rw [runTx_err (hex.trans h), Except.error.injEq, eq_comm]
  rw [denomIn_eq, validTick_iff, ← bountyOk_iff]
  simp only [List.cons_append, List.nil_append, fundsChecks, Fails]
  by_cases c1 : MIN_TICK ≤ tick ∧ tick ≤ MAX_TICK
  swap
  · rw [herr (.invalidTickId tick)]
    · simp only [c1, not_false_eq_true, true_and, false_and, or_false]
    · unfold placeLimit
      rw [EM.bind_ok_of (loadOrderbook_some hob)]
      exact ⟨w.store, by simp only [ge_iff_le, c1, decide_false, EM.ensure_false_bind]⟩
  by_cases c2 : 0 < q
  swap
  · rw [herr (.invalidQuantity q)]
    · simp only [c1, and_self, c2, not_true, not_false_eq_true, true_and, false_and, or_false, false_or]
    · unfold placeLimit
      rw [EM.bind_ok_of (loadOrderbook_some hob)]
      exact ⟨w.store, by simp only [ge_iff_le, c1, and_self, decide_true, EM.ensure_true_bind, gt_iff_lt, c2, decide_false, EM.ensure_false_bind]⟩
  cases c3 : bountyOk bounty
  · rw [herr (.invalidClaimBounty bounty)]
    · simp only [c1, and_self, c2, not_true, not_false_eq_true, true_and, false_and, or_false, false_or, Bool.false_eq_true]
    · unfold placeLimit
      rw [EM.bind_ok_of (loadOrderbook_some hob)]
      exact ⟨w.store, by simp only [ge_iff_le, c1, and_self, decide_true, EM.ensure_true_bind, gt_iff_lt, c2, c3, EM.ensure_false_bind]⟩
  have hpl : placeLimit (ch.env time) ⟨sender, funds⟩ tick dir q bounty w.store = (do
      let received ← EM.lift (mustPay funds (ob.expectedDenom dir))
      EM.ensure (decide (received = q)) (.insufficientFunds received q)
      placeLimit (ch.env time) ⟨sender, funds⟩ tick dir q bounty : M Response) w.store := by
    conv_lhs => unfold placeLimit
    conv_rhs => unfold placeLimit
    rw [EM.bind_ok_of (loadOrderbook_some hob)]
    simp only [ge_iff_le, c1, and_self, decide_true, EM.ensure_true_bind, gt_iff_lt, c2, c3]
    cases hp : mustPay funds (ob.expectedDenom dir) with
    | error e' => simp only [EM.lift_error_bind]
    | ok r =>
      simp only [EM.lift_ok_bind]
      by_cases hr : r = q
      · simp only [hr, decide_true, EM.ensure_true_bind]
        rw [EM.bind_ok_of (loadOrderbook_some hob)]
        simp only [hp, EM.lift_ok_bind, hr, decide_true, EM.ensure_true_bind]
      · simp only [hr, decide_false, EM.ensure_false_bind]
  simp only [c1, and_self, not_true, false_and, true_and, false_or, c2]
  have hpay : ∀ e', mustPay funds (ob.expectedDenom dir) = .error e' →
      (runTx ch w bank (execute (ch.env time) ⟨sender, funds⟩ (.placeLimit tick dir q bounty)) = .error e ↔ e = e') := fun e' he =>
    herr e' ⟨w.store, by rw [hpl, he, EM.lift_error_bind]⟩
  by_cases c40 : funds.length ≤ 1
  swap
  · rw [hpay (.payment .multipleDenoms)]
    · simp [c40]
    · match funds, c40 with
      | [], c => simp at c
      | [_], c => simp at c
      | _ :: _ :: _, _ => rfl
  simp only [c40, not_true, false_and, true_and, false_or]
  by_cases c41 : ∃ c : Coin, c.amount ≠ 0 ∧ funds = [c]
  swap
  · rw [hpay (.payment .noFunds)]
    · simp only [c41, not_false_eq_true, true_and, false_and, or_false]
    · match funds, c40, c41 with
      | [], _, _ => rfl
      | [c], _, c' =>
        have : c.amount = 0 := by
          by_contra h
          exact c' ⟨c, h, rfl⟩
        simp only [mustPay, this, if_true]
      | _ :: _ :: _, c, _ => simp at c
  simp only [c41, not_true, false_and, true_and, false_or]
  by_cases c4 : ∃ a, a ≠ 0 ∧ funds = [⟨ob.expectedDenom dir, a⟩]
  swap
  · rw [hpay (.payment (.missingDenom (ob.expectedDenom dir)))]
    · simp only [c4, not_false_eq_true, true_and, false_and, or_false]
    · obtain ⟨⟨d, a⟩, hc, rfl⟩ := c41
      have hd : d ≠ ob.expectedDenom dir := fun h => c4 ⟨a, hc, by rw [h]⟩
      have hc : a ≠ 0 := hc
      simp only [mustPay, if_neg hc, if_neg hd]
  simp only [c4, not_true, false_and, true_and, false_or]
  obtain ⟨a, ha0, rfl⟩ := c4
  by_cases c5 : a = q
  swap
  · rw [herr (.insufficientFunds a q)]
    · simp [c5, amountOf]
    · refine ⟨w.store, ?_⟩
      rw [hpl, mustPay_eq_ok.2 ⟨ha0, rfl⟩]
      simp only [EM.lift_ok_bind, c5, decide_false, EM.ensure_false_bind]
  subst c5
  have hc : PlaceCond w.store ob [⟨ob.expectedDenom dir, a⟩] tick dir a bounty :=
    (placeCond_iff hb.rel hb.limits hn.room hq).2 ⟨c1, c2, c3, rfl⟩
  rw [runTx_ok (hex.trans ((placeLimit_eq_ok hq).2 ⟨ob, hob, hc, rfl, rfl⟩)) (Bank.dispatch_nil _ _)]
  simp

/-- C49 (cancel): in every reachable state that has room, a cancel is rejected exactly for the first of these reasons that applies. -/
theorem C49_cancel_errors {ch : Chain} {n : Nat} {w : World} {b : Book} (h : Traced ch n w b) (hn : w.HasRoom) (sender : Addr)
    (funds : List Coin) (time : Nat) (tick : Int) (id : Nat) (e : Err) :
    step ch w (.execute sender funds time (.cancelLimit tick id)) = .error e ↔
      Fails (userChecks ch w sender funds (.cancelLimit tick id) ++
        [(funds = [], .payment .nonPayable), (LiveOrder b tick id fun _ => True, .orderNotFound tick id),
         (LiveOrder b tick id fun x => x.owner = sender, .unauthorized),
         (LiveOrder b tick id fun x => x.filled = x.claimed, .cancelFilledOrder)]) e := by
  obtain ⟨ob, hob, -⟩ := h.rel.ptr
  refine user_fails (by simp) fun h1 h2 bank h3 h4 => ?_
  have hex : execute (ch.env time) ⟨sender, funds⟩ (.cancelLimit tick id) w.store = cancelLimit (ch.env time) ⟨sender, funds⟩ tick id w.store :=
    execute_active h4
  have herr : ∀ e', (∃ s', cancelLimit (ch.env time) ⟨sender, funds⟩ tick id w.store = .err e' s') →
      (runTx ch w bank (execute (ch.env time) ⟨sender, funds⟩ (.cancelLimit tick id)) = .error e ↔ e = e') := by
    rintro e' ⟨s', h⟩
    rw [runTx_err (hex.trans h), Except.error.injEq, eq_comm]
  simp only [Fails]
  by_cases c1 : funds = []
  swap
  · rw [herr (.payment .nonPayable) ⟨_, cancelLimit_payable (info := ⟨sender, funds⟩) c1⟩]
    simp [c1]
  subst c1
  have hbank : bank = w.bank := by simpa [Bank.sendAll] using h3.symm
  subst hbank
  rcases h.rel.lookup tick id with ⟨c2, c3⟩ | ⟨dir, p, x, q, c2, c3, rfl, c5⟩
  · rw [herr _ ⟨_, cancelLimit_none c2⟩]
    have : ¬ LiveOrder b tick id fun _ => True := by
      rintro ⟨dir, x, hx, rfl, hl, -⟩
      exact c3 dir x hx rfl hl
    simp [this]
  have hxm : x ∈ b tick dir := by rw [c2]; simp
  have huniq : ∀ P, LiveOrder b tick x.id P ↔ P x := by
    intro P
    constructor
    · rintro ⟨dir', y, hy, hyid, hl, hP⟩
      obtain ⟨-, -, rfl⟩ := h.rel.same_entry c2 hy hyid
      exact hP
    · intro hP; exact ⟨dir, x, hxm, rfl, c3, hP⟩
  simp only [huniq, not_true, false_and, true_and, false_or]
  by_cases c6 : x.owner = sender
  swap
  · rw [herr _ ⟨_, cancelLimit_unauthorized c5 (Ne.symm c6)⟩]
    simp [c6]
  subst c6
  simp only [not_true, false_and, true_and, false_or]
  by_cases c7 : x.filled = x.claimed
  · obtain ⟨w', resp, hok⟩ := h.cancel_step hn.few h4 hxm h1 c3 c7 time
    rw [step_execute h1 h2] at hok
    rw [hok]; simp [c7]
  · rcases cancelLimit_some h.rel (ch.env time) c2 c3 hob with ⟨h5, -⟩ | ⟨s1, -, ⟨h6, h7⟩ | ⟨h6, -⟩⟩
    · have := hn.room.cnt_lt tick; omega
    · rw [herr _ ⟨_, h7⟩]; simp [c7]
    · exact absurd h6 c7

/-- C49 (claim): in every reachable state that has room, a claim is rejected exactly for the first of these reasons that applies. -/
theorem C49_claim_errors {ch : Chain} {n : Nat} {w : World} {b : Book} (h : Traced ch n w b) (hn : w.HasRoom) (sender : Addr)
    (funds : List Coin) (time : Nat) (tick : Int) (id : Nat) (e : Err) :
    step ch w (.execute sender funds time (.claimLimit tick id)) = .error e ↔
      Fails (userChecks ch w sender funds (.claimLimit tick id) ++
        [(funds = [], .payment .nonPayable), ((∃ dir, b tick dir ≠ []), .invalidTickId tick), (LiveOrder b tick id fun _ => True, .orderNotFound tick id),
         (LiveOrder b tick id fun x => x.claimed < x.filled, .zeroClaim)]) e := by
  obtain ⟨ob, hob, -⟩ := h.rel.ptr
  obtain ⟨rc, hrc⟩ := h.rel.recipient
  refine user_fails (by simp) fun h1 h2 bank h3 h4 => ?_
  have hex : execute (ch.env time) ⟨sender, funds⟩ (.claimLimit tick id) w.store = claimLimit (ch.env time) ⟨sender, funds⟩ tick id w.store :=
    execute_active h4
  have herr : ∀ e', (∃ s', claimLimit (ch.env time) ⟨sender, funds⟩ tick id w.store = .err e' s') →
      (runTx ch w bank (execute (ch.env time) ⟨sender, funds⟩ (.claimLimit tick id)) = .error e ↔ e = e') := by
    rintro e' ⟨s', h⟩
    rw [runTx_err (hex.trans h), Except.error.injEq, eq_comm]
  simp only [Fails]
  by_cases c1 : funds = []
  swap
  · rw [herr (.payment .nonPayable) ⟨_, claimLimit_payable (info := ⟨sender, funds⟩) c1⟩]
    simp [c1]
  subst c1
  have hbank : bank = w.bank := by simpa [Bank.sendAll] using h3.symm
  subst hbank
  have hknown : w.store.ticks.get? tick = none ↔ ¬ ∃ dir, b tick dir ≠ [] := by
    rw [← not_iff_not, ← ne_eq, h.rel.known, not_not]
    constructor
    · rintro (hx | hx)
      · exact ⟨_, hx⟩
      · exact ⟨_, hx⟩
    · rintro ⟨d, hx⟩
      cases d
      · exact Or.inl hx
      · exact Or.inr hx
  rcases h.rel.lookup tick id with ⟨c2, c3⟩ | ⟨dir, p, x, q, c2, c3, rfl, c5⟩
  · have hno : ¬ LiveOrder b tick id fun _ => True := by
      rintro ⟨dir, x, hx, rfl, hl, -⟩
      exact c3 dir x hx rfl hl
    have hcl : claimOrder sender tick id w.store = .err (if w.store.ticks.get? tick = none then .invalidTickId tick else .orderNotFound tick id) w.store := by
      unfold claimOrder
      rw [EM.bind_ok_of (loadOrderbook_some hob)]
      simp only [EM.get_bind]
      cases w.store.ticks.get? tick with
      | none => rfl
      | some ts => simp only [c2]; rfl
    rw [herr _ ⟨_, claimLimit_err hcl⟩]
    by_cases hk : ∃ dir, b tick dir ≠ []
    · rw [if_neg (by rw [hknown]; simpa using hk)]
      simp [hk, hno]
    · rw [if_pos (hknown.2 hk)]
      simp [hk]
  have hxm : x ∈ b tick dir := by rw [c2]; simp
  have huniq : ∀ P, LiveOrder b tick x.id P ↔ P x := by
    intro P
    constructor
    · rintro ⟨dir', y, hy, hyid, hl, hP⟩
      obtain ⟨-, -, rfl⟩ := h.rel.same_entry c2 hy hyid
      exact hP
    · intro hP; exact ⟨dir, x, hxm, rfl, c3, hP⟩
  have hk : ∃ dir, b tick dir ≠ [] := ⟨dir, by rw [c2]; simp⟩
  simp only [huniq, hk, not_true, false_and, true_and, false_or]
  by_cases c7 : x.claimed < x.filled
  · obtain ⟨w', resp, hok⟩ := h.claim_step hn.few h1 h4 hxm c3 c7 time
    rw [step_execute h1 h2] at hok
    rw [hok]; simp [c7]
  · rcases claimOrder_some h.rel sender c2 c3 hob hrc with ⟨h5, -⟩ | ⟨s1, -, ⟨h6, h7⟩ | ⟨h6, -⟩⟩
    · have := hn.room.cnt_lt tick; omega
    · rw [herr _ ⟨_, claimLimit_err h7⟩]; simp [c7]
    · exact absurd h6 c7

/-- C49 (batch claim): in every reachable state that has room, a batch claim is rejected exactly for the first of these reasons that applies. -/
theorem C49_batch_errors {ch : Chain} {n : Nat} {w : World} {b : Book} (h : Traced ch n w b) (hn : w.HasRoom) (sender : Addr)
    (funds : List Coin) (time : Nat) (l : List (Int × Nat)) (e : Err) :
    step ch w (.execute sender funds time (.batchClaim l)) = .error e ↔
      Fails (userChecks ch w sender funds (.batchClaim l) ++ [(funds = [], .payment .nonPayable), (l.length ≤ 100, .batchClaimLimitExceeded 100)]) e := by
  refine user_fails (by simp) fun h1 h2 bank h3 h4 => ?_
  have hex : execute (ch.env time) ⟨sender, funds⟩ (.batchClaim l) w.store = batchClaimLimits ⟨sender, funds⟩ (ch.env time) l w.store :=
    execute_active h4
  have herr : ∀ e', (∃ s', batchClaimLimits ⟨sender, funds⟩ (ch.env time) l w.store = .err e' s') →
      (runTx ch w bank (execute (ch.env time) ⟨sender, funds⟩ (.batchClaim l)) = .error e ↔ e = e') := by
    rintro e' ⟨s', h⟩
    rw [runTx_err (hex.trans h), Except.error.injEq, eq_comm]
  simp only [Fails]
  by_cases c1 : funds = []
  swap
  · rw [herr (.payment .nonPayable)]
    · simp [c1]
    · refine ⟨w.store, ?_⟩
      unfold batchClaimLimits
      have : nonpayable funds = .error (.payment .nonPayable) := by unfold nonpayable; simp [c1]
      rw [this]
      exact EM.bind_err_of rfl
  subst c1
  have hbank : bank = w.bank := by simpa [Bank.sendAll] using h3.symm
  subst hbank
  by_cases c2 : l.length ≤ 100
  · have hwt : ∀ k ∈ l, (-(2 ^ 63) ≤ k.1 ∧ k.1 < 2 ^ 63) ∧ k.2 < 2 ^ 64 := by
      intro k hk
      have := List.all_eq_true.1 h2 k hk
      simp only [i64Ok, Bool.and_eq_true, decide_eq_true_eq] at this
      exact this
    obtain ⟨w', resp, hok⟩ := (C16_batch_accepted_iff h hn h4 h1 time hwt).2 c2
    rw [step_execute h1 h2] at hok
    rw [hok]; simp [c2]
  · rw [herr (.batchClaimLimitExceeded 100)]
    · simp [c2]
    · refine ⟨w.store, ?_⟩
      unfold batchClaimLimits
      have : nonpayable (MessageInfo.mk sender []).funds = .ok () := rfl
      simp only [this, EM.lift_ok_bind]
      have : ¬ l.length ≤ MAX_BATCH_CLAIM := c2
      simp only [this, decide_false, EM.ensure_false_bind]
      rfl

/-! ### Swaps -/

theorem matchError_none {side : Dir} {levels : List (Int × Nat)} {q : Nat} :
    matchError side levels q = none ↔ ∃ r, matchLevels side levels q = some r := by
  induction levels generalizing q with
  | nil => simp [matchError, matchLevels]
  | cons x rest ih =>
    obtain ⟨t, liq⟩ := x
    unfold matchError matchLevels
    simp only
    split
    · simp
    · split
      · rename_i h1
        rw [if_pos (Or.inr h1)]
        simp only [reduceCtorEq, exists_false]
      · rename_i h1
        split
        · rename_i h2
          rw [if_pos (Or.inl h2)]
          simp only [reduceCtorEq, exists_false]
        · rename_i h2
          rw [ih, if_neg (by simp only [not_or]; exact ⟨h2, h1⟩)]
          constructor
          · rintro ⟨r, hr⟩; exact ⟨_, by rw [hr]; rfl⟩
          · rintro ⟨r, hr⟩
            rw [Option.map_eq_some_iff] at hr
            obtain ⟨r', hr', -⟩ := hr
            exact ⟨r', hr'⟩

theorem marketLoop_error {s : Store} {b : Book} (h : Rel s b) {dir : Dir} {ts : List Int}
    (hr : ∀ t ∈ ts, s.ticks.get? t ≠ none) {st : LoopSt} (hq : st.quantity < U128) {e : Err}
    (hs : matchError dir.opposite (levelsOf (leftAt b dir.opposite) ts) st.quantity = some e)
    (hout : st.totalOutput + (ts.map (leftAt b dir.opposite)).sum < U256) :
    marketLoop s dir ts st = .error e := by
  induction ts generalizing st with
  | nil => simp [levelsOf, matchError] at hs
  | cons t ts ih =>
    have hkt := hr t (by simp)
    have hrt := h.known_range hkt
    have ih := fun {st} => ih (st := st) (fun t ht => hr t (by simp [ht]))
    unfold marketLoop
    cases hts : s.ticks.get? t with
    | none => exact absurd hts hkt
    | some cur =>
    simp only
    have htv : cur.getValues dir.opposite = tv s t dir.opposite := (tv_of_get hts _).symm
    have htal := h.tal_eq t dir.opposite
    rw [htv]
    rw [List.map_cons, List.sum_cons] at hout
    by_cases h1 : leftAt b dir.opposite t = 0
    · have hz : (tv s t dir.opposite).tal = 0 := by rw [htal, h1]; rfl
      rw [if_pos hz]
      rw [levelsOf_cons_zero h1] at hs
      exact ih hq hs (by omega)
    have hz : ¬ (tv s t dir.opposite).tal = 0 := by
      rw [htal]; exact (Nat.mul_pos D_pos (Nat.pos_of_ne_zero h1)).ne'
    rw [levelsOf_cons h1, matchError, Dir.opposite_opposite, ← valDown_spec hrt.1 hrt.2] at hs
    simp only at hs
    rw [if_neg hz, tickToPrice_ok hrt.1 hrt.2]
    simp only [Except.ok_bind', amountToValue_spec hrt.1 hrt.2 hq, valR]
    split at hs
    · simp at hs
    rename_i h2
    rw [if_neg h2, fromRatio_one_lt (valDown_mul_lt hrt.1 hrt.2 hq)]
    simp only [Except.ok_bind']
    rw [← charge_eq hrt.1 hrt.2] at hs
    have hcl := charge_le (dir := dir) (q := st.quantity) (priceNat_pos hrt.1 hrt.2) (Nat.min_le_left (valDown dir st.quantity (priceNat t)) (leftAt b dir.opposite t))
    set out := valDown dir st.quantity (priceNat t) with hout'
    set L := leftAt b dir.opposite t with hLdef
    have hfill : (if out * D < (tv s t dir.opposite).tal then out * D else (tv s t dir.opposite).tal) = D * min out L := by
      rw [htal, Nat.mul_comm out, ← Nat.mul_min_mul_left]
      split <;> omega
    rw [hfill, checkedSub_ok (by rw [htal]; exact Nat.mul_le_mul_left _ (Nat.min_le_right _ _)),
      checkedAdd_ok (etas_fill_lt h (Nat.min_le_right _ _))]
    have e1 : toUintFloor (D * min out L) = min out L := floor_mul_D _
    simp only [Except.ok_bind', e1]
    split at hs
    · rename_i h3
      have h3' : ¬ min out L < U128 := Nat.not_lt.2 h3
      simp only [Option.some.injEq] at hs
      unfold u128TryFrom
      rw [if_neg h3', Except.error_bind', hs]
    rename_i h3
    have h4 : min out L < U128 := Nat.lt_of_not_le h3
    simp only [u128TryFrom_ok h4, Except.ok_bind', amountToValue_spec hrt.1 hrt.2 h4, valR]
    split at hs
    · rename_i h5
      simp only [Option.some.injEq] at hs
      rw [if_pos h5, hs]
    rename_i h5
    rw [if_neg h5]
    have hcq : valUp dir.opposite (min out L) (priceNat t) < U128 := by omega
    rw [u128TryFrom_ok hcq]
    simp only [Except.ok_bind']
    rw [checkedSub_ok hcl]
    simp only [Except.ok_bind']
    rw [checkedAdd_ok (by omega)]
    simp only [Except.ok_bind']
    exact ih (st := { st with
        quantity := st.quantity - valUp dir.opposite (min out L) (priceNat t)
        orderbook := st.orderbook.setNext dir.opposite t
        totalOutput := st.totalOutput + min out L
        tickUpdates := st.tickUpdates ++ [(t, cur.setValues dir.opposite { tv s t dir.opposite with
          tal := (tv s t dir.opposite).tal - D * min out L, etas := (tv s t dir.opposite).etas + D * min out L })]
        lastTickPrice := priceNat t }) (by simp only; omega) hs (by simp only; omega)

theorem sum_leftAt_lt {s : Store} {b : Book} (h : Rel s b) {ob : Orderbook} {dir : Dir} {bound : Int} :
    ((sweepTicks s ob dir bound).map (leftAt b dir.opposite)).sum < U256 := by
  have hk : ∀ l : List Int, l.Nodup → (∀ t ∈ l, t ∈ tickRange) → (l.map (leftAt b dir.opposite)).sum ≤ openOf b dir.opposite := by
    intro l hl hm
    rw [← List.sum_toFinset _ hl]
    refine Finset.sum_le_sum_of_subset ?_
    intro t ht
    exact hm t (List.mem_toFinset.1 ht)
  have hs := sweepTicks_sorted h.ticksSorted (ob := ob) (dir := dir) (bound := bound)
  have hnd : (sweepTicks s ob dir bound).Nodup := by
    refine List.Pairwise.imp ?_ hs
    intro a b hab
    cases dir <;> simp only [WorseThan] at hab <;> omega
  have h1 := hk _ hnd fun t ht => mem_tickRange.2 (sweepTicks_range h t ht)
  have h2 := h.liqLt dir.opposite
  rw [h.liq_open] at h2
  have h3 : openOf b dir.opposite ≤ D * openOf b dir.opposite := Nat.le_mul_of_pos_left _ D_pos
  exact lt_of_le_of_lt (h1.trans h3) h2

theorem internal_unfold {s : Store} {ob : Orderbook} (hob : s.orderbook = some ob) {order : MarketOrder} {bound : Int}
    (hq : order.quantity ≠ 0) (hb : MIN_TICK ≤ bound ∧ bound ≤ MAX_TICK) (hbo : BoundOk ob order.dir bound) :
    runMarketOrderInternal s order bound = (do
      let st ← marketLoop s order.dir (sweepTicks s ob order.dir bound) ⟨order.quantity, ob, 0, [], D⟩
      let remaining ← amountToValue order.dir st.quantity st.lastTickPrice .down
      if remaining = 0 ∨ Bounded order.dir bound then
        .ok ⟨⟨ob.oppositeDenom order.dir, st.totalOutput⟩, st.tickUpdates, st.orderbook, st.quantity⟩
      else .error .insufficientLiquidity : Except Err PostMarketOrder) := by
  unfold runMarketOrderInternal
  rw [if_neg hq]
  simp only [hob]
  rw [if_neg (by push Not; exact ⟨hb.2, hb.1⟩)]
  obtain ⟨qn, dir, owner⟩ := order
  cases dir
  · simp only [BoundOk] at hbo
    simp only [ge_iff_le, if_pos hbo, Except.ok_bind', decide_eq_true_eq]
    rfl
  · simp only [BoundOk] at hbo
    simp only [gt_iff_lt, if_pos hbo, Except.ok_bind', decide_eq_true_eq]
    rfl

theorem internal_bad_bound {s : Store} {ob : Orderbook} (hob : s.orderbook = some ob) {order : MarketOrder} {bound : Int}
    (hq : order.quantity ≠ 0) (hb : ¬ ((MIN_TICK ≤ bound ∧ bound ≤ MAX_TICK) ∧ BoundOk ob order.dir bound)) :
    runMarketOrderInternal s order bound = .error (.invalidTickId bound) := by
  unfold runMarketOrderInternal
  rw [if_neg hq]
  simp only [hob]
  by_cases h1 : bound ≤ MAX_TICK ∧ bound ≥ MIN_TICK
  swap
  · rw [if_pos h1]
  rw [if_neg (not_not.2 h1)]
  have hbo : ¬ BoundOk ob order.dir bound := fun h => hb ⟨⟨h1.2, h1.1⟩, h⟩
  obtain ⟨qn, dir, owner⟩ := order
  cases dir
  · simp only [BoundOk] at hbo
    simp only [ge_iff_le, if_neg hbo, Except.error_bind']
  · simp only [BoundOk] at hbo
    simp only [if_neg hbo, Except.error_bind']

theorem runMarketOrder_error {s : Store} {order : MarketOrder} {bound : Int} {e : Err}
    (h : runMarketOrderInternal s order bound = .error e) : runMarketOrder order bound s = .err e s := by
  unfold runMarketOrder
  simp only [EM.get_bind, h, EM.lift_error_bind]

theorem fits_iff (r : SwapReq) : r.fits ↔ SwapReqOk r := by
  unfold SwapReq.fits SwapReqOk i64Ok U128
  simp only [decide_eq_true_eq]

theorem fails_cons_true {c : Prop} {err e : Err} {rest : List (Prop × Err)} (h : c) : Fails ((c, err) :: rest) e ↔ Fails rest e := by
  simp [Fails, h]

theorem fails_cons_false {c : Prop} {err e : Err} {rest : List (Prop × Err)} (h : ¬ c) : Fails ((c, err) :: rest) e ↔ e = err := by
  simp [Fails, h]

theorem error_iff {α : Type} {e e' : Err} {x : Except Err α} (h : x = .error e') : x = .error e ↔ e = e' := by
  rw [h, Except.error.injEq, eq_comm]

theorem valDown_one (dir : Dir) (q : Nat) : valDown dir q D = q := by
  have := D_pos
  cases dir
  · simp [valDown, this]
  · simp [valDown, this]

theorem Sweep.amount_le {dir : Dir} {L : Int → Nat} {ts : List Int} {q lp : Nat} {F : List Fill} {q' dust lp' : Nat}
    (h : Sweep dir L ts q lp F q' dust lp') : sumAmount F ≤ (ts.map L).sum := by
  induction h with
  | nil => simp [sumAmount]
  | skip _ _ ih => rw [List.map_cons, List.sum_cons]; omega
  | dust => simp [sumAmount]
  | fill _ _ _ _ _ ih => rw [List.map_cons, List.sum_cons, sumAmount_cons]; simp only; omega

/-- C50: in every reachable state that has room, a swap (exact-in or to a target tick) is rejected exactly for the first of these reasons that
applies; in particular never with an arithmetic overflow or a panic. -/
theorem C50_swap_errors {ch : Chain} {w : World} (hw : Reachable ch w) (hn : w.HasRoom)
    {ob : Orderbook} (hob : orderbookState w.store = .ok ob) (r : SwapReq) {levels : List (Int × Nat)}
    (hl : r.Levels w.store (r.side ob.baseDenom) levels) (time : Nat) (e : Err) :
    let side := r.side ob.baseDenom
    let result := matchLevels side levels r.tokenIn.amount
    step ch w (r.op time) = .error e ↔
      Fails [(r.fits, .decode), (r.sender ≠ ch.contract, .std),
        (r.tokenIn.amount ≠ 0 ∧ r.tokenIn.amount ≤ w.bank r.sender r.tokenIn.denom, .bank),
        (isActive w.store = true, .inactive), (r.fee = 0, .invalidSwap (.fee r.fee)),
        (r.tokenIn.denom ≠ r.outDenom, .invalidSwap .sameDenoms),
        (r.pair ob.quoteDenom ob.baseDenom side, .invalidPair r.tokenIn.denom r.outDenom), (ch.addrValid r.sender = true, .std),
        (r.targetOk ob side, .invalidTickId (r.target.getD 0)),
        (matchError side levels r.tokenIn.amount = none, (matchError side levels r.tokenIn.amount).getD .std),
        (r.mustFill side → ∀ F left dust, result = some (F, left, dust) → usedUp side F left, .insufficientLiquidity),
        (∀ F left dust, result = some (F, left, dust) → r.minOut ≤ (F.map Prod.snd).sum, .invalidSwap (.minOut r.minOut (outputOf result))),
        (∀ F left dust, result = some (F, left, dust) → (F.map Prod.snd).sum ≠ 0, .replyError 5)] e := by
  obtain ⟨n, hw⟩ := hw
  intro side result
  have hl' : r.Levels w.store side levels := hl
  have hres : result = matchLevels side levels r.tokenIn.amount := rfl
  have hs0 : side = if r.tokenIn.denom = ob.baseDenom then Dir.bid else Dir.ask := rfl
  clear_value result side
  clear hl
  obtain ⟨b, h⟩ := hw.traced
  have hob' : w.store.orderbook = some ob := by
    unfold orderbookState at hob
    split at hob
    · simp at hob
    · rename_i hx; rw [hx]; simpa using hob
  have hr := h.rel
  have hne := filledBook_rel hr hob'
  have hptr : MIN_TICK ≤ ob.nextBidTick ∧ ob.nextAskTick ≤ MAX_TICK := by
    obtain ⟨ob2, h1, h2⟩ := hr.ptr
    obtain rfl := orderbook_inj hob' h1
    exact ⟨h2.bidLo, h2.askHi⟩
  obtain ⟨msg, g1, g2, g3⟩ := swapReq_op_eq r time
  have hwt : msg.wellTyped = true ↔ SwapReqOk r := by
    obtain ⟨a, c, o, m, f, t⟩ := r
    cases t <;> simp only [SwapReq.op, Op.sudo.injEq, true_and] at g1 <;> subst g1 <;>
      simp [SudoMsg.wellTyped, SwapReqOk, and_assoc]
  rw [fits_iff]
  by_cases c1 : SwapReqOk r
  swap
  · rw [fails_cons_false c1]
    refine error_iff ?_
    rw [g1]
    have : msg.wellTyped = false := by rw [← Bool.not_eq_true, hwt]; exact c1
    simp only [step, this, Bool.not_false, if_true]
  rw [fails_cons_true c1]
  have e1 : step ch w (r.op time) = (if r.sender = ch.contract then .error .std else (do
      let bank ← w.bank.send r.sender ch.contract r.tokenIn
      runTx ch w bank («sudo» (ch.env time) msg))) := by
    rw [g1]
    simp only [step, hwt.2 c1, Bool.not_true, Bool.false_eq_true, if_false, g3]
  rw [e1]
  by_cases c2 : r.sender = ch.contract
  · rw [fails_cons_false (by simpa using c2), if_pos c2]
    exact error_iff rfl
  rw [fails_cons_true c2, if_neg c2]
  by_cases c3 : r.tokenIn.amount ≠ 0 ∧ r.tokenIn.amount ≤ w.bank r.sender r.tokenIn.denom
  swap
  · rw [fails_cons_false c3]
    refine error_iff ?_
    cases hs : w.bank.send r.sender ch.contract r.tokenIn with
    | error e' => rw [Except.error_bind', Bank.send_error hs]
    | ok bank =>
      have := Bank.send_eq_ok.1 hs
      exact absurd ⟨this.1, this.2.1⟩ c3
  rw [fails_cons_true c3]
  obtain ⟨bank1, hsend⟩ : ∃ bank1, w.bank.send r.sender ch.contract r.tokenIn = .ok bank1 := ⟨_, Bank.send_eq_ok.2 ⟨c3.1, c3.2, rfl⟩⟩
  rw [hsend, Except.ok_bind']
  by_cases c4 : isActive w.store = true
  swap
  · rw [fails_cons_false c4]
    refine error_iff (runTx_err (s := w.store) ?_)
    unfold «sudo»
    refine EM.bind_err_of ?_
    unfold ensureIsActive
    rw [EM.get_bind]
    unfold isActive at c4
    rw [Bool.not_eq_true] at c4
    rw [c4]; rfl
  rw [fails_cons_true c4]
  have hsudo : «sudo» (ch.env time) msg w.store =
      dispatchSwapExactAmountIn (ch.env time) r.sender r.tokenIn r.outDenom r.minOut r.fee r.target w.store := by
    have ha : ensureIsActive w.store = .ok () w.store := ensureIsActive_eq_ok.2 ⟨c4, rfl⟩
    obtain ⟨a, c, o, m, f, t⟩ := r
    cases t <;> simp only [SwapReq.op, Op.sudo.injEq, true_and] at g1 <;> subst g1 <;> unfold «sudo» <;>
      exact EM.bind_ok_of (x := ensureIsActive) ha
  have hd0 : dispatchSwapExactAmountIn (ch.env time) r.sender r.tokenIn r.outDenom r.minOut r.fee r.target w.store =
      (do
        EM.lift (ensureSwapFee r.fee)
        EM.ensure (decide (r.tokenIn.denom ≠ r.outDenom)) (.invalidSwap .sameDenoms)
        let dir ← EM.lift (ob.directionFromPair r.tokenIn.denom r.outDenom)
        EM.ensure (ch.addrValid r.sender) .std
        let (output, quantity) ← runMarketOrder ⟨r.tokenIn.amount, dir, r.sender⟩ (r.target.getD (defaultBound dir))
        EM.lift (validateOutputAmount r.tokenIn.amount r.minOut ⟨r.tokenIn.denom, r.tokenIn.amount⟩ output)
        pure { msgs := ⟨r.sender, output, REPLY_ID_SUDO_SWAP_EXACT_IN⟩ ::
                 (if quantity = 0 then [] else [⟨r.sender, ⟨r.tokenIn.denom, quantity⟩, REPLY_ID_REFUND⟩]),
               events := [.swapExactAmountIn r.sender r.tokenIn r.outDenom r.minOut output.amount],
               data := some output.amount } : M Response) w.store := by
    unfold dispatchSwapExactAmountIn
    cases ensureSwapFee r.fee with
    | error e => simp only [EM.lift_error_bind]
    | ok u =>
      simp only [EM.lift_ok_bind]
      cases decide (r.tokenIn.denom ≠ r.outDenom) with
      | false => simp only [EM.ensure_false_bind]
      | true =>
        simp only [EM.ensure_true_bind]
        rw [EM.bind_ok_of (loadOrderbook_some hob')]
        rfl
  rw [hd0] at hsudo
  clear hd0 e1
  by_cases c5 : r.fee = 0
  swap
  · rw [fails_cons_false c5]
    refine error_iff (runTx_err (s := w.store) (hsudo.trans ?_))
    have : ensureSwapFee r.fee = .error (.invalidSwap (.fee r.fee)) := by unfold ensureSwapFee EXPECTED_SWAP_FEE; rw [if_neg c5]
    simp only [this, EM.lift_error_bind]
  rw [fails_cons_true c5]
  have hfee : ensureSwapFee r.fee = .ok () := by unfold ensureSwapFee EXPECTED_SWAP_FEE; rw [if_pos c5]
  simp only [hfee, EM.lift_ok_bind] at hsudo
  by_cases c6 : r.tokenIn.denom ≠ r.outDenom
  swap
  · rw [fails_cons_false c6]
    refine error_iff (runTx_err (s := w.store) (hsudo.trans ?_))
    simp only [c6, decide_false, EM.ensure_false_bind]
  rw [fails_cons_true c6]
  simp only [c6, ne_eq, not_false_eq_true, decide_true, EM.ensure_true_bind] at hsudo
  obtain ⟨dir, hside⟩ : ∃ dir : Dir, side = dir.opposite := ⟨side.opposite, (Dir.opposite_opposite side).symm⟩
  have hpair : r.pair ob.quoteDenom ob.baseDenom side ↔ ob.directionFromPair r.tokenIn.denom r.outDenom = .ok dir := by
    rw [directionFromPair_eq_ok hne, hside]
    unfold SwapReq.pair
    cases dir <;> rfl
  by_cases c7 : r.pair ob.quoteDenom ob.baseDenom side
  swap
  · rw [fails_cons_false c7]
    refine error_iff (runTx_err (s := w.store) (hsudo.trans ?_))
    have : ob.directionFromPair r.tokenIn.denom r.outDenom = .error (.invalidPair r.tokenIn.denom r.outDenom) := by
      cases hdp : ob.directionFromPair r.tokenIn.denom r.outDenom with
      | error e' =>
        unfold Orderbook.directionFromPair at hdp
        split at hdp
        · simp at hdp
        · split at hdp
          · simp at hdp
          · exact hdp.symm
      | ok d =>
        exfalso
        refine c7 (hpair.2 ?_)
        rw [hdp]
        congr 1
        have := (directionFromPair_eq_ok hne).1 hdp
        have hs2 : (if r.tokenIn.denom = ob.baseDenom then Dir.bid else Dir.ask) = dir.opposite := hs0.symm.trans hside
        rw [this.1] at hs2
        cases d <;> cases dir <;> simp_all [Dir.opposite, Orderbook.expectedDenom]
    simp only [this, EM.lift_error_bind]
  rw [fails_cons_true c7]
  simp only [hpair.1 c7, EM.lift_ok_bind] at hsudo
  by_cases c8 : ch.addrValid r.sender = true
  swap
  · rw [fails_cons_false c8]
    refine error_iff (runTx_err (s := w.store) (hsudo.trans ?_))
    rw [Bool.not_eq_true] at c8
    simp only [c8, EM.ensure_false_bind]
  rw [fails_cons_true c8]
  simp only [c8, EM.ensure_true_bind] at hsudo
  have hq : r.tokenIn.amount < U128 := c1.1
  subst hside
  clear hs0
  by_cases c9 : r.targetOk ob dir.opposite
  swap
  · rw [fails_cons_false c9]
    have ht := (targetOk_iff hptr).not.1 c9
    have htn : r.target.getD (defaultBound dir) = r.target.getD 0 := by
      cases hx : r.target with
      | none =>
        exfalso; refine c9 ?_
        unfold SwapReq.targetOk
        simp [hx]
      | some t => rfl
    refine error_iff (runTx_err (s := w.store) (hsudo.trans ?_))
    rw [EM.bind_err_of (runMarketOrder_error (internal_bad_bound hob' (by exact c3.1) ht)), htn]
  rw [fails_cons_true c9]
  obtain ⟨hb1, hb2⟩ := (targetOk_iff hptr).1 c9
  have hrange := sweepTicks_range hr (ob := ob) (dir := dir) (bound := r.target.getD (defaultBound dir))
  obtain rfl := levels_sweep hr hob' hl'
  have hun := internal_unfold (order := ⟨r.tokenIn.amount, dir, r.sender⟩) hob' c3.1 hb1 hb2
  simp only at hun
  cases c10 : matchError dir.opposite (levelsOf (leftAt b dir.opposite) (sweepTicks w.store ob dir (r.target.getD (defaultBound dir)))) r.tokenIn.amount with
  | some e' =>
    rw [fails_cons_false (by simp), Option.getD_some]
    refine error_iff (runTx_err (s := w.store) (hsudo.trans ?_))
    have hml := marketLoop_error hr (dir := dir) (ts := sweepTicks w.store ob dir (r.target.getD (defaultBound dir)))
      (fun t ht => (mem_sweepTicks.1 ht).1) (st := ⟨r.tokenIn.amount, ob, 0, [], D⟩) hq c10 (by simpa using sum_leftAt_lt hr)
    rw [hml, Except.error_bind'] at hun
    rw [EM.bind_err_of (runMarketOrder_error hun)]
  | none =>
  rw [fails_cons_true rfl]
  obtain ⟨⟨G, left, dust⟩, hm⟩ := matchError_none.1 c10
  rw [hm] at hres
  subst hres
  obtain ⟨F, lp, hsw, rfl⟩ := match_sweep hrange D hm
  have hall : ∀ P : List (Int × Nat) → Nat → Prop,
      (∀ F' left' dust', some (fillPairs F, left, dust) = some (F', left', dust') → P F' left') ↔ P (fillPairs F) left := by
    intro P
    constructor
    · intro hP; exact hP _ _ _ rfl
    · intro hP F' left' dust' he
      simp only [Option.some.injEq, Prod.mk.injEq] at he
      obtain ⟨rfl, rfl, -⟩ := he
      exact hP
  rw [hall (fun F' left' => usedUp dir.opposite F' left'), hall (fun F' _ => r.minOut ≤ (F'.map Prod.snd).sum),
    hall (fun F' _ => (F'.map Prod.snd).sum ≠ 0), fillPairs_sum]
  have hused : usedUp dir.opposite (fillPairs F) left ↔ valDown dir left lp = 0 := by
    unfold usedUp
    cases hF : F.getLast? with
    | none =>
      have : F = [] := List.getLast?_eq_none_iff.1 hF
      subst this
      have e0 : (fillPairs ([] : List Fill)).getLast? = none := rfl
      rw [e0]
      simp only
      rcases hsw.last_price.1 rfl with rfl | rfl
      · simp [valDown_zero]
      · rw [valDown_one]
    | some f =>
      rw [show (fillPairs F).getLast? = some (f.tick, f.amount) from fillPairs_last.2 ⟨f, hF, rfl⟩]
      simp only
      have hft := hrange _ (hsw.sublist.subset (List.mem_map_of_mem (List.mem_of_getLast? hF)))
      rw [Dir.opposite_opposite, ← Nat.floor_eq_zero, ← valDown_spec hft.1 hft.2]
      rcases hsw.last_price.2 f hF with rfl | h
      · rw [valDown_zero, valDown_zero]
      · rw [h]
  by_cases c11 : r.mustFill dir.opposite → usedUp dir.opposite (fillPairs F) left
  swap
  · rw [fails_cons_false c11]
    refine error_iff (runTx_err (s := w.store) (hsudo.trans ?_))
    rw [Classical.not_imp, hused, mustFill_iff hb1] at c11
    obtain ⟨st, hst⟩ := marketLoop_complete hr (dir := dir) (ts := sweepTicks w.store ob dir (r.target.getD (defaultBound dir)))
      (fun t ht => (mem_sweepTicks.1 ht).1) (st := ⟨r.tokenIn.amount, ob, 0, [], D⟩) hq hsw
      (by have := hsw.amount_le; have := sum_leftAt_lt hr (ob := ob) (dir := dir) (bound := r.target.getD (defaultBound dir)); simp only; omega)
    obtain ⟨F2, q2, d2, lp2, hs2, he⟩ := marketLoop_spec hr hrange (by exact hq) hst
    obtain ⟨rfl, rfl, rfl, rfl⟩ := hsw.det hs2
    obtain ⟨t, ht0, ht1, hlp⟩ := hsw.lp hrange ⟨0, by decide, by decide, priceNat_zero.symm⟩
    have hin := hsw.input hrange
    rw [hst, Except.ok_bind', he] at hun
    simp only at hun
    rw [hlp, amountToValue_spec ht0 ht1 (by omega), Except.ok_bind'] at hun
    simp only [valR] at hun
    have hno : ¬ (valDown dir left lp = 0 ∨ Bounded dir (r.target.getD (defaultBound dir))) := by rw [not_or]; exact ⟨c11.2, c11.1⟩
    rw [← hlp] at hun
    replace hun := hun.trans (if_neg hno)
    rw [EM.bind_err_of (runMarketOrder_error hun)]
  rw [fails_cons_true c11]
  have hrun : SwapRun w.store b ob dir (r.target.getD (defaultBound dir)) r.tokenIn.amount F left dust lp := by
    refine ⟨c3.1, hb1, hb2, hsw, ?_⟩
    by_cases hbd : Bounded dir (r.target.getD (defaultBound dir))
    · exact Or.inr hbd
    · exact Or.inl (hused.1 (c11 ((mustFill_iff hb1).2 hbd)))
  obtain ⟨post, hpost⟩ := internal_complete hr hob' (order := ⟨r.tokenIn.amount, dir, r.sender⟩) hq hrun
  obtain ⟨F2, q2, d2, lp2, hr2, -, hmo⟩ := runMarketOrder_of_internal hr hob' hq hpost
  obtain ⟨rfl, rfl, rfl, rfl⟩ := hrun.sweep.det hr2.sweep
  simp only at hmo
  have hdd : r.tokenIn.denom = ob.expectedDenom dir ∧ r.outDenom = ob.oppositeDenom dir := by
    refine ⟨c7.1.trans ?_, c7.2.trans ?_⟩ <;> cases dir <;> rfl
  by_cases c12 : r.minOut ≤ sumAmount F
  swap
  · rw [fails_cons_false c12]
    refine error_iff (runTx_err (s := swappedStore w.store dir.opposite F ob) (hsudo.trans ?_))
    rw [EM.bind_ok_of hmo]
    have : validateOutputAmount r.tokenIn.amount r.minOut ⟨r.tokenIn.denom, r.tokenIn.amount⟩ ⟨ob.oppositeDenom dir, sumAmount F⟩ =
        .error (.invalidSwap (.minOut r.minOut (sumAmount F))) := by
      unfold validateOutputAmount
      rw [if_neg (by simp), if_pos (by simpa using c12)]
    simp only [this, EM.lift_error_bind, outputOf, fillPairs_sum]
  rw [fails_cons_true c12]
  have hSO : SwapOk (ch.env time) w.store b ob r.sender r.tokenIn r.outDenom r.minOut r.fee r.target dir F left dust lp :=
    ⟨c5, hdd, c8, hrun, c12⟩
  have hdisp := (sudo_swap g2).2 ⟨c4, dispatchSwap_of hr hob' hSO hmo⟩
  by_cases c13 : sumAmount F ≠ 0
  · have hst : StoreStep ch (r.op time) w.store b (swapResponse r.sender r.tokenIn r.outDenom r.minOut (sumAmount F) left)
        (swappedStore w.store dir.opposite F ob) (filledBook b F dir.opposite) := by
      rw [g1]; exact .swap c4 hob' g2 hq hSO
    obtain ⟨bank2, hd⟩ := h.dispatch hn.room.lt_D hst (bank1 := bank1) (by
      intro d
      have := Bank.send_receive hsend c2 d
      rw [this, swap_inflow]) (swapMsgs_pos c13)
    rw [runTx_ok hdisp hd, fails_cons_true c13]
    simp [Fails]
  · rw [fails_cons_false c13]
    refine error_iff ?_
    rw [not_not] at c13
    rw [runTx_dispatch, hdisp]
    simp only [swapResponse, swapMsgs, c13]
    rw [Bank.dispatch.eq_def]
    simp [Bank.send]
    rfl

/-- The reason for which an operation is rejected. -/
def reason (ch : Chain) (w : World) (op : Op) : Option Err :=
  match step ch w op with
  | .ok _ => none
  | .error e => some e

/-! Non-vacuity: on the demo book every kind of reason occurs (and the corresponding good message is accepted). -/
example : [reason Demo.ch Demo.after (Demo.place "zed" 200000000 .bid 5 none), reason Demo.ch Demo.after (Demo.place "zed" 1 .bid 5 (some (10 ^ 16 + 1))),
    reason Demo.ch Demo.after (.execute "zed" [⟨"b", 5⟩] 7 (.placeLimit 1 .bid 5 none)),
    reason Demo.ch Demo.after (.execute "zed" [⟨"q", 6⟩] 7 (.placeLimit 1 .bid 5 none)), reason Demo.ch Demo.after (Demo.place "zed" 1 .bid 5 none)] =
    [some (.invalidTickId 200000000), some (.invalidClaimBounty (some (10 ^ 16 + 1))), some (.payment (.missingDenom "q")), some (.insufficientFunds 6 5), none] := by decide +kernel

example : [reason Demo.ch Demo.after (Demo.cancel "dave" 0 77), reason Demo.ch Demo.after (Demo.cancel "zed" 0 3), reason Demo.ch Demo.after (Demo.cancel "dave" 0 3),
    reason Demo.ch Demo.after (.execute "dave" [⟨"q", 1⟩] 7 (.cancelLimit 0 3)), reason Demo.ch Demo.after (Demo.cancel "erin" (-5000000) 4)] =
    [some (.orderNotFound 0 77), some .unauthorized, some .cancelFilledOrder, some (.payment .nonPayable), none] := by decide +kernel

example : [reason Demo.ch Demo.after (Demo.claim "zed" 99 0), reason Demo.ch Demo.after (Demo.claim "zed" 0 0), reason Demo.ch Demo.after (Demo.claim "zed" 10 1),
    reason Demo.ch Demo.after (Demo.claim "zed" 0 3), reason Demo.ch Demo.after (.execute "zed" [] 7 (.batchClaim (List.replicate 101 (0, 3))))] =
    [some (.invalidTickId 99), some (.orderNotFound 0 0), some .zeroClaim, none, some (.batchClaimLimitExceeded 100)] := by decide +kernel

example : [reason Demo.ch Demo.after (Demo.sell "zed" 300000 170001), reason Demo.ch Demo.after (Demo.sell "zed" 3000000 1), reason Demo.ch Demo.after (Demo.sell "zed" 0 1),
    reason Demo.ch Demo.after (.sudo 7 (.swapExactAmountIn "zed" ⟨"b", 5⟩ "x" 0 0)), reason Demo.ch Demo.after (.sudo 7 (.swapExactAmountIn "zed" ⟨"b", 5⟩ "q" 0 1)),
    reason Demo.ch Demo.after (.sudo 7 (.swapToTick "zed" ⟨"b", 5⟩ "q" 0 0 1)), reason Demo.ch Demo.after (.sudo 7 (.swapToTick "zed" ⟨"q", 1⟩ "b" 0 0 20)),
    reason Demo.ch Demo.after (Demo.sell "zed" 300000 170000)] =
    [some (.invalidSwap (.minOut 170001 170000)), some .insufficientLiquidity, some .bank, some (.invalidPair "b" "x"), some (.invalidSwap (.fee 1)), some (.invalidTickId 1), some (.replyError 5), none] := by
  decide +kernel

end OB
