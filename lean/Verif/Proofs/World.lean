import Verif.Proofs.Reach
/- Transactions: bank effects and reachability. -/
namespace OB

/-- The bank after a list of transfers, all of which succeed; this is what `runSubMsgs` amounts to, because `reply` always fails. -/
def Bank.dispatch (b : Bank) (contract : Addr) : List SendMsg → Except Err Bank
  | [] => .ok b
  | m :: ms =>
    match b.send contract m.to m.coin with
    | .ok b => b.dispatch contract ms
    | .error _ => .error (.replyError m.replyId)

/-- Total of a denom in a list of coins. -/
def coinSum (d : Denom) (cs : List Coin) : Nat := (cs.map fun c => if c.denom = d then c.amount else 0).sum

/-- Total of a denom in a list of transfers. -/
def msgSum (d : Denom) (ms : List SendMsg) : Nat := coinSum d (ms.map SendMsg.coin)

@[simp] theorem coinSum_nil (d : Denom) : coinSum d [] = 0 := rfl
@[simp] theorem coinSum_cons (d : Denom) (c : Coin) (cs : List Coin) :
    coinSum d (c :: cs) = (if c.denom = d then c.amount else 0) + coinSum d cs := by simp [coinSum]
@[simp] theorem coinSum_append (d : Denom) (a b : List Coin) : coinSum d (a ++ b) = coinSum d a + coinSum d b := by
  simp [coinSum]
@[simp] theorem msgSum_nil (d : Denom) : msgSum d [] = 0 := rfl
@[simp] theorem msgSum_cons (d : Denom) (m : SendMsg) (ms : List SendMsg) :
    msgSum d (m :: ms) = (if m.coin.denom = d then m.coin.amount else 0) + msgSum d ms := by simp [msgSum]
@[simp] theorem msgSum_append (d : Denom) (a b : List SendMsg) : msgSum d (a ++ b) = msgSum d a + msgSum d b := by
  simp [msgSum]

theorem runSubMsgs_eq (ch : Chain) (w : World) (ms : List SendMsg) :
    runSubMsgs ch w ms = match w.bank.dispatch ch.contract ms with
      | .ok bank => .ok ⟨w.store, bank⟩
      | .error e => .error e := by
  induction ms generalizing w with
  | nil => rfl
  | cons m ms ih =>
    rw [runSubMsgs.eq_def, Bank.dispatch.eq_def]
    simp only
    cases w.bank.send ch.contract m.to m.coin with
    | ok b => simp only; rw [ih]
    | error e => rfl

theorem runTx_dispatch (ch : Chain) (w : World) (bank : Bank) (x : M Response) :
    runTx ch w bank x = match x w.store with
      | .err e _ => .error e
      | .ok resp s => match bank.dispatch ch.contract resp.msgs with
        | .error e => .error e
        | .ok bank => .ok (⟨s, bank⟩, resp) := by
  unfold runTx
  cases x w.store with
  | err e s => rfl
  | ok resp s =>
    simp only
    rw [runSubMsgs_eq]
    cases bank.dispatch ch.contract resp.msgs <;> rfl

theorem Bank.send_eq_ok {b b' : Bank} {src dst : Addr} {c : Coin} :
    b.send src dst c = .ok b' ↔ c.amount ≠ 0 ∧ c.amount ≤ b src c.denom ∧
      b' = fun a d => if a = dst ∧ d = c.denom then (if a = src ∧ d = c.denom then b a d - c.amount else b a d) + c.amount
        else (if a = src ∧ d = c.denom then b a d - c.amount else b a d) := by
  unfold Bank.send
  split
  · simp_all
  · split
    · constructor
      · intro h; simp at h
      · rintro ⟨-, h, -⟩; omega
    · constructor
      · intro h; simp only [Except.ok.injEq] at h; exact ⟨‹_›, by omega, h.symm⟩
      · rintro ⟨-, -, h⟩; rw [h]

/-- Receiving from someone else. -/
theorem Bank.send_receive {b b' : Bank} {src dst : Addr} {c : Coin} (h : b.send src dst c = .ok b') (hne : src ≠ dst) (d : Denom) :
    b' dst d = b dst d + (if c.denom = d then c.amount else 0) := by
  obtain ⟨-, -, rfl⟩ := send_eq_ok.1 h
  simp only [true_and, fun h : dst = src => hne h.symm]
  by_cases hd : d = c.denom
  · subst hd
    have : ¬ (dst = src ∧ True) := fun hh => hne hh.1.symm
    simp only [true_and, and_true, if_true]
    rw [if_neg (fun h : dst = src => hne h.symm)]
  · have : ¬ c.denom = d := fun hh => hd hh.symm
    simp [hd, this]

/-- Paying out lowers a balance by at most the amount. -/
theorem Bank.send_pay {b b' : Bank} {src dst : Addr} {c : Coin} (h : b.send src dst c = .ok b') (d : Denom) :
    b src d ≤ b' src d + (if c.denom = d then c.amount else 0) := by
  obtain ⟨-, h2, rfl⟩ := send_eq_ok.1 h
  by_cases hd : d = c.denom
  · subst hd
    by_cases h3 : src = dst
    · subst h3; simp; omega
    · simp [h3]; omega
  · simp [hd]

/-- ... and exactly by it if the recipient is someone else. -/
theorem Bank.send_pay_eq {b b' : Bank} {src dst : Addr} {c : Coin} (h : b.send src dst c = .ok b') (hne : dst ≠ src) (d : Denom) :
    b src d = b' src d + (if c.denom = d then c.amount else 0) := by
  obtain ⟨-, h2, rfl⟩ := send_eq_ok.1 h
  by_cases hd : d = c.denom
  · subst hd
    have h3 : ¬ src = dst := fun hh => hne hh.symm
    simp [h3]; omega
  · have h4 : ¬ c.denom = d := fun hh => hd hh.symm
    simp [hd, h4]

/-- A third party's balance does not go down. -/
theorem Bank.send_other {b b' : Bank} {src dst a : Addr} {c : Coin} (h : b.send src dst c = .ok b') (hne : src ≠ a) (d : Denom) :
    b a d ≤ b' a d := by
  obtain ⟨-, h2, rfl⟩ := send_eq_ok.1 h
  have h3 : ¬ a = src := fun hh => hne hh.symm
  simp only [h3, false_and, if_false]
  split <;> omega

theorem Bank.sendAll_receive {b b' : Bank} {src dst : Addr} {cs : List Coin} (h : b.sendAll src dst cs = .ok b') (hne : src ≠ dst)
    (d : Denom) : b' dst d = b dst d + coinSum d cs := by
  induction cs generalizing b with
  | nil => simp [Bank.sendAll] at h; simp [h]
  | cons c cs ih =>
    unfold Bank.sendAll at h
    rw [Except.bind_eq_ok'] at h
    obtain ⟨b1, h1, h2⟩ := h
    rw [ih h2, Bank.send_receive h1 hne, coinSum_cons]; omega

theorem Bank.dispatch_pay {b b' : Bank} {src : Addr} {ms : List SendMsg} (h : b.dispatch src ms = .ok b') (d : Denom) :
    b src d ≤ b' src d + msgSum d ms := by
  induction ms generalizing b with
  | nil => simp [Bank.dispatch] at h; simp [h]
  | cons m ms ih =>
    unfold Bank.dispatch at h
    split at h
    · rename_i b1 h1
      have := ih h
      have := Bank.send_pay h1 d
      rw [msgSum_cons]; omega
    · simp at h

/-- Sufficient balances and nonzero amounts make every transfer succeed. -/
theorem Bank.dispatch_ok {b : Bank} {src : Addr} {ms : List SendMsg} (h0 : ∀ m ∈ ms, m.coin.amount ≠ 0)
    (h : ∀ d, msgSum d ms ≤ b src d) : ∃ b', b.dispatch src ms = .ok b' := by
  induction ms generalizing b with
  | nil => exact ⟨b, rfl⟩
  | cons m ms ih =>
    have hm := h m.coin.denom
    rw [msgSum_cons, if_pos rfl] at hm
    have hsend : ∃ b1, b.send src m.to m.coin = .ok b1 := ⟨_, Bank.send_eq_ok.2 ⟨h0 m (by simp), by omega, rfl⟩⟩
    obtain ⟨b1, h1⟩ := hsend
    unfold Bank.dispatch
    rw [h1]
    refine ih (fun m hm => h0 m (by simp [hm])) ?_
    intro d
    have h2 := Bank.send_pay h1 d
    have h3 := h d
    rw [msgSum_cons] at h3
    omega

/-- The transfers name only these addresses. -/
theorem Bank.dispatch_pay_eq {b b' : Bank} {src : Addr} {ms : List SendMsg} (h : b.dispatch src ms = .ok b')
    (hne : ∀ m ∈ ms, m.to ≠ src) (d : Denom) : b src d = b' src d + msgSum d ms := by
  induction ms generalizing b with
  | nil => simp [Bank.dispatch] at h; simp [h]
  | cons m ms ih =>
    unfold Bank.dispatch at h
    split at h
    · rename_i b1 h1
      have h2 := ih h (fun m hm => hne m (by simp [hm]))
      have h3 := Bank.send_pay_eq h1 (hne m (by simp)) d
      rw [msgSum_cons]; omega
    · simp at h

/-- Coins that an operation brings to the contract. -/
def Op.inflow : Op → List Coin
  | .execute _ funds _ _ => funds
  | .sudo _ msg => match msg.deposit with
    | some (_, c) => [c]
    | none => []
  | _ => []

/-- Every successful operation runs a handler on the balances including the deposit, then dispatches its transfers. -/
theorem step_bank {ch : Chain} {w w' : World} {op : Op} {resp : Response} (h : step ch w op = .ok (w', resp)) :
    ∃ bank1 : Bank, bank1.dispatch ch.contract resp.msgs = .ok w'.bank ∧
      ∀ d, w.bank ch.contract d + coinSum d op.inflow ≤ bank1 ch.contract d := by
  have hrun : ∀ {bank : Bank} {x : M Response}, runTx ch w bank x = .ok (w', resp) →
      bank.dispatch ch.contract resp.msgs = .ok w'.bank := by
    intro bank x hx
    rw [runTx_dispatch] at hx
    split at hx
    · simp at hx
    · split at hx
      · simp at hx
      · simp only [Except.ok.injEq, Prod.mk.injEq] at hx
        obtain ⟨rfl, rfl⟩ := hx
        assumption
  cases op with
  | execute sender funds time msg =>
    simp only [step] at h
    split at h
    · simp at h
    · split at h
      · simp at h
      · rw [Except.bind_eq_ok'] at h
        obtain ⟨bank, h1, h2⟩ := h
        exact ⟨bank, hrun h2, fun d => le_of_eq (Bank.sendAll_receive h1 ‹_› d).symm⟩
  | «sudo» time msg =>
    simp only [step] at h
    split at h
    · simp at h
    · split at h
      · rename_i hd
        refine ⟨w.bank, hrun h, fun d => ?_⟩
        simp [Op.inflow, hd]
      · rename_i sender c hd
        split at h
        · simp at h
        · rw [Except.bind_eq_ok'] at h
          obtain ⟨bank, h1, h2⟩ := h
          refine ⟨bank, hrun h2, fun d => ?_⟩
          rw [Bank.send_receive h1 ‹_›]
          simp [Op.inflow, hd]
  | migrate => simp only [step] at h; exact ⟨w.bank, hrun h, fun d => by simp [Op.inflow]⟩
  | transfer src dst c =>
    simp only [step] at h
    split at h
    · simp at h
    · rw [Except.bind_eq_ok'] at h
      obtain ⟨bank, h1, h2⟩ := h
      simp only [Except.pure_eq', Except.ok.injEq, Prod.mk.injEq] at h2
      obtain ⟨rfl, rfl⟩ := h2
      refine ⟨bank, rfl, fun d => ?_⟩
      simpa [Op.inflow] using Bank.send_other h1 ‹_› d
  | mint dst c =>
    simp only [step, Except.ok.injEq, Prod.mk.injEq] at h
    obtain ⟨rfl, rfl⟩ := h
    refine ⟨_, rfl, fun d => ?_⟩
    simp only [Op.inflow, coinSum_nil]
    split <;> omega

/-- Every successful operation is one of the known kinds. -/
theorem step_store {ch : Chain} {w w' : World} {op : Op} {resp : Response} {b : Book} (hr : Rel w.store b)
    (h : step ch w op = .ok (w', resp)) : ∃ b', StoreStep ch op w.store b resp w'.store b' := by
  have hrun : ∀ {bank : Bank} {x : M Response}, runTx ch w bank x = .ok (w', resp) → x w.store = .ok resp w'.store := by
    intro bank x hx
    rw [runTx_dispatch] at hx
    split at hx
    · simp at hx
    · split at hx
      · simp at hx
      · simp only [Except.ok.injEq, Prod.mk.injEq] at hx
        obtain ⟨rfl, rfl⟩ := hx
        assumption
  have hconf : ∀ {op : Op}, op.isConfig = true → w'.store = w.store → resp = {} → ∃ b', StoreStep ch op w.store b resp w'.store b' := by
    rintro op h1 h2 rfl
    rw [h2]
    exact ⟨b, .config h1 ⟨rfl, rfl, rfl, rfl, rfl, rfl⟩ hr.conf rfl (by simp)⟩
  cases op with
  | execute sender funds time msg =>
    simp only [step] at h
    split at h
    · simp at h
    · split at h
      · simp at h
      · rename_i hw
        rw [Except.bind_eq_ok'] at h
        obtain ⟨bank, h1, h2⟩ := h
        exact execute_ok hr (by simpa using hw) (hrun h2)
  | «sudo» time msg =>
    simp only [step] at h
    split at h
    · simp at h
    · rename_i hw
      split at h
      · exact sudo_step_ok hr (by simpa using hw) (hrun h)
      · split at h
        · simp at h
        · rw [Except.bind_eq_ok'] at h
          obtain ⟨bank, h1, h2⟩ := h
          exact sudo_step_ok hr (by simpa using hw) (hrun h2)
  | migrate =>
    simp only [step] at h
    have := hrun h
    unfold migrate at this
    rw [EM.pure_eq_ok] at this
    exact hconf rfl this.2 this.1
  | transfer src dst c =>
    simp only [step] at h
    split at h
    · simp at h
    · rw [Except.bind_eq_ok'] at h
      obtain ⟨bank, h1, h2⟩ := h
      simp only [Except.pure_eq', Except.ok.injEq, Prod.mk.injEq] at h2
      obtain ⟨rfl, rfl⟩ := h2
      exact hconf rfl rfl rfl
  | mint dst c =>
    simp only [step, Except.ok.injEq, Prod.mk.injEq] at h
    obtain ⟨rfl, rfl⟩ := h
    exact hconf rfl rfl rfl

theorem rel_initial {ch : Chain} {w : World} (h : Initial ch w) : Rel w.store Book.empty := by
  obtain ⟨time, supply, quote, base, resp, h⟩ := h
  simp only [instantiate, createOrderbook, saveOrderbook, setMakerFee, setMakerFeeRecipient,
    EM.bind_eq_ok, EM.ensure_eq_ok, EM.modify_eq_ok, EM.pure_eq_ok] at h
  obtain ⟨_, _, ⟨-, rfl⟩, _, _, rfl, _, _, ⟨-, rfl⟩, _, _, rfl, _, _, ⟨_, _, ⟨hne, rfl⟩, _, _, ⟨-, rfl⟩, _, _, ⟨-, rfl⟩, _, _, rfl,
    _, _, ⟨_, _, ⟨hfee, rfl⟩, _, _, rfl, -, rfl⟩, _, _, ⟨-, rfl⟩, rfl⟩, -, hs⟩ := h
  have hne' : quote ≠ base := by simpa using hne
  have e1 : w.store.ticks = [] := by rw [hs]; rfl
  have e2 : w.store.orders = [] := by rw [hs]; rfl
  have e3 : w.store.trees = Store.empty.trees := by rw [hs]
  have e4 : w.store.dirLiq = Store.empty.dirLiq := by rw [hs]
  have e5 : w.store.orderbook = some (⟨quote, base, 0, MIN_TICK, MAX_TICK⟩ : Orderbook) := by rw [hs]
  have e6 : ConfOk w.store := by
    rw [hs]
    exact ⟨of_decide_eq_true hfee, by simp, by simp⟩
  clear hs
  generalize w.store = s at e1 e2 e3 e4 e5 e6
  refine ⟨?_, ?_, ?_, ?_, ?_, ?_, ⟨?_, ?_, ?_⟩, ?_, ?_, ?_, ?_, e6, ?_⟩
  · intro t d
    refine ⟨0, .empty, ?_, ?_, rfl⟩
    · have e : tv s t d = .default := by
        unfold tv; rw [e1]; cases d <;> rfl
      rw [e]
      exact SideRel.nil
    · intro k hk
      rw [e3] at hk
      simp [Store.empty] at hk
  · intro t q _; rw [e3]; rfl
  · intro t; rw [e1]; simp [Book.empty, SMap.get?]
  · rw [e1]; exact List.Pairwise.nil
  · rw [e2]; exact List.Pairwise.nil
  · intro t id o
    rw [e2]
    simp [Book.empty, SMap.get?]
  · intro t d; exact List.Pairwise.nil
  · intro t d x hx; simp [Book.empty] at hx
  · intro t d t' d' x x' hx; simp [Book.empty] at hx
  · intro t d hne; simp [Book.empty] at hne
  · intro t d x hx; simp [Book.empty] at hx
  · intro d; unfold getDirectionalLiquidity sumTal; rw [e4, e1]; rfl
  · intro d; unfold getDirectionalLiquidity; rw [e4]; show 0 < U256; unfold U256; norm_num
  · refine ⟨_, e5, hne', ?_, ?_, le_refl _, ?_, ?_, le_refl _⟩
    · intro t ht; simp [Book.empty] at ht
    · intro t ht; simp [Book.empty] at ht
    · simp only; unfold MIN_TICK MAX_TICK; norm_num
    · simp only; unfold MIN_TICK MAX_TICK; norm_num

/-- Every traced world is related to the observed queues. -/
theorem Traced.rel {ch : Chain} {n : Nat} {w : World} {b : Book} (h : Traced ch n w b) : Rel w.store b := by
  induction h with
  | init h => exact rel_initial h
  | ok _ hs ih =>
    obtain ⟨b', hb⟩ := step_store ih hs
    rw [hb.observe ih]
    exact hb.rel ih
  | failed _ _ ih => exact ih

theorem Traced.step {ch : Chain} {n : Nat} {w w' : World} {b : Book} {op : Op} {resp : Response} (h : Traced ch n w b)
    (hs : step ch w op = .ok (w', resp)) :
    StoreStep ch op w.store b resp w'.store (b.observe op w.store w'.store resp) := by
  obtain ⟨b', hb⟩ := step_store h.rel hs
  rw [hb.observe h.rel]
  exact hb

theorem Traced.apply {ch : Chain} {n : Nat} {w : World} {b : Book} (h : Traced ch n w b) (op : Op) :
    ∃ b', Traced ch (n + 1) (apply ch w op) b' := by
  unfold OB.apply
  cases hs : OB.step ch w op with
  | ok r => exact ⟨_, .ok h hs⟩
  | error e => exact ⟨b, .failed h hs⟩

theorem Traced.run {ch : Chain} {n : Nat} {w : World} {b : Book} (h : Traced ch n w b) (ops : List Op) :
    ∃ b', Traced ch (n + ops.length) (run ch w ops) b' := by
  induction ops generalizing n w b with
  | nil => exact ⟨b, h⟩
  | cons op ops ih =>
    obtain ⟨b1, h1⟩ := h.apply op
    obtain ⟨b2, h2⟩ := ih h1
    refine ⟨b2, ?_⟩
    have : n + (op :: ops).length = n + 1 + ops.length := by simp; omega
    rw [this]; exact h2

/-- Every reachable world has a trace. -/
theorem ReachableIn.traced {ch : Chain} {n : Nat} {w : World} (h : ReachableIn ch n w) : ∃ b, Traced ch n w b := by
  obtain ⟨w0, ops, h1, rfl, rfl⟩ := h
  obtain ⟨b, hb⟩ := (Traced.init h1).run ops
  exact ⟨b, by simpa using hb⟩

theorem Traced.reachable {ch : Chain} {n : Nat} {w : World} {b : Book} (h : Traced ch n w b) : ReachableIn ch n w := by
  induction h with
  | init h => exact ⟨_, [], h, rfl, rfl⟩
  | @ok n w b op w' resp _ hs ih =>
    obtain ⟨w0, ops, h1, h2, h3⟩ := ih
    refine ⟨w0, ops ++ [op], h1, by simp [h2], ?_⟩
    have e : OB.apply ch w op = w' := by unfold OB.apply; rw [hs]
    unfold OB.run at h3 ⊢
    rw [List.foldl_append, ← h3]
    exact e.symm
  | @failed n w b op e _ hs ih =>
    obtain ⟨w0, ops, h1, h2, h3⟩ := ih
    refine ⟨w0, ops ++ [op], h1, by simp [h2], ?_⟩
    have e : OB.apply ch w op = w := by unfold OB.apply; rw [hs]
    unfold OB.run at h3 ⊢
    rw [List.foldl_append, ← h3]
    exact e.symm

end OB
