import Verif.SpecRefuse
import Verif.Props.Flow
import Verif.Props.Funds
/- C73, C74: banks that refuse transfers. -/
namespace OB
open Spec

theorem Bank.sendR_eq_ok {rf : Refusals} {b b' : Bank} {src dst : Addr} {c : Coin} :
    b.sendR rf src dst c = .ok b' ↔ b.send src dst c = .ok b' ∧ rf src dst c = false := by
  unfold Bank.sendR
  cases rf src dst c <;> simp

theorem Bank.sendAllR_eq_ok {rf : Refusals} {b b' : Bank} {src dst : Addr} {cs : List Coin} :
    b.sendAllR rf src dst cs = .ok b' ↔ b.sendAll src dst cs = .ok b' ∧ ∀ c ∈ cs, rf src dst c = false := by
  induction cs generalizing b with
  | nil => simp [Bank.sendAllR, Bank.sendAll]
  | cons c cs ih =>
    simp only [Bank.sendAllR, Bank.sendAll, Except.bind_eq_ok', Bank.sendR_eq_ok, ih, List.mem_cons, forall_eq_or_imp]
    constructor
    · rintro ⟨b1, ⟨h1, h2⟩, h3, h4⟩; exact ⟨⟨b1, h1, h3⟩, h2, h4⟩
    · rintro ⟨⟨b1, h1, h3⟩, h2, h4⟩; exact ⟨b1, ⟨h1, h2⟩, h3, h4⟩

theorem reply_false (id : Nat) (s : Store) : reply id false s = .err (.replyError id) s := rfl

theorem runSubMsgsR_eq_ok {ch : Chain} {rf : Refusals} {w w' : World} {ms : List SendMsg} :
    runSubMsgsR ch rf w ms = .ok w' ↔ runSubMsgs ch w ms = .ok w' ∧ ∀ m ∈ ms, rf ch.contract m.to m.coin = false := by
  induction ms generalizing w with
  | nil => simp [runSubMsgsR, runSubMsgs]
  | cons m ms ih =>
    unfold runSubMsgsR runSubMsgs
    unfold Bank.sendR
    simp only [List.mem_cons, forall_eq_or_imp, reply_false]
    cases hr : rf ch.contract m.to m.coin
    · cases hs : w.bank.send ch.contract m.to m.coin <;> simp [ih]
    · simp

theorem runSubMsgsR_error {ch : Chain} {rf : Refusals} {w w' : World} {ms : List SendMsg} (h : runSubMsgs ch w ms = .ok w') {m : SendMsg}
    (hm : FirstRefused rf ch.contract ms m) : runSubMsgsR ch rf w ms = .error (.replyError m.replyId) := by
  obtain ⟨p, q, rfl, h1, h2⟩ := hm
  induction p generalizing w with
  | nil =>
    rw [List.nil_append]
    unfold runSubMsgsR Bank.sendR
    rw [h2]
    rfl
  | cons x p ih =>
    rw [List.cons_append] at h ⊢
    unfold runSubMsgs at h
    unfold runSubMsgsR Bank.sendR
    rw [h1 x (by simp)]
    cases hs : w.bank.send ch.contract x.to x.coin with
    | error e => rw [hs] at h; simp [reply_false] at h
    | ok b1 =>
      rw [hs] at h
      exact ih h fun y hy => h1 y (by simp [hy])

theorem runTxR_eq_ok {ch : Chain} {rf : Refusals} {w w' : World} {bank : Bank} {x : M Response} {resp : Response} :
    runTxR ch rf w bank x = .ok (w', resp) ↔
      runTx ch w bank x = .ok (w', resp) ∧ ∀ m ∈ resp.msgs, rf ch.contract m.to m.coin = false := by
  unfold runTxR runTx
  cases hx : x w.store with
  | err e s => simp
  | ok r s =>
    simp only
    cases hR : runSubMsgsR ch rf ⟨s, bank⟩ r.msgs with
    | ok w1 =>
      obtain ⟨h1, h2⟩ := runSubMsgsR_eq_ok.1 hR
      rw [h1]
      simp only [Except.ok.injEq, Prod.mk.injEq]
      constructor
      · rintro ⟨rfl, rfl⟩; exact ⟨⟨rfl, rfl⟩, h2⟩
      · exact fun h => h.1
    | error e =>
      simp only [reduceCtorEq, false_iff, not_and]
      intro h hm
      cases h1 : runSubMsgs ch ⟨s, bank⟩ r.msgs with
      | error e => rw [h1] at h; simp at h
      | ok w1 =>
        rw [h1] at h
        simp only [Except.ok.injEq, Prod.mk.injEq] at h
        obtain ⟨rfl, rfl⟩ := h
        have := (runSubMsgsR_eq_ok (rf := rf)).2 ⟨h1, hm⟩
        rw [hR] at this
        cases this

/-- C73 (acceptance): with a bank that refuses some transfers, an operation is accepted exactly when it would be accepted otherwise - with the
very same result - and the bank refuses neither the payment that comes with it nor any transfer of its response. -/
theorem C73_accept_iff (ch : Chain) (rf : Refusals) (w : World) (op : Op) (w' : World) (resp : Response) :
    stepR ch rf w op = .ok (w', resp) ↔
      step ch w op = .ok (w', resp) ∧
      (∀ src dst cs, payment ch op = some (src, dst, cs) → ∀ c ∈ cs, rf src dst c = false) ∧
      ∀ m ∈ resp.msgs, rf ch.contract m.to m.coin = false := by
  have hsudo : ∀ {time : Nat} {msg : SudoMsg}, (∀ src dst cs, payment ch (.sudo time msg) = some (src, dst, cs) → ∀ c ∈ cs, rf src dst c = false) ↔
      (∀ sender c, msg.deposit = some (sender, c) → rf sender ch.contract c = false) := by
    intro time msg
    cases msg <;> simp [payment, SudoMsg.deposit]
  cases op with
  | execute sender funds time msg =>
    simp only [stepR, step]
    by_cases h1 : sender = ch.contract
    · simp [h1]
    by_cases h2 : msg.wellTyped = true
    · simp only [h1, h2, if_false, Bool.not_true, Bool.false_eq_true, Except.bind_eq_ok', Bank.sendAllR_eq_ok, runTxR_eq_ok, payment,
        Option.some.injEq, Prod.mk.injEq]
      constructor
      · rintro ⟨b1, ⟨g1, g2⟩, g3, g4⟩
        refine ⟨⟨b1, g1, g3⟩, ?_, g4⟩
        rintro src dst cs ⟨rfl, rfl, rfl⟩
        exact g2
      · rintro ⟨⟨b1, g1, g3⟩, g2, g4⟩
        exact ⟨b1, ⟨g1, g2 _ _ _ ⟨rfl, rfl, rfl⟩⟩, g3, g4⟩
    · simp [h1, h2]
  | «sudo» time msg =>
    rw [hsudo]
    simp only [stepR, step]
    by_cases h2 : msg.wellTyped = true
    · simp only [h2, Bool.not_true, Bool.false_eq_true, if_false]
      cases hd : msg.deposit with
      | none => simp [runTxR_eq_ok]
      | some x =>
        obtain ⟨sender, c⟩ := x
        simp only [Option.some.injEq, Prod.mk.injEq]
        by_cases h1 : sender = ch.contract
        · simp [h1]
        · simp only [h1, if_false, Except.bind_eq_ok', Bank.sendR_eq_ok, runTxR_eq_ok]
          constructor
          · rintro ⟨b1, ⟨g1, g2⟩, g3, g4⟩
            refine ⟨⟨b1, g1, g3⟩, ?_, g4⟩
            rintro s c' ⟨rfl, rfl⟩
            exact g2
          · rintro ⟨⟨b1, g1, g3⟩, g2, g4⟩
            exact ⟨b1, ⟨g1, g2 _ _ ⟨rfl, rfl⟩⟩, g3, g4⟩
    · simp [h2]
  | migrate =>
    simp only [stepR, step, runTxR_eq_ok, payment]
    simp
  | transfer src dst c =>
    simp only [stepR, step, payment, Option.some.injEq, Prod.mk.injEq]
    by_cases h1 : src = ch.contract
    · simp [h1]
    · simp only [h1, if_false, Except.bind_eq_ok', Bank.sendR_eq_ok, Except.pure_eq', Except.ok.injEq, Prod.mk.injEq]
      constructor
      · rintro ⟨b1, ⟨g1, g2⟩, g3, rfl⟩
        refine ⟨⟨b1, g1, g3, rfl⟩, ?_, by simp⟩
        rintro s d cs ⟨rfl, rfl, rfl⟩
        simpa using g2
      · rintro ⟨⟨b1, g1, g3, rfl⟩, g2, -⟩
        exact ⟨b1, ⟨g1, g2 _ _ _ ⟨rfl, rfl, rfl⟩ c (by simp)⟩, g3, rfl⟩
  | mint dst c =>
    simp only [stepR, step, payment, Except.ok.injEq, Prod.mk.injEq]
    constructor
    · rintro ⟨rfl, rfl⟩; exact ⟨⟨rfl, rfl⟩, by simp, by simp⟩
    · exact fun h => h.1

/-- C73 (error): if the payment passes, the first refused transfer fails the operation, with the error of its kind, and nothing changes. -/
theorem C73_refused {ch : Chain} {rf : Refusals} {w w' : World} {op : Op} {resp : Response} (hs : step ch w op = .ok (w', resp))
    (hp : ∀ src dst cs, payment ch op = some (src, dst, cs) → ∀ c ∈ cs, rf src dst c = false) {m : SendMsg}
    (hm : FirstRefused rf ch.contract resp.msgs m) :
    stepR ch rf w op = .error (.replyError m.replyId) ∧ applyR ch w (rf, op) = w := by
  have key : stepR ch rf w op = .error (.replyError m.replyId) := by
    have hrun : ∀ {bank : Bank} {x : M Response}, runTx ch w bank x = .ok (w', resp) →
        runTxR ch rf w bank x = .error (.replyError m.replyId) := by
      intro bank x h
      unfold runTx at h
      unfold runTxR
      cases hx : x w.store with
      | err e s => rw [hx] at h; simp at h
      | ok r s =>
        rw [hx] at h
        simp only at h ⊢
        cases h1 : runSubMsgs ch ⟨s, bank⟩ r.msgs with
        | error e => rw [h1] at h; simp at h
        | ok w1 =>
          rw [h1] at h
          simp only [Except.ok.injEq, Prod.mk.injEq] at h
          obtain ⟨rfl, rfl⟩ := h
          rw [runSubMsgsR_error h1 hm]
    cases op with
    | execute sender funds time msg =>
      simp only [stepR, step] at hs ⊢
      by_cases h1 : sender = ch.contract
      · simp [h1] at hs
      by_cases h2 : msg.wellTyped = true
      · simp only [h1, h2, if_false, Bool.not_true, Bool.false_eq_true, Except.bind_eq_ok'] at hs ⊢
        obtain ⟨b1, g1, g2⟩ := hs
        rw [Bank.sendAllR_eq_ok.2 ⟨g1, hp _ _ _ rfl⟩, Except.ok_bind', hrun g2]
      · simp [h1, h2] at hs
    | «sudo» time msg =>
      simp only [stepR, step] at hs ⊢
      by_cases h2 : msg.wellTyped = true
      · simp only [h2, Bool.not_true, Bool.false_eq_true, if_false] at hs ⊢
        have hpay : ∀ sender c, msg.deposit = some (sender, c) → rf sender ch.contract c = false := by
          cases msg <;> simp [payment, SudoMsg.deposit] at hp ⊢ <;> exact hp
        cases hd : msg.deposit with
        | none => rw [hd] at hs; exact hrun hs
        | some x =>
          obtain ⟨sender, c⟩ := x
          rw [hd] at hs
          simp only at hs ⊢
          by_cases h1 : sender = ch.contract
          · simp [h1] at hs
          · simp only [h1, if_false, Except.bind_eq_ok'] at hs ⊢
            obtain ⟨b1, g1, g2⟩ := hs
            rw [Bank.sendR_eq_ok.2 ⟨g1, hpay _ _ hd⟩, Except.ok_bind', hrun g2]
      · simp [h2] at hs
    | migrate =>
      simp only [stepR, step] at hs ⊢
      exact hrun hs
    | transfer src dst c =>
      exfalso
      simp only [step] at hs
      split at hs
      · simp at hs
      · rw [Except.bind_eq_ok'] at hs
        obtain ⟨b1, -, h2⟩ := hs
        simp only [Except.pure_eq', Except.ok.injEq, Prod.mk.injEq] at h2
        obtain ⟨p, q, h3, -⟩ := hm
        rw [← h2.2] at h3
        simp at h3
    | mint dst c =>
      exfalso
      simp only [step, Except.ok.injEq, Prod.mk.injEq] at hs
      obtain ⟨p, q, h3, -⟩ := hm
      rw [← hs.2] at h3
      simp at h3
  exact ⟨key, by unfold applyR; rw [key]⟩

/-- C73 (reachability): whatever the bank refuses along the way - a different choice of refusals at every operation - the history leads to
a world that the operations not rejected lead to without refusals. So every property of reachable worlds (solvency, liquidity, time priority, ...)
holds with refusing banks, too. -/
theorem C73_reachable (ch : Chain) (w : World) (xs : List (Refusals × Op)) :
    ∃ ops, ops.Sublist (xs.map Prod.snd) ∧ runR ch w xs = run ch w ops := by
  induction xs generalizing w with
  | nil => exact ⟨[], List.Sublist.slnil, rfl⟩
  | cons x xs ih =>
    obtain ⟨rf, op⟩ := x
    have hr : runR ch w ((rf, op) :: xs) = runR ch (applyR ch w (rf, op)) xs := rfl
    rw [hr, List.map_cons]
    cases hs : stepR ch rf w op with
    | error e =>
      have ha : applyR ch w (rf, op) = w := by unfold applyR; rw [hs]
      rw [ha]
      obtain ⟨ops, h1, h2⟩ := ih w
      exact ⟨ops, h1.cons _, h2⟩
    | ok y =>
      obtain ⟨w', resp⟩ := y
      have ha : applyR ch w (rf, op) = w' := by unfold applyR; rw [hs]
      rw [ha]
      obtain ⟨ops, h1, h2⟩ := ih w'
      refine ⟨op :: ops, h1.cons₂ _, ?_⟩
      have ha' : apply ch w op = w' := by unfold apply; rw [((C73_accept_iff ch rf w op w' resp).1 hs).1]
      rw [h2]
      show _ = run ch (apply ch w op) ops
      rw [ha']

/-- C73 (worlds): so refusals lead to no world that could not be reached without them. -/
theorem C73_worlds {ch : Chain} {w : World} (hw : Reachable ch w) (xs : List (Refusals × Op)) : Reachable ch (runR ch w xs) := by
  obtain ⟨ops, -, h⟩ := C73_reachable ch w xs
  rw [h]
  exact hw.run ops

/-! ### C74 -/

theorem Bank.sendAllR_congr {rf rf' : Refusals} {src dst : Addr} {cs : List Coin} (h : ∀ c ∈ cs, rf src dst c = rf' src dst c) (b : Bank) :
    b.sendAllR rf src dst cs = b.sendAllR rf' src dst cs := by
  induction cs generalizing b with
  | nil => rfl
  | cons c cs ih =>
    unfold Bank.sendAllR Bank.sendR
    rw [h c (by simp)]
    cases rf' src dst c
    · simp only [Bool.false_eq_true, if_false]
      cases b.send src dst c with
      | error e => rfl
      | ok b1 => exact ih (fun c hc => h c (by simp [hc])) b1
    · rfl

theorem runSubMsgsR_congr {ch : Chain} {rf rf' : Refusals} {ms : List SendMsg}
    (h : ∀ m ∈ ms, rf ch.contract m.to m.coin = rf' ch.contract m.to m.coin) (w : World) : runSubMsgsR ch rf w ms = runSubMsgsR ch rf' w ms := by
  induction ms generalizing w with
  | nil => rfl
  | cons m ms ih =>
    unfold runSubMsgsR Bank.sendR
    rw [h m (by simp)]
    simp only [reply_false]
    cases rf' ch.contract m.to m.coin
    · simp only [Bool.false_eq_true, if_false]
      cases w.bank.send ch.contract m.to m.coin with
      | error e => rfl
      | ok b1 => exact ih (fun c hc => h c (by simp [hc])) _
    · rfl

theorem runTxR_congr {ch : Chain} {rf rf' : Refusals} {w : World} {x : M Response}
    (h : ∀ r s, x w.store = .ok r s → ∀ m ∈ r.msgs, rf ch.contract m.to m.coin = rf' ch.contract m.to m.coin) (bank : Bank) :
    runTxR ch rf w bank x = runTxR ch rf' w bank x := by
  unfold runTxR
  cases hx : x w.store with
  | err e s => rfl
  | ok r s => simp only [runSubMsgsR_congr (h r s hx)]

theorem split_to {caller owner rc : Addr} {d : Denom} {r : Option Nat} {f v : Nat} {m : SendMsg} (h : m ∈ split caller owner rc d r f v) :
    m.to = caller ∨ m.to = owner ∨ m.to = rc := by
  unfold split at h
  have := (List.mem_filter.1 h).1
  simp only [List.mem_cons, List.not_mem_nil, or_false] at this
  rcases this with rfl | rfl | rfl <;> simp

/-- Transfers go to parties only. -/
theorem StoreStep.parties {ch : Chain} {op : Op} {s s' : Store} {b b' : Book} {resp : Response} (h : StoreStep ch op s b resp s' b')
    (hr : Rel s b) : ∀ m ∈ resp.msgs, Party s op m.to := by
  have hord : ∀ {t : Int} {d : Dir} {x : Entry}, x ∈ b t d → x.Live → ∃ o, s.orders.get? (t, x.id) = some o ∧ x.owner = o.owner := by
    intro t d x hx hl
    obtain ⟨p, q, hsp⟩ := List.append_of_mem hx
    exact ⟨_, (hr.orders t x.id _).2 ⟨d, p, x, q, hsp, hl, rfl, rfl⟩, rfl⟩
  cases h with
  | place => simp
  | cancel =>
    intro m hm
    simp only [List.mem_singleton] at hm
    subst hm
    rfl
  | @claim sender time tick id _ _ ob r _ _ h1 h2 h3 h4 =>
    intro m hm
    obtain ⟨dir, x, rc, rfl, k2, k3, k4, k5, k6⟩ := (h4.justified hr h2).1
    have hm' : m ∈ r.2.1 := hm
    rw [k6] at hm'
    obtain ⟨o, ho, hw⟩ := hord k2 k3
    rcases split_to hm' with e | e | e
    · exact Or.inl e
    · exact Or.inr (Or.inl ⟨o, ho, by rw [e, hw]⟩)
    · exact Or.inr (Or.inr (by rw [e]; exact k5))
  | batch h1 h2 h3 h4 =>
    intro m hm
    obtain ⟨tick, dir, x, rc, g1, g2, g3, g4, g5, g6⟩ := h4.justified hr h2 m hm
    obtain ⟨o, ho, hw⟩ := hord g2 g3
    rcases split_to g6 with e | e | e
    · exact Or.inl e
    · exact Or.inr (Or.inl ⟨_, g1, o, ho, by rw [e, hw]⟩)
    · exact Or.inr (Or.inr (by rw [e]; exact g5))
  | @swap time msg sender c out mo fee target _ _ ob dir F q' dust lp h1 h2 h3 h4 h5 =>
    intro m hm
    have e : m.to = sender := by
      have hm' : m ∈ swapMsgs sender c out (sumAmount F) q' := hm
      unfold swapMsgs at hm'
      rcases List.mem_cons.1 hm' with rfl | hm'
      · rfl
      · split at hm'
        · simp at hm'
        · simp only [List.mem_singleton] at hm'
          subst hm'; rfl
    cases msg <;> simp [SudoMsg.swapArgs] at h3
    · rw [e]; exact h3.1.symm
    · rw [e]; exact h3.1.symm
  | config h1 h2 h3 h4 => rw [h4]; simp

/-- C74 (isolation): only what the bank refuses between the contract and the parties of an operation - its sender; for claims also the owners
of the orders named and the fee recipient - matters for it. In particular no maker, fee recipient or anybody else who cannot receive
funds can get in the way of a placement, a cancel or a swap. -/
theorem C74_only_parties_matter {ch : Chain} {w : World} (hw : Reachable ch w) (op : Op) {rf rf' : Refusals}
    (h : ∀ a, Party w.store op a → ∀ x c, rf a x c = rf' a x c ∧ rf x a c = rf' x a c) : stepR ch rf w op = stepR ch rf' w op := by
  obtain ⟨n, hw⟩ := hw
  obtain ⟨b, ht⟩ := hw.traced
  cases op with
  | execute sender funds time msg =>
    have hparty : Party w.store (.execute sender funds time msg) sender := by
      cases msg <;> simp [Party]
    simp only [stepR]
    by_cases h1 : sender = ch.contract
    · simp [h1]
    by_cases h2 : msg.wellTyped = true
    · simp only [h1, h2, if_false, Bool.not_true, Bool.false_eq_true]
      rw [Bank.sendAllR_congr (fun c _ => (h sender hparty ch.contract c).1)]
      congr 1
      funext bank
      refine runTxR_congr (fun r s hx m hm => ?_) bank
      obtain ⟨b', hst⟩ := execute_ok ht.rel h2 hx
      exact (h _ (hst.parties ht.rel m hm) ch.contract m.coin).2
    · simp [h1, h2]
  | «sudo» time msg =>
    simp only [stepR]
    by_cases h2 : msg.wellTyped = true
    · simp only [h2, Bool.not_true, Bool.false_eq_true, if_false]
      have hrun : ∀ bank, runTxR ch rf w bank («sudo» (ch.env time) msg) = runTxR ch rf' w bank («sudo» (ch.env time) msg) := by
        refine runTxR_congr (fun r s hx m hm => ?_)
        obtain ⟨b', hst⟩ := sudo_step_ok ht.rel h2 hx
        exact (h _ (hst.parties ht.rel m hm) ch.contract m.coin).2
      cases hd : msg.deposit with
      | none => exact hrun _
      | some x =>
        obtain ⟨sender, c⟩ := x
        have hparty : Party w.store (.sudo time msg) sender := by
          cases msg <;> simp [SudoMsg.deposit, Party] at hd ⊢
          · exact hd.1.symm
          · exact hd.1.symm
        simp only
        by_cases h1 : sender = ch.contract
        · simp [h1]
        · simp only [h1, if_false]
          have e : w.bank.sendR rf sender ch.contract c = w.bank.sendR rf' sender ch.contract c := by
            unfold Bank.sendR; rw [(h sender hparty ch.contract c).1]
          rw [e]
          congr 1
          funext bank
          exact hrun bank
    · simp [h2]
  | migrate => rfl
  | transfer src dst c =>
    simp only [stepR]
    have e : w.bank.sendR rf src dst c = w.bank.sendR rf' src dst c := by
      unfold Bank.sendR; rw [(h src (Or.inl rfl) dst c).1]
    rw [e]
  | mint dst c => rfl

/-- C74 (claims): with refusals, on an active book with room, a claim without funds is accepted exactly when the order is live with an unclaimed
fill and the bank lets each of the (up to three) shares pass. -/
theorem C74_claim_iff {ch : Chain} {n : Nat} {w : World} {b : Book} (h : Traced ch n w b) (hn : w.HasRoom) (ha : isActive w.store = true)
    {quote base : Denom} (hd : denoms w.store = .ok (quote, base)) {recipient : Addr} (hrc : w.store.makerFeeRecipient = some recipient)
    {sender : Addr} (hs : sender ≠ ch.contract) (rf : Refusals) (time : Nat) (tick : Int) (id : Nat) :
    (∃ w' resp, stepR ch rf w (.execute sender [] time (.claimLimit tick id)) = .ok (w', resp)) ↔
      ∃ dir, ∃ x ∈ b tick dir, x.id = id ∧ x.Live ∧ x.claimed < x.filled ∧
        ∀ m ∈ split sender x.owner recipient (denomOut quote base dir) x.bounty (getMakerFee w.store) (payout dir (x.filled - x.claimed) tick),
          rf ch.contract m.to m.coin = false := by
  have hpay : ∀ src dst cs, payment ch (.execute sender [] time (.claimLimit tick id)) = some (src, dst, cs) → ∀ c ∈ cs, rf src dst c = false := by
    rintro src dst cs he
    simp only [payment, Option.some.injEq, Prod.mk.injEq] at he
    obtain ⟨-, -, rfl⟩ := he
    simp
  constructor
  · rintro ⟨w', resp, hok⟩
    obtain ⟨g1, -, g3⟩ := (C73_accept_iff ..).1 hok
    obtain ⟨dir, x, hx, rc, k1, k2, k3, -, k5, k6, -⟩ := C12_claim_effects h hd g1
    rw [hrc] at k5
    cases k5
    exact ⟨dir, x, hx, k1, k2, k3, by rw [← k6]; exact g3⟩
  · rintro ⟨dir, x, hx, rfl, hl, hc, hm⟩
    obtain ⟨w', resp, hok⟩ := h.claim_step hn.few hs ha hx hl hc time
    obtain ⟨dir', y, hy, rc, k1, -, -, -, k5, k6, -⟩ := C12_claim_effects h hd hok
    rw [hrc] at k5
    cases k5
    obtain ⟨p, q, hsp⟩ := List.append_of_mem hx
    obtain ⟨-, rfl, rfl⟩ := h.rel.same_entry hsp hy k1
    exact ⟨w', resp, (C73_accept_iff ..).2 ⟨hok, hpay, by rw [k6]; exact hm⟩⟩

/-- C74 (fee recipient): a fee recipient who cannot receive the output denom blocks every claim that owes a fee, by anyone: it is rejected
(with the error of the fee transfer unless another share is refused, too) and changes nothing. -/
theorem C74_blocked_recipient {ch : Chain} {n : Nat} {w : World} {b : Book} (h : Traced ch n w b)
    {quote base : Denom} (hd : denoms w.store = .ok (quote, base)) {recipient : Addr} (hrc : w.store.makerFeeRecipient = some recipient)
    {tick : Int} {dir : Dir} {x : Entry} (hx : x ∈ b tick dir) {rf : Refusals}
    (hrf : ∀ c : Coin, c.denom = denomOut quote base dir → rf ch.contract recipient c = true)
    (hfee : 1 ≤ payout dir (x.filled - x.claimed) tick * getMakerFee w.store / 10 ^ 18)
    (sender : Addr) (funds : List Coin) (time : Nat) :
    applyR ch w (rf, .execute sender funds time (.claimLimit tick x.id)) = w ∧
    ((∀ a c, a ≠ recipient → rf ch.contract a c = false) → sender ≠ recipient → x.owner ≠ recipient → x.Live → w.HasRoom →
      isActive w.store = true → sender ≠ ch.contract → funds = [] →
      stepR ch rf w (.execute sender funds time (.claimLimit tick x.id)) = .error (.replyError 4)) := by
  have hfacts : ∀ {w' : World} {resp : Response}, step ch w (.execute sender funds time (.claimLimit tick x.id)) = .ok (w', resp) →
      resp.msgs = split sender x.owner recipient (denomOut quote base dir) x.bounty (getMakerFee w.store) (payout dir (x.filled - x.claimed) tick) ∧
      ∃ p m, resp.msgs = p ++ [m] ∧ m.to = recipient ∧ m.coin.denom = denomOut quote base dir ∧ m.replyId = 4 ∧
        ∀ y ∈ p, y.to = sender ∨ y.to = x.owner := by
    intro w' resp hok
    obtain ⟨dir', y, hy, rc, k1, -, -, -, k5, k6, -⟩ := C12_claim_effects h hd hok
    rw [hrc] at k5
    cases k5
    obtain ⟨p, q, hsp⟩ := List.append_of_mem hx
    obtain ⟨-, rfl, rfl⟩ := h.rel.same_entry hsp hy k1
    refine ⟨k6, ?_⟩
    rw [k6]
    have hb : ∀ r, y.bounty = some r → r ≤ 10 ^ 16 := bountyOk_iff.1 (h.rel.bounty tick dir' y hy)
    have hB : y.bounty.getD 0 ≤ 10 ^ 16 := by
      cases hy : y.bounty with
      | none => simp
      | some r => exact hb r hy
    generalize y.bounty = r at *
    generalize payout dir' (y.filled - y.claimed) tick = v at *
    have hv : v ≠ 0 := by rintro rfl; simp at hfee
    have hlt : ¬ v ≤ v * r.getD 0 / 10 ^ 18 := by
      have h1 : v * r.getD 0 ≤ v * 10 ^ 16 := Nat.mul_le_mul_left _ hB
      omega
    unfold split
    simp only [if_neg hlt]
    generalize v * r.getD 0 / 10 ^ 18 = B
    generalize v * getMakerFee w.store / 10 ^ 18 = F at *
    refine ⟨[⟨y.owner, ⟨denomOut quote base dir', v - B - F⟩, 2⟩, ⟨sender, ⟨denomOut quote base dir', B⟩, 3⟩].filter fun m => m.coin.amount ≠ 0,
      ⟨recipient, ⟨denomOut quote base dir', F⟩, 4⟩, ?_, rfl, rfl, rfl, ?_⟩
    · rw [show ∀ a b c : SendMsg, [a, b, c] = [a, b] ++ [c] from fun _ _ _ => rfl, List.filter_append]
      congr 1
      rw [List.filter_cons, if_pos (by simp; omega)]
      rfl
    · intro z hz
      have := (List.mem_filter.1 hz).1
      simp only [List.mem_cons, List.not_mem_nil, or_false] at this
      rcases this with rfl | rfl <;> simp
  constructor
  · unfold applyR
    cases hs : stepR ch rf w (.execute sender funds time (.claimLimit tick x.id)) with
    | error e => rfl
    | ok y =>
      exfalso
      obtain ⟨w', resp⟩ := y
      obtain ⟨g1, -, g3⟩ := (C73_accept_iff ..).1 hs
      obtain ⟨-, p, m, k1, k2, k3, -, -⟩ := hfacts g1
      have := g3 m (by rw [k1]; simp)
      rw [k2, hrf _ k3] at this
      cases this
  · rintro hother hsr hor hl hn ha hsc rfl
    have hc : x.claimed < x.filled := by
      by_contra hc
      have hz : x.filled - x.claimed = 0 := by omega
      obtain ⟨p, q, hsp⟩ := List.append_of_mem hx
      rw [hz, ← payout_eq (h.rel.range tick dir (by rw [hsp]; simp)), valDown_zero] at hfee
      simp at hfee
    obtain ⟨w', resp, hok⟩ := h.claim_step hn.few hsc ha hx hl hc time
    obtain ⟨-, p, m, k1, k2, k3, k4, k5⟩ := hfacts hok
    have := (C73_refused (rf := rf) hok (by
      rintro src dst cs he
      simp only [payment, Option.some.injEq, Prod.mk.injEq] at he
      obtain ⟨-, -, rfl⟩ := he
      simp) (m := m) ⟨p, [], k1, fun y hy => hother _ _ (by rcases k5 y hy with e | e <;> rw [e] <;> assumption), by rw [k2]; exact hrf _ k3⟩).1
    rw [this, k4]

/-- C74 (remedy): with a zero maker fee the recipient does not matter: the claim goes through if owner and caller can receive. -/
theorem C74_zero_fee_remedy {ch : Chain} {n : Nat} {w : World} {b : Book} (h : Traced ch n w b) (hn : w.HasRoom) (ha : isActive w.store = true)
    {quote base : Denom} (hd : denoms w.store = .ok (quote, base)) (hf : getMakerFee w.store = 0)
    {tick : Int} {dir : Dir} {x : Entry} (hx : x ∈ b tick dir) (hl : x.Live) (hc : x.claimed < x.filled) {sender : Addr}
    (hs : sender ≠ ch.contract) {rf : Refusals} (h1 : ∀ c : Coin, c.denom = denomOut quote base dir → rf ch.contract x.owner c = false)
    (h2 : ∀ c : Coin, c.denom = denomOut quote base dir → rf ch.contract sender c = false) (time : Nat) :
    ∃ w' resp, stepR ch rf w (.execute sender [] time (.claimLimit tick x.id)) = .ok (w', resp) := by
  obtain ⟨rc, hrc⟩ := h.rel.recipient
  refine (C74_claim_iff h hn ha hd hrc hs rf time tick x.id).2 ⟨dir, x, hx, rfl, hl, hc, fun m hm => ?_⟩
  have hden := split_denom m hm
  unfold split at hm
  obtain ⟨hm, hnz⟩ := List.mem_filter.1 hm
  rw [hf] at hm
  simp only [Nat.mul_zero, Nat.zero_div, ite_self, List.mem_cons, List.not_mem_nil, or_false] at hm
  rcases hm with rfl | rfl | rfl
  · exact h1 _ hden
  · exact h2 _ hden
  · simp at hnz

/-- A bank that sends nothing to `a`. -/
def Demo.block (a : Addr) : Refusals := fun _ dst _ => decide (dst = a)

/-- C73/C74 on the demo book (fee 2%): with the fee account blocked nobody can claim dave's order 3, with the error of the fee transfer (4);
with dave blocked, erin can still cancel and zed can still sell; a batch that names dave's order and bob's fails altogether although bob's
alone is paid; and once the fee is zero the fee account does not matter. -/
example : Traced Demo.ch 10 Demo.after (Demo.trace Demo.history).2 ∧
    (match stepR Demo.ch (Demo.block "fees") Demo.after (Demo.claim "zed" 0 3) with | .error e => some e | .ok _ => none) = some (.replyError 4) ∧
    (match stepR Demo.ch (Demo.block "dave") Demo.after (Demo.claim "zed" 0 3) with | .error e => some e | .ok _ => none) = some (.replyError 2) ∧
    (match stepR Demo.ch (Demo.block "dave") Demo.after (Demo.cancel "erin" (-5000000) 4) with | .error e => some e | .ok _ => none) = none ∧
    (match stepR Demo.ch (Demo.block "dave") Demo.after (Demo.sell "zed" 300000 0) with | .error e => some e | .ok _ => none) = none ∧
    (let w := apply Demo.ch Demo.after (Demo.buy "frank" 20000 1)
     (match stepR Demo.ch (Demo.block "dave") w (.execute "zed" [] 9 (.batchClaim [(10, 1), (0, 3)])) with | .error e => some e | .ok _ => none) =
       some (.replyError 2) ∧
     (match stepR Demo.ch (Demo.block "dave") w (.execute "zed" [] 9 (.batchClaim [(10, 1)])) with | .error e => some e | .ok _ => none) = none) ∧
    (let w := apply Demo.ch Demo.after (.execute Demo.gov [] 1 (.auth (.setMakerFee 0)))
     (match stepR Demo.ch (Demo.block "fees") w (Demo.claim "zed" 0 3) with | .error e => some e | .ok _ => none) = none) := by
  refine ⟨Demo.traced Demo.history, ?_, ?_, ?_, ?_, ?_, ?_⟩ <;> decide +kernel

end OB
