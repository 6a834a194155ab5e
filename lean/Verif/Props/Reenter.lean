import Verif.SpecReenter
import Verif.Props.Tx
import Verif.Props.Room
import Verif.Props.Flow
import Verif.Proofs.Refine
/- C99: calls that interrupt each other are equivalent to calls one after the other. -/
namespace OB
open Spec

theorem Spec.Sequential.append {ch : Chain} {w w1 w' : World} {l l' : List Act} (h : Sequential ch w l w1) (h' : Sequential ch w1 l' w') :
    Sequential ch w (l ++ l') w' := by
  induction h with
  | nil => exact h'
  | did h1 _ ih => exact .did h1 (ih h')
  | saw h1 _ ih => exact .saw h1 (ih h')

theorem Spec.Sequential.reachable {ch : Chain} {w w' : World} {l : List Act} (h : Sequential ch w l w') (hw : Reachable ch w) : Reachable ch w' := by
  induction h with
  | nil => exact hw
  | did h1 _ ih => exact ih (hw.step h1)
  | saw _ _ ih => exact ih hw

theorem step_orderId {ch : Chain} {w w' : World} {op : Op} {resp : Response} (hw : Reachable ch w) (h : step ch w op = .ok (w', resp)) :
    w'.store.orderId.getD 0 ≤ w.store.orderId.getD 0 + 1 := by
  have h1 := (C72_counters hw [op]).1
  have e : run ch w [op] = w' := by
    show apply ch w op = w'
    unfold apply; rw [h]
  rw [e] at h1
  rw [h1]
  have : places op ≤ 1 := by
    unfold places; split <;> omega
  simp only [placements, h]
  omega

theorem Spec.Sequential.orderId {ch : Chain} {w w' : World} {l : List Act} (h : Sequential ch w l w') (hw : Reachable ch w) :
    w'.store.orderId.getD 0 ≤ w.store.orderId.getD 0 + l.length := by
  induction h with
  | nil => simp
  | did h1 _ ih =>
    have := ih (hw.step h1)
    have := step_orderId hw h1
    rw [List.length_cons]; omega
  | saw _ _ ih =>
    have := ih hw
    rw [List.length_cons]; omega

/-- What the transfer `x` changes. -/
def net1 (x : Addr × Addr × Coin) (a : Addr) (d : Denom) : ℤ :=
  (if a = x.2.1 then (if x.2.2.denom = d then (x.2.2.amount : ℤ) else 0) else 0) - (if a = x.1 then (if x.2.2.denom = d then (x.2.2.amount : ℤ) else 0) else 0)

/-- What the transfers change. -/
def net (l : List (Addr × Addr × Coin)) (a : Addr) (d : Denom) : ℤ := (l.map fun x => net1 x a d).sum

/-- Nobody but the contract has less. -/
def Ahead (ch : Chain) (e : Addr → Denom → ℤ) : Prop := ∀ a d, a ≠ ch.contract → 0 ≤ e a d

/-- ... also while the transfers are made. -/
def Safe (ch : Chain) : List (Addr × Addr × Coin) → (Addr → Denom → ℤ) → Prop
  | [], e => Ahead ch e
  | x :: l, e => Ahead ch e ∧ Safe ch l fun a d => e a d - net1 x a d

theorem Safe.ahead {ch : Chain} {l : List (Addr × Addr × Coin)} {e : Addr → Denom → ℤ} (h : Safe ch l e) : Ahead ch e := by
  cases l with
  | nil => exact h
  | cons => exact h.1

theorem safe_pay {ch : Chain} {src : Addr} (cs : List Coin) {e : Addr → Denom → ℤ} (h : Ahead ch e) :
    Safe ch (cs.map fun c => (src, ch.contract, c)) e := by
  induction cs generalizing e with
  | nil => exact h
  | cons c cs ih =>
    refine ⟨h, ih fun a d ha => ?_⟩
    have := h a d ha
    simp only [net1, if_neg ha]
    split_ifs <;> omega

theorem safe_deliver {ch : Chain} (ms : List SendMsg) {e : Addr → Denom → ℤ} (h : Ahead ch e) :
    Safe ch (ms.map fun m => (ch.contract, m.to, m.coin)) fun a d => e a d + net (ms.map fun m => (ch.contract, m.to, m.coin)) a d := by
  have key : ∀ ms : List SendMsg, Ahead ch fun a d => e a d + net (ms.map fun m => (ch.contract, m.to, m.coin)) a d := by
    intro ms a d ha
    have h0 := h a d ha
    have : 0 ≤ net (ms.map fun m => (ch.contract, m.to, m.coin)) a d := by
      unfold net
      refine List.sum_nonneg fun y hy => ?_
      simp only [List.map_map, List.mem_map, Function.comp] at hy
      obtain ⟨m, -, rfl⟩ := hy
      simp only [net1, if_neg ha]
      split_ifs <;> omega
    simp only
    omega
  induction ms with
  | nil => exact key []
  | cons m ms ih =>
    refine ⟨key (m :: ms), ?_⟩
    have e1 : (fun a d => e a d + net ((m :: ms).map fun m => (ch.contract, m.to, m.coin)) a d - net1 (ch.contract, m.to, m.coin) a d) =
        fun a d => e a d + net (ms.map fun m => (ch.contract, m.to, m.coin)) a d := by
      funext a d
      simp only [net, List.map_cons, List.sum_cons]
      ring
    rw [e1]
    exact ih

theorem net_pay (src dst : Addr) (cs : List Coin) (a : Addr) (d : Denom) :
    net (cs.map fun c => (src, dst, c)) a d = (if a = dst then (amountOf d cs : ℤ) else 0) - (if a = src then (amountOf d cs : ℤ) else 0) := by
  induction cs with
  | nil => simp [net, amountOf]
  | cons c cs ih =>
    have e : (amountOf d (c :: cs) : ℤ) = (if c.denom = d then (c.amount : ℤ) else 0) + amountOf d cs := by
      simp only [amountOf, List.map_cons, List.sum_cons, Nat.cast_add]
      split_ifs <;> simp
    have e2 : net ((c :: cs).map fun c => (src, dst, c)) a d = net1 (src, dst, c) a d + net (cs.map fun c => (src, dst, c)) a d := by
      simp [net]
    rw [e2, ih, e]
    simp only [net1]
    split_ifs <;> omega

theorem net_deliver (src : Addr) (ms : List SendMsg) (a : Addr) (d : Denom) :
    net (ms.map fun m => (src, m.to, m.coin)) a d = (received a d ms : ℤ) - (if a = src then (spent d ms : ℤ) else 0) := by
  induction ms with
  | nil => simp [net, received, spent]
  | cons m ms ih =>
    have e1 : (received a d (m :: ms) : ℤ) = (if m.to = a ∧ m.coin.denom = d then (m.coin.amount : ℤ) else 0) + received a d ms := by
      simp only [received, List.map_cons, List.sum_cons, Nat.cast_add]
      split_ifs <;> simp
    have e2 : (spent d (m :: ms) : ℤ) = (if m.coin.denom = d then (m.coin.amount : ℤ) else 0) + spent d ms := by
      simp only [spent, List.map_cons, List.sum_cons, Nat.cast_add]
      split_ifs <;> simp
    have e3 : net ((m :: ms).map fun m => (src, m.to, m.coin)) a d = net1 (src, m.to, m.coin) a d + net (ms.map fun m => (src, m.to, m.coin)) a d := by
      simp [net]
    rw [e3, ih, e1, e2]
    simp only [net1]
    have e4 : (m.to = a ∧ m.coin.denom = d) ↔ (a = m.to ∧ m.coin.denom = d) := by rw [eq_comm (a := a)]
    simp only [e4, ite_and]
    split_ifs <;> omega

theorem send_net {b b' : Bank} {src dst : Addr} {c : Coin} (h : b.send src dst c = .ok b') (a : Addr) (d : Denom) :
    (b' a d : ℤ) = b a d + net1 (src, dst, c) a d := by
  have := Bank.send_flow h a d
  simp only [net1]
  split_ifs at * <;> omega

theorem Runs.nonzero {ch : Chain} {w w' : World} {t : Task} {acts : List Act} (h : Runs ch w t acts w') :
    ∀ l, t = .transfers l → ∀ x ∈ l, x.2.2.amount ≠ 0 := by
  induction h with
  | execute => intro l e; simp at e
  | swap => intro l e; simp at e
  | plain => intro l e; simp at e
  | done => intro l e x hx; obtain rfl := (by simpa using e : l = []); simp at hx
  | send h1 _ ih =>
    intro l e x hx
    simp only [Task.transfers.injEq] at e
    subst e
    rcases List.mem_cons.1 hx with rfl | hx
    · exact (Bank.send_eq_ok.1 h1).1
    · exact ih _ rfl x hx
  | hook _ _ _ ih => exact ih
  | look _ _ ih => exact ih

/-- What a task still changes, as seen from a world in which its transfers have not been made (payments) or have all been made (payouts). -/
def Task.net : Task → Addr → Denom → ℤ
  | .call .. => fun _ _ => 0
  | .transfers l => OB.net l

def Task.Safe (ch : Chain) : Task → (Addr → Denom → ℤ) → Prop
  | .call .. => Ahead ch
  | .transfers l => OB.Safe ch l

/-- A handler that has run in an interrupted call also runs, and its transfers can be made, in the undisturbed world. -/
theorem settle {ch : Chain} {w1 : World} {v1 : Bank} (hw : Reachable ch ⟨w1.store, v1⟩) (hid : w1.store.orderId.getD 0 + 1 < 10 ^ 18)
    {op : Op} {bank1 : Bank} {s' : Store} {resp : Response} (hh : Handled ch ⟨w1.store, v1⟩ op bank1 s' resp)
    (hin : ∀ d, v1 ch.contract d + coinSum d op.inflow ≤ bank1 ch.contract d) (h0 : ∀ m ∈ resp.msgs, m.coin.amount ≠ 0) :
    ∃ bank2, step ch ⟨w1.store, v1⟩ op = .ok (⟨s', bank2⟩, resp) ∧
      ∀ a d, (bank2 a d : ℤ) = bank1 a d + net (resp.msgs.map fun m => (ch.contract, m.to, m.coin)) a d := by
  obtain ⟨n, hn⟩ := hw
  obtain ⟨b, h⟩ := hn.traced
  have hst : ∃ b', StoreStep ch op w1.store b resp s' b' := by
    cases hh with
    | execute h1 h2 h3 h4 => exact execute_ok h.rel h2 h4
    | swap h1 h2 h3 h4 h5 => exact sudo_step_ok h.rel h1 h5
    | config h1 h2 h3 => exact sudo_step_ok h.rel h1 h3
  obtain ⟨b', hst⟩ := hst
  obtain ⟨bank2, hd⟩ := h.dispatch (by unfold D; exact hid) hst (bank1 := bank1) hin h0
  refine ⟨bank2, by rw [handled_runTx hh, hd], fun a d => ?_⟩
  have := Bank.dispatch_settled hd a d
  rw [net_deliver]
  split_ifs at * <;> omega

theorem plain_silent {ch : Chain} {op : Op} {s s' : Store} {b b' : Book} {resp : Response} (h : StoreStep ch op s b resp s' b') (hp : op.plain = true) :
    resp.msgs = [] := by
  cases h with
  | place => simp [Op.plain] at hp
  | cancel => simp [Op.plain] at hp
  | claim => simp [Op.plain] at hp
  | batch => simp [Op.plain] at hp
  | @swap time msg _ _ _ _ _ _ _ _ _ _ _ _ _ _ _ h1 =>
    cases msg <;> simp [SudoMsg.swapArgs] at * <;> simp [Op.plain, SudoMsg.deposit] at hp
  | config _ _ _ h => exact h

/-- An operation without transfers to or from the contract does the same where everybody has more. -/
theorem plain_ahead {ch : Chain} {w w' : World} {v : Bank} {e : Addr → Denom → ℤ} (hv : ∀ a d, (v a d : ℤ) = w.bank a d + e a d) (hs : Ahead ch e)
    (hw : Reachable ch ⟨w.store, v⟩) {op : Op} {resp : Response} (h1 : op.plain = true) (h2 : step ch w op = .ok (w', resp)) :
    ∃ v', step ch ⟨w.store, v⟩ op = .ok (⟨w'.store, v'⟩, resp) ∧ ∀ a d, (v' a d : ℤ) = w'.bank a d + e a d := by
  cases op with
  | execute => simp [Op.plain] at h1
  | «sudo» time msg =>
    have hd : msg.deposit = none := by simpa [Op.plain] using h1
    obtain ⟨h3, h4, h5⟩ := (step_sudo_none hd).1 h2
    obtain ⟨n, hn⟩ := hw
    obtain ⟨b, h⟩ := hn.traced
    obtain ⟨b', hst⟩ := sudo_step_ok h.rel h3 h4
    have hm : resp.msgs = [] := plain_silent hst h1
    rw [hm] at h5
    have e1 : w.bank = w'.bank := by simpa [Bank.dispatch] using h5
    exact ⟨v, (step_sudo_none hd).2 ⟨h3, h4, by rw [hm]; rfl⟩, fun a d => by rw [hv, e1]⟩
  | migrate =>
    have h3 := step_other_store h2 (.inl rfl)
    simp only [step, runTx_eq_ok] at h2 ⊢
    obtain ⟨h4, h5⟩ := h2
    rw [h3.2] at h4 h5 ⊢
    have e1 : w.bank = w'.bank := by simpa [Bank.dispatch] using h5
    exact ⟨v, ⟨h4, rfl⟩, fun a d => by rw [hv, e1]⟩
  | transfer src dst c =>
    simp only [step] at h2 ⊢
    by_cases hc : src = ch.contract
    · rw [if_pos hc] at h2; simp at h2
    rw [if_neg hc] at h2
    rw [if_neg hc]
    rw [Except.bind_eq_ok'] at h2
    obtain ⟨bank, h3, h4⟩ := h2
    simp only [Except.pure_eq', Except.ok.injEq, Prod.mk.injEq] at h4
    obtain ⟨rfl, rfl⟩ := h4
    obtain ⟨bank', h5⟩ : ∃ bank', v.send src dst c = .ok bank' := by
      have a1 := hv src c.denom
      have a2 := hs src c.denom hc
      have a3 := Bank.send_eq_ok.1 h3
      exact ⟨_, Bank.send_eq_ok.2 ⟨a3.1, by omega, rfl⟩⟩
    refine ⟨bank', by rw [h5]; rfl, fun a d => ?_⟩
    rw [send_net h5, send_net h3, hv]
    ring
  | mint dst c =>
    simp only [step, Except.ok.injEq, Prod.mk.injEq] at h2
    obtain ⟨rfl, rfl⟩ := h2
    refine ⟨_, rfl, fun a d => ?_⟩
    have := hv a d
    simp only
    split_ifs
    · push_cast; omega
    · exact this

theorem Runs.sequential {ch : Chain} {w w' : World} {t : Task} {acts : List Act} (h : Runs ch w t acts w') :
    ∀ (v : Bank) (e : Addr → Denom → ℤ), (∀ a d, (v a d : ℤ) = w.bank a d + e a d) → t.Safe ch e → Reachable ch ⟨w.store, v⟩ →
      w.store.orderId.getD 0 + acts.length < 10 ^ 18 →
      ∃ v', Sequential ch ⟨w.store, v⟩ acts ⟨w'.store, v'⟩ ∧ ∀ a d, (v' a d : ℤ) = w'.bank a d + e a d - t.net a d := by
  induction h with
  | @execute w w1 w' sender funds time msg resp s' acts acts' h1 h2 hp h3 hd ih1 ih2 =>
    intro v e hv hs hw hid
    rw [List.length_append, List.length_cons] at hid
    obtain ⟨v1, q1, k1⟩ := ih1 v e hv (safe_pay funds hs) hw (by omega)
    have hw1 := q1.reachable hw
    have hid1 := q1.orderId hw
    simp only at hid1
    have hown : Owns v1 sender funds := by
      refine ⟨fun c hc => hp.nonzero _ rfl (sender, ch.contract, c) (List.mem_map.2 ⟨c, hc, rfl⟩), fun d => ?_⟩
      have a1 := k1 sender d
      have a2 := hs sender d h1
      simp only [Task.net, net_pay, if_neg h1, if_true] at a1
      omega
    obtain ⟨bank1, hb⟩ := (sendAll_ok_iff h1).2 hown
    have hh : Handled ch ⟨w1.store, v1⟩ (.execute sender funds time msg) bank1 s' resp := .execute h1 h2 hb h3
    obtain ⟨bank2, hst, hn⟩ := settle hw1 (by omega) hh (fun d => by rw [Bank.sendAll_receive hb h1]; exact le_refl _)
      fun m hm => hd.nonzero _ rfl (ch.contract, m.to, m.coin) (List.mem_map.2 ⟨m, hm, rfl⟩)
    have hid2 := step_orderId hw1 hst
    simp only at hid2
    have hb1 : ∀ a d, (bank1 a d : ℤ) = w1.bank a d + e a d := by
      intro a d
      have a1 := k1 a d
      have a2 := Bank.sendAll_flow hb a d
      simp only [Task.net, net_pay] at a1
      split_ifs at * <;> omega
    obtain ⟨v', q2, k2⟩ := ih2 bank2 (fun a d => e a d + net (resp.msgs.map fun m => (ch.contract, m.to, m.coin)) a d)
      (fun a d => by rw [hn, hb1]; simp only; ring) (safe_deliver resp.msgs hs) (hw1.step hst) (by simp only; omega)
    refine ⟨v', q1.append (.did hst q2), fun a d => ?_⟩
    rw [k2]
    simp only [Task.net]
    ring
  | @swap w w1 w' sender coin time msg resp s' acts acts' h1 h2 h3 hp h4 hd ih1 ih2 =>
    intro v e hv hs hw hid
    rw [List.length_append, List.length_cons] at hid
    obtain ⟨v1, q1, k1⟩ := ih1 v e hv (safe_pay [coin] hs) hw (by omega)
    have hw1 := q1.reachable hw
    have hid1 := q1.orderId hw
    simp only at hid1
    have e0 : ∀ a d, net [(sender, ch.contract, coin)] a d =
        (if a = ch.contract then (amountOf d [coin] : ℤ) else 0) - (if a = sender then (amountOf d [coin] : ℤ) else 0) :=
      fun a d => net_pay sender ch.contract [coin] a d
    have hown : coin.amount ≠ 0 ∧ coin.amount ≤ v1 sender coin.denom := by
      refine ⟨hp.nonzero _ rfl (sender, ch.contract, coin) (by simp), ?_⟩
      have a1 := k1 sender coin.denom
      have a2 := hs sender coin.denom h3
      simp only [Task.net, e0, if_neg h3, if_true] at a1
      have : amountOf coin.denom [coin] = coin.amount := by simp [amountOf]
      omega
    obtain ⟨bank1, hb⟩ : ∃ bank1, v1.send sender ch.contract coin = .ok bank1 := ⟨_, Bank.send_eq_ok.2 ⟨hown.1, hown.2, rfl⟩⟩
    have hh : Handled ch ⟨w1.store, v1⟩ (.sudo time msg) bank1 s' resp := .swap h1 h2 h3 hb h4
    obtain ⟨bank2, hst, hn⟩ := settle hw1 (by omega) hh (fun d => by
        rw [Bank.send_receive hb h3]
        have : Op.inflow (.sudo time msg) = [coin] := by simp [Op.inflow, h2]
        rw [this]
        simp [coinSum])
      fun m hm => hd.nonzero _ rfl (ch.contract, m.to, m.coin) (List.mem_map.2 ⟨m, hm, rfl⟩)
    have hid2 := step_orderId hw1 hst
    simp only at hid2
    have hb1 : ∀ a d, (bank1 a d : ℤ) = w1.bank a d + e a d := by
      intro a d
      have a1 := k1 a d
      have a2 := send_net hb a d
      simp only [Task.net] at a1
      have : net [(sender, ch.contract, coin)] a d = net1 (sender, ch.contract, coin) a d := by simp [net]
      omega
    obtain ⟨v', q2, k2⟩ := ih2 bank2 (fun a d => e a d + net (resp.msgs.map fun m => (ch.contract, m.to, m.coin)) a d)
      (fun a d => by rw [hn, hb1]; simp only; ring) (safe_deliver resp.msgs hs) (hw1.step hst) (by simp only; omega)
    refine ⟨v', q1.append (.did hst q2), fun a d => ?_⟩
    rw [k2]
    simp only [Task.net]
    ring
  | @plain w w' op resp h1 h2 =>
    intro v e hv hs hw hid
    simp only [Task.net, sub_zero]
    obtain ⟨v', q, k⟩ := plain_ahead hv hs hw h1 h2
    exact ⟨v', .did q .nil, k⟩
  | done =>
    intro v e hv hs hw hid
    exact ⟨v, .nil, fun a d => by rw [hv]; simp [Task.net, net]⟩
  | @send w w' src dst c bank l acts h1 _ ih =>
    intro v e hv hs hw hid
    obtain ⟨v', q, k⟩ := ih v (fun a d => e a d - net1 (src, dst, c) a d) (fun a d => by rw [hv, send_net h1]; ring) hs.2 hw hid
    refine ⟨v', q, fun a d => ?_⟩
    rw [k]
    simp only [Task.net, net, List.map_cons, List.sum_cons]
    ring
  | @hook w w1 w' op resp l acts acts' _ _ ih1 ih2 =>
    intro v e hv hs hw hid
    rw [List.length_append] at hid
    obtain ⟨v1, q1, k1⟩ := ih1 v e hv hs.ahead hw (by omega)
    have hid1 := q1.orderId hw
    simp only at hid1
    obtain ⟨v', q2, k2⟩ := ih2 v1 e (fun a d => by rw [k1]; simp [Task.net]) hs (q1.reachable hw) (by omega)
    exact ⟨v', q1.append q2, k2⟩
  | look q _ ih =>
    intro v e hv hs hw hid
    rw [List.length_cons] at hid
    obtain ⟨v', q1, k1⟩ := ih v e hv hs hw (by omega)
    exact ⟨v', .saw rfl q1, k1⟩

/-- C99: calls that interrupt each other are as good as calls one after the other. -/
theorem C99_linearizable {ch : Chain} {w w' : World} {op : Op} {resp : Response} {acts : List Act} (hw : Reachable ch w)
    (h : Runs ch w (.call op resp) acts w') (hid : w.store.orderId.getD 0 + acts.length < 10 ^ 18) : Sequential ch w acts w' := by
  obtain ⟨v', q, k⟩ := h.sequential w.bank (fun _ _ => 0) (fun a d => by simp) (fun a d _ => le_refl _) hw hid
  have e : v' = w'.bank := by
    funext a d
    have := k a d
    simp only [Task.net] at this
    omega
  rwa [e] at q

theorem Spec.Sequential.run {ch : Chain} {w w' : World} {acts : List Act} (h : Sequential ch w acts w') : OB.run ch w (callsOf acts) = w' := by
  induction h with
  | nil => rfl
  | did h1 _ ih =>
    rw [← ih]
    simp only [callsOf, List.filterMap_cons, OB.run, List.foldl_cons, apply, h1]
  | saw _ _ ih => exact ih

/-- C99: the world after them is a world that calls without interruptions also lead to. -/
theorem C99_no_new_worlds {ch : Chain} {w w' : World} {op : Op} {resp : Response} {acts : List Act} (hw : Reachable ch w)
    (h : Runs ch w (.call op resp) acts w') (hid : w.store.orderId.getD 0 + acts.length < 10 ^ 18) :
    Reachable ch w' ∧ run ch w (callsOf acts) = w' :=
  ⟨(C99_linearizable hw h hid).reachable hw, (C99_linearizable hw h hid).run⟩

/-- C99: the same for transactions of several messages. -/
theorem C99_bundle {ch : Chain} {w w' : World} {acts : List Act} (h : Bundle ch w acts w') :
    Reachable ch w → w.store.orderId.getD 0 + acts.length < 10 ^ 18 →
      Sequential ch w acts w' ∧ Reachable ch w' ∧ run ch w (callsOf acts) = w' := by
  have key : Reachable ch w → w.store.orderId.getD 0 + acts.length < 10 ^ 18 → Sequential ch w acts w' := by
    induction h with
    | done => exact fun _ _ => .nil
    | call h1 _ ih =>
      intro hw hid
      rw [List.length_append] at hid
      have h3 := C99_linearizable hw h1 (by omega)
      have h4 := h3.orderId hw
      exact h3.append (ih (h3.reachable hw) (by omega))
    | look q _ ih =>
      intro hw hid
      rw [List.length_cons] at hid
      exact .saw rfl (ih hw (by omega))
  exact fun hw hid => ⟨key hw hid, (key hw hid).reachable hw, (key hw hid).run⟩

theorem runs_pay {ch : Chain} {src dst : Addr} {cs : List Coin} {s : Store} {b b' : Bank} (h : b.sendAll src dst cs = .ok b') :
    Runs ch ⟨s, b⟩ (.transfers (cs.map fun c => (src, dst, c))) [] ⟨s, b'⟩ := by
  induction cs generalizing b with
  | nil =>
    obtain rfl : b = b' := by simpa [Bank.sendAll] using h
    exact .done
  | cons c cs ih =>
    simp only [Bank.sendAll, Except.bind_eq_ok'] at h
    obtain ⟨b1, h1, h2⟩ := h
    exact .send h1 (ih h2)

theorem runs_deliver {ch : Chain} {src : Addr} {ms : List SendMsg} {s : Store} {b b' : Bank} (h : b.dispatch src ms = .ok b') :
    Runs ch ⟨s, b⟩ (.transfers (ms.map fun m => (src, m.to, m.coin))) [] ⟨s, b'⟩ := by
  induction ms generalizing b with
  | nil =>
    obtain rfl : b = b' := by simpa [Bank.dispatch] using h
    exact .done
  | cons m ms ih =>
    unfold Bank.dispatch at h
    split at h
    next b1 h1 => exact .send h1 (ih h)
    next => simp at h

/-- C99: a call that nobody interrupts is the special case. -/
theorem C99_uninterrupted {ch : Chain} {w w' : World} {op : Op} {resp : Response} (h : step ch w op = .ok (w', resp)) :
    Runs ch w (.call op resp) [.did op resp] w' := by
  by_cases hp : op.plain = true
  · exact .plain hp h
  · have : (∃ a f t m, op = .execute a f t m) ∨ ∃ t m, op = .sudo t m := by
      cases op <;> simp_all [Op.plain]
    obtain ⟨bank, hh, hd⟩ := handled_of_ok this h
    cases hh with
    | execute h1 h2 h3 h4 => exact .execute (acts := []) h1 h2 (runs_pay h3) h4 (runs_deliver hd)
    | swap h1 h2 h3 h4 h5 => exact .swap (acts := []) h1 h2 h3 (.send h4 .done) h5 (runs_deliver hd)
    | config h1 h2 h3 => simp [Op.plain, h2] at hp

/-- A call whose payouts are preceded by a query and another call. -/
theorem runs_interrupted {ch : Chain} (w : World) {s' : Store} {b2 : Bank} {sender : Addr} {time : Nat} {msg : ExecuteMsg} {resp : Response} {op : Op}
    {w2 : World} {resp2 : Response} (q : QueryMsg) (h1 : sender ≠ ch.contract) (h2 : msg.wellTyped = true)
    (h3 : execute (ch.env time) ⟨sender, []⟩ msg w.store = .ok resp s') (h4 : step ch ⟨s', w.bank⟩ op = .ok (w2, resp2))
    (h5 : w2.bank.dispatch ch.contract resp.msgs = .ok b2) :
    Runs ch w (.call (.execute sender [] time msg) resp)
      [.did (.execute sender [] time msg) resp, .saw q (queryResult s' q), .did op resp2] ⟨w2.store, b2⟩ :=
  .execute (acts := []) (funds := []) h1 h2 .done h3 (.look q (.hook (acts := [_]) (C99_uninterrupted h4) (runs_deliver h5)))

/-- Bob cancels his ask; before the refund arrives, somebody asks for the liquidity of the ask side and Dave claims his bid. -/
def Demo.nested : Option (Response × Store × World × Response × Bank) :=
  match execute (Demo.ch.env 0) ⟨"bob", []⟩ (.cancelLimit 10 1) Demo.after.store with
  | .ok resp s' => match step Demo.ch ⟨s', Demo.after.bank⟩ (Demo.claim "dave" 0 3) with
    | .ok (w2, resp2) => match w2.bank.dispatch Demo.ch.contract resp.msgs with
      | .ok b2 => some (resp, s', w2, resp2, b2)
      | .error _ => none
    | .error _ => none
  | .err .. => none

example : ∃ resp resp2 r w', Runs Demo.ch Demo.after (.call (.execute "bob" [] 0 (.cancelLimit 10 1)) resp)
      [.did (.execute "bob" [] 0 (.cancelLimit 10 1)) resp, .saw (.getTotalPoolLiquidity) r, .did (Demo.claim "dave" 0 3) resp2] w' ∧
    Demo.after.store.orderId.getD 0 + 3 < 10 ^ 18 ∧ Reachable Demo.ch Demo.after := by
  have h : Demo.nested.isSome = true := by decide +kernel
  unfold Demo.nested at h
  split at h
  next resp s' h3 =>
    split at h
    next w2 resp2 h4 =>
      split at h
      next b2 h5 =>
        exact ⟨resp, resp2, _, _, runs_interrupted Demo.after .getTotalPoolLiquidity (by decide) (by decide) h3 h4 h5, by decide +kernel,
          ⟨_, (Demo.traced Demo.history).reachable⟩⟩
      next => simp at h
    next => simp at h
  next => simp at h

end OB
