import Verif.SpecFlow
import Verif.Props.Funds
import Verif.Proofs.AuthObs
import Mathlib.Algebra.BigOperators.Group.Finset.Basic
/- C63: where coins go. -/
namespace OB
open Spec

theorem Bank.send_flow {b b' : Bank} {src dst : Addr} {c : Coin} (h : b.send src dst c = .ok b') (a : Addr) (d : Denom) :
    b' a d + (if a = src then (if c.denom = d then c.amount else 0) else 0) =
      b a d + (if a = dst then (if c.denom = d then c.amount else 0) else 0) := by
  obtain ⟨-, h2, rfl⟩ := Bank.send_eq_ok.1 h
  by_cases hd : d = c.denom
  · subst hd
    by_cases hs : a = src
    · subst hs
      by_cases ht : a = dst
      · subst ht; simp; omega
      · simp [ht]; omega
    · by_cases ht : a = dst
      · subst ht; simp [hs]
      · simp [hs, ht]
  · have : ¬ c.denom = d := fun hh => hd hh.symm
    simp [hd, this]

theorem Bank.sendAll_flow {b b' : Bank} {src dst : Addr} {cs : List Coin} (h : b.sendAll src dst cs = .ok b') (a : Addr) (d : Denom) :
    b' a d + (if a = src then amountOf d cs else 0) = b a d + (if a = dst then amountOf d cs else 0) := by
  induction cs generalizing b with
  | nil =>
    have : b = b' := by simpa [Bank.sendAll] using h
    subst this; simp [amountOf]
  | cons c cs ih =>
    unfold Bank.sendAll at h
    rw [Except.bind_eq_ok'] at h
    obtain ⟨b1, h1, h2⟩ := h
    have h3 := ih h2
    have h4 := Bank.send_flow h1 a d
    have e : amountOf d (c :: cs) = (if c.denom = d then c.amount else 0) + amountOf d cs := by simp [amountOf]
    rw [e]
    split_ifs at * <;> omega

theorem step_flow {ch : Chain} {w w' : World} {op : Op} {resp : Response} (hop : ∀ dst c, op ≠ .mint dst c)
    (hs : step ch w op = .ok (w', resp)) (a : Addr) (d : Denom) :
    w'.bank a d + paysIn ch op a d + (if a = ch.contract then spent d resp.msgs else 0) =
      w.bank a d + getsPaid ch op a d + received a d resp.msgs := by
  cases op with
  | execute sender funds time msg =>
    obtain ⟨-, -, bank, h1, -, h2⟩ := step_execute_ok.1 hs
    have h3 := Bank.sendAll_flow h1 a d
    have h4 := Bank.dispatch_settled h2 a d
    simp only [paysIn, getsPaid, payment]
    omega
  | «sudo» time msg =>
    cases hd : msg.deposit with
    | none =>
      have h2 := Bank.dispatch_settled ((step_sudo_none hd).1 hs).2.2 a d
      have e : payment ch (.sudo time msg) = none := by cases msg <;> simp_all [SudoMsg.deposit, payment]
      simp only [paysIn, getsPaid, e]
      omega
    | some x =>
      have hreq : ∃ r : SwapReq, Op.sudo time msg = r.op time ∧ payment ch (.sudo time msg) = some (r.sender, ch.contract, [r.tokenIn]) := by
        cases msg <;> simp only [SudoMsg.deposit, reduceCtorEq] at hd
        · exact ⟨⟨_, _, _, _, _, none⟩, rfl, rfl⟩
        · exact ⟨⟨_, _, _, _, _, some _⟩, rfl, rfl⟩
      obtain ⟨r, hr, hp⟩ := hreq
      rw [hr] at hs
      obtain ⟨-, -, bank1, h1, -, -, h2⟩ := step_swap_ok.1 hs
      have h3 := Bank.send_flow h1 a d
      have h4 := Bank.dispatch_settled h2 a d
      simp only [paysIn, getsPaid, hp]
      have e : amountOf d [r.tokenIn] = if r.tokenIn.denom = d then r.tokenIn.amount else 0 := by simp [amountOf]
      rw [e]
      omega
  | migrate =>
    simp only [step, runTx_eq_ok] at hs
    have h2 := Bank.dispatch_settled hs.2 a d
    simp only [paysIn, getsPaid, payment]
    omega
  | transfer src dst c =>
    simp only [step] at hs
    split at hs
    · simp at hs
    · rw [Except.bind_eq_ok'] at hs
      obtain ⟨bank, h1, h2⟩ := hs
      simp only [Except.pure_eq', Except.ok.injEq, Prod.mk.injEq] at h2
      obtain ⟨rfl, rfl⟩ := h2
      have h3 := Bank.send_flow h1 a d
      have e : amountOf d [c] = if c.denom = d then c.amount else 0 := by simp [amountOf]
      simp only [paysIn, getsPaid, payment, e, received, spent, List.map_nil, List.sum_nil, ite_self]
      omega
  | mint dst c => exact absurd rfl (hop dst c)

/-- C63: the exact balance equation of every accepted operation, for every account and denom: nothing moves but the payment that comes
with the operation and the transfers of the response. -/
theorem C63_balances {ch : Chain} {w w' : World} {op : Op} {resp : Response} (hop : ∀ dst c, op ≠ .mint dst c)
    (hs : step ch w op = .ok (w', resp)) (a : Addr) (d : Denom) :
    w'.bank a d + paysIn ch op a d + (if a = ch.contract then spent d resp.msgs else 0) =
      w.bank a d + getsPaid ch op a d + received a d resp.msgs :=
  step_flow hop hs a d

/-- C63: nobody but the contract and the account that signed for a payment ever loses anything, and the latter at most what it
attached. -/
theorem C63_no_loss {ch : Chain} {w w' : World} {op : Op} {resp : Response} (hs : step ch w op = .ok (w', resp)) {a : Addr}
    (ha : a ≠ ch.contract) (d : Denom) :
    w.bank a d ≤ w'.bank a d + paysIn ch op a d ∧
    ((∀ src dst cs, payment ch op = some (src, dst, cs) → a ≠ src) → w.bank a d ≤ w'.bank a d) := by
  have key : w.bank a d ≤ w'.bank a d + paysIn ch op a d := by
    by_cases hop : ∀ dst c, op ≠ .mint dst c
    · have := step_flow hop hs a d
      rw [if_neg ha] at this
      omega
    · simp only [ne_eq, not_forall, not_not] at hop
      obtain ⟨dst, c, rfl⟩ := hop
      simp only [step, Except.ok.injEq, Prod.mk.injEq] at hs
      obtain ⟨rfl, -⟩ := hs
      simp only
      split <;> omega
  refine ⟨key, fun hne => ?_⟩
  have e : paysIn ch op a d = 0 := by
    unfold paysIn
    split
    · rename_i src dst cs h
      rw [if_neg (hne src dst cs h)]
    · rfl
  rw [e] at key
  exact key

theorem sum_received {A : Finset Addr} {d : Denom} {ms : List SendMsg} (h : ∀ m ∈ ms, m.to ∈ A) :
    ∑ a ∈ A, received a d ms = spent d ms := by
  induction ms with
  | nil => simp [received, spent]
  | cons m ms ih =>
    have e1 : ∀ a, received a d (m :: ms) = (if m.to = a ∧ m.coin.denom = d then m.coin.amount else 0) + received a d ms := fun a => by
      simp [received]
    have e2 : spent d (m :: ms) = (if m.coin.denom = d then m.coin.amount else 0) + spent d ms := by simp [spent]
    rw [Finset.sum_congr rfl fun a _ => e1 a, Finset.sum_add_distrib, ih fun m' hm' => h m' (by simp [hm']), e2]
    congr 1
    by_cases hd : m.coin.denom = d
    · simp only [hd, and_true, if_true]
      rw [Finset.sum_ite_eq]
      rw [if_pos (h m (by simp))]
    · simp [hd]

theorem sum_paid {ch : Chain} {op : Op} {A : Finset Addr} {d : Denom} (h : ∀ src dst cs, payment ch op = some (src, dst, cs) → src ∈ A ∧ dst ∈ A) :
    ∑ a ∈ A, paysIn ch op a d = ∑ a ∈ A, getsPaid ch op a d := by
  unfold paysIn getsPaid
  cases hp : payment ch op with
  | none => rfl
  | some x =>
    obtain ⟨src, dst, cs⟩ := x
    obtain ⟨h1, h2⟩ := h src dst cs hp
    simp only
    rw [Finset.sum_ite_eq', Finset.sum_ite_eq', if_pos h1, if_pos h2]

/-- C63: operations create and destroy nothing: over any history without mints only finitely many accounts change, and the total of what
they hold of each denom stays the same. -/
theorem C63_conserved {ch : Chain} (w : World) (ops : List Op) (hops : ∀ op ∈ ops, ∀ dst c, op ≠ .mint dst c) :
    ∃ A : Finset Addr, (∀ a, a ∉ A → ∀ d, (run ch w ops).bank a d = w.bank a d) ∧
      ∀ d, ∑ a ∈ A, (run ch w ops).bank a d = ∑ a ∈ A, w.bank a d := by
  have key : ∃ A : Finset Addr, ∀ B : Finset Addr, A ⊆ B → (∀ a, a ∉ B → ∀ d, (run ch w ops).bank a d = w.bank a d) ∧
      ∀ d, ∑ a ∈ B, (run ch w ops).bank a d = ∑ a ∈ B, w.bank a d := by
    induction ops generalizing w with
    | nil => exact ⟨∅, fun B _ => ⟨fun _ _ _ => rfl, fun _ => rfl⟩⟩
    | cons op ops ih =>
      have hrun : run ch w (op :: ops) = run ch (apply ch w op) ops := rfl
      rw [hrun]
      obtain ⟨A1, hA1⟩ := ih (apply ch w op) fun o ho => hops o (by simp [ho])
      cases hs : step ch w op with
      | error e =>
        have : apply ch w op = w := by unfold apply; rw [hs]
        rw [this] at hA1 ⊢
        exact ⟨A1, hA1⟩
      | ok x =>
        obtain ⟨w', resp⟩ := x
        have : apply ch w op = w' := by unfold apply; rw [hs]
        rw [this] at hA1 ⊢
        have hop := hops op (by simp)
        let P : Finset Addr := match payment ch op with
          | some (src, dst, _) => {src, dst}
          | none => ∅
        have hP : ∀ src dst cs, payment ch op = some (src, dst, cs) → src ∈ P ∧ dst ∈ P := by
          intro src dst cs h
          simp only [P, h]
          simp
        refine ⟨A1 ∪ (P ∪ ({ch.contract} ∪ (resp.msgs.map fun m => m.to).toFinset)), ?_⟩
        intro B hB
        obtain ⟨h1, h2⟩ := hA1 B fun a ha => hB (by simp [ha])
        have hPB : ∀ src dst cs, payment ch op = some (src, dst, cs) → src ∈ B ∧ dst ∈ B := fun src dst cs h =>
          ⟨hB (by simp [(hP src dst cs h).1]), hB (by simp [(hP src dst cs h).2])⟩
        have hcB : ch.contract ∈ B := hB (by simp)
        have hmB : ∀ m ∈ resp.msgs, m.to ∈ B := fun m hm => hB (by
          simp only [Finset.mem_union, List.mem_toFinset, List.mem_map]
          exact Or.inr (Or.inr (Or.inr ⟨m, hm, rfl⟩)))
        refine ⟨fun a ha d => ?_, fun d => ?_⟩
        · rw [h1 a ha d]
          have hf := step_flow hop hs a d
          have e1 : paysIn ch op a d = 0 := by
            unfold paysIn
            split
            · rename_i src dst cs h
              rw [if_neg fun hc => ha (by rw [hc]; exact (hPB src dst cs h).1)]
            · rfl
          have e2 : getsPaid ch op a d = 0 := by
            unfold getsPaid
            split
            · rename_i src dst cs h
              rw [if_neg fun hc => ha (by rw [hc]; exact (hPB src dst cs h).2)]
            · rfl
          have e3 : received a d resp.msgs = 0 := by
            unfold received
            refine List.sum_eq_zero fun y hy => ?_
            obtain ⟨m, hm, rfl⟩ := List.mem_map.1 hy
            rw [if_neg fun hc => ha (by rw [← hc.1]; exact hmB m hm)]
          rw [e1, e2, e3, if_neg fun hc => ha (by rw [hc]; exact hcB)] at hf
          omega
        · rw [h2 d]
          have hsum : ∑ a ∈ B, (w'.bank a d + paysIn ch op a d + (if a = ch.contract then spent d resp.msgs else 0)) =
              ∑ a ∈ B, (w.bank a d + getsPaid ch op a d + received a d resp.msgs) :=
            Finset.sum_congr rfl fun a _ => step_flow hop hs a d
          rw [Finset.sum_add_distrib, Finset.sum_add_distrib, Finset.sum_add_distrib, Finset.sum_add_distrib, sum_received hmB,
            sum_paid hPB, Finset.sum_ite_eq', if_pos hcB] at hsum
          omega
  obtain ⟨A, hA⟩ := key
  exact ⟨A, hA A (Finset.Subset.refl A)⟩

/-- C63 on the demo book: dave's order is claimed by zed. Nobody pays; dave, zed and the fee recipient gain what the contract loses. -/
example : let w' := run Demo.ch Demo.after [Demo.claim "zed" 0 3]
    (w'.bank "dave" "b" - Demo.after.bank "dave" "b", w'.bank "zed" "b" - Demo.after.bank "zed" "b",
      w'.bank "fees" "b" - Demo.after.bank "fees" "b", Demo.after.bank "orderbook" "b" - w'.bank "orderbook" "b") =
      (58200, 600, 1200, 60000) := by
  decide +kernel

end OB
