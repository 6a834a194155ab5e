import Verif.Proofs.CostBook
import Verif.Proofs.Commute
/- Costs at the level of transactions. -/
namespace OB
open Spec

/-- Submessages depend on the bank only, and leave the store alone. -/
theorem runSubMsgs_bank (ch : Chain) (ms : List SendMsg) (s s2 : Store) (bank : Bank) :
    (∃ e, runSubMsgs ch ⟨s, bank⟩ ms = .error e ∧ runSubMsgs ch ⟨s2, bank⟩ ms = .error e) ∨
    ∃ bank', runSubMsgs ch ⟨s, bank⟩ ms = .ok ⟨s, bank'⟩ ∧ runSubMsgs ch ⟨s2, bank⟩ ms = .ok ⟨s2, bank'⟩ := by
  induction ms generalizing bank with
  | nil => exact .inr ⟨bank, rfl, rfl⟩
  | cons m ms ih =>
    unfold runSubMsgs
    simp only
    cases bank.send ch.contract m.to m.coin with
    | ok b1 => exact ih b1
    | error e => exact .inl ⟨.replyError m.replyId, rfl, rfl⟩

/-- Restricted to proper stores. -/
def UsesP (S : Cell → Prop) {α : Type} (x : M α) (s : Store) : Prop :=
  ∀ s', Proper s' → (∀ c, S c → sview s' c = sview s c) → Matches sview S s s' (x s) (x s')

theorem UsesOn.usesP {S : Cell → Prop} {α : Type} {x : M α} {s : Store} (h : UsesOn sview S x s) : UsesP S x s := fun s' _ ha => h s' ha

theorem runTx_same {ch : Chain} {S : Cell → Prop} {w w2 : World} {bank : Bank} {x : M Response} (hx : UsesP S x w.store) (hp : Proper w2.store)
    (ha : ∀ c, S c → w2.store.cell none c = w.store.cell none c) : SameDoing S w w2 (runTx ch w bank x) (runTx ch w2 bank x) := by
  have h := hx w2.store hp ha
  unfold runTx
  cases e : x w.store with
  | err er t =>
    rw [e] at h
    cases e' : x w2.store with
    | ok a' t' => rw [e'] at h; exact h.elim
    | err er' t' => rw [e'] at h; exact h.1
  | ok r t =>
    rw [e] at h
    cases e' : x w2.store with
    | err er' t' => rw [e'] at h; exact h.elim
    | ok r' t' =>
      rw [e'] at h
      obtain ⟨rfl, h1, h2⟩ := h
      simp only
      rcases runSubMsgs_bank ch r'.msgs t t' bank with ⟨er, g1, g2⟩ | ⟨b', g1, g2⟩
      · rw [g1, g2]; rfl
      · rw [g1, g2]
        exact ⟨rfl, rfl, h1, h2⟩

theorem same_error {S : Cell → Prop} {w w2 : World} (e : Err) : SameDoing S w w2 (.error e) (.error e) := rfl

theorem execute_touches {ch : Chain} {S : Cell → Prop} {w : World} {sender : Addr} {funds : List Coin} {time : Nat} {msg : ExecuteMsg}
    (hx : UsesP S (execute (ch.env time) ⟨sender, funds⟩ msg) w.store) : Touches ch w (.execute sender funds time msg) S := by
  intro w2 hp hb ha
  simp only [step]
  split
  · exact same_error _
  split
  · exact same_error _
  rw [hb]
  cases w.bank.sendAll sender ch.contract funds with
  | error e => exact same_error _
  | ok bank => exact runTx_same hx hp ha

theorem sudo_touches {ch : Chain} {S : Cell → Prop} {w : World} {time : Nat} {msg : SudoMsg}
    (hx : UsesP S (OB.sudo (ch.env time) msg) w.store) : Touches ch w (.sudo time msg) S := by
  intro w2 hp hb ha
  simp only [step]
  split
  · exact same_error _
  cases msg.deposit with
  | none => rw [hb]; exact runTx_same hx hp ha
  | some p =>
    obtain ⟨sender, c⟩ := p
    simp only
    split
    · exact same_error _
    rw [hb]
    cases w.bank.send sender ch.contract c with
    | error e => exact same_error _
    | ok bank => exact runTx_same hx hp ha

theorem Uses.touches {ch : Chain} {w : World} {sender : Addr} {funds : List Coin} {time : Nat} {msg : ExecuteMsg} {k : Nat}
    (hx : Uses sview k (execute (ch.env time) ⟨sender, funds⟩ msg) w.store) : TouchesAtMost ch w (.execute sender funds time msg) k := by
  obtain ⟨S, h1, h2⟩ := hx
  exact ⟨S, h1, execute_touches h2.usesP⟩

theorem ensureIsActive_uses (s : Store) : Uses sview 1 ensureIsActive s := .on (S := [.isActive]) (ensureIsActive_on (by simp)) (by simp)
theorem ensureIsActive_same {s t : Store} {u : Unit} (e : ensureIsActive s = .ok u t) : t = s := by
  unfold ensureIsActive at e
  simp only [EM.get_bind] at e
  rw [EM.ensure_eq_ok] at e
  exact e.2

/-- Behind the active gate. -/
theorem gated_uses {env : Env} {info : MessageInfo} {msg : ExecuteMsg} {x : M Response} {s : Store} {k : Nat}
    (he : execute env info msg = (ensureIsActive >>= fun _ => x)) (hx : Uses sview k x s) : Uses sview (k + 1) (execute env info msg) s := by
  rw [he]
  refine ((ensureIsActive_uses s).bind fun u t e => ?_).mono (Nat.le_of_eq (Nat.add_comm 1 k))
  rw [ensureIsActive_same e]
  exact hx

/-! ### Placements -/

theorem placeLimit_uses {s : Store} (hf : ∀ t o, s.orders.get? (t, s.orderId.getD 0) ≠ some o) (env : Env) (info : MessageInfo) (tick : Int) (dir : Dir)
    (quantity : Nat) (bounty : Option Nat) : Uses sview 7 (placeLimit env info tick dir quantity bounty) s := by
  generalize hS : orderCells (tick, s.orderId.getD 0) info.sender tick ++ [.orderbook, .tick tick, .dirLiq dir, .orderId] = S0
  have hlen : S0.length = 7 := by rw [← hS]; rfl
  have c2 : Cell.tick tick ∈ S0 := by rw [← hS]; simp
  have c3 : Cell.orderbook ∈ S0 := by rw [← hS]; simp
  have c4 : Cell.dirLiq dir ∈ S0 := by rw [← hS]; simp
  have c5 : ∀ c ∈ orderCells (tick, s.orderId.getD 0) info.sender tick, c ∈ S0 := by rw [← hS]; simp +contextual
  have c6 : Cell.orderId ∈ S0 := by rw [← hS]; simp
  refine (UsesX.uses (S0 := S0) (k := 0) ?_).mono (by omega)
  unfold placeLimit
  refine .on_step (loadOrderbook_on c3) fun ob t e => ?_
  obtain rfl : t = s := (loadOrderbook_pres (I := fun x => x = s)).ok rfl e
  refine .ensureBind fun _ => .ensureBind fun _ => .ensureBind fun _ => .liftBind fun _ _ => .ensureBind fun _ => ?_
  refine .on_step (newOrderId_on c6) fun id t1 e => ?_
  have h1 : id = t.orderId.getD 0 ∧ t1.orders = t.orders := by
    unfold newOrderId at e
    simp only [EM.get_bind, EM.bind_eq_ok, EM.lift_eq_ok, EM.modify_eq_ok, EM.pure_eq_ok] at e
    obtain ⟨a, s1, ⟨-, rfl⟩, -, s2, rfl, rfl, rfl⟩ := e
    exact ⟨rfl, rfl⟩
  obtain ⟨rfl, ho⟩ := h1
  refine .on_step (saveOrderbook_on _ c3) fun _ t2 e => ?_
  have ho2 : t2.orders = t.orders := by
    unfold saveOrderbook at e
    rw [EM.modify_eq_ok] at e
    obtain rfl := e
    exact ho
  refine .get (fun s' ha => by rw [tick_of_view (ha _ c2)]) ?_
  refine .liftBind fun _ _ => ?_
  refine .on_step (saveOrder_on (fun o h => ?_) c5) fun _ t3 _ => ?_
  · rw [ho2] at h
    exact absurd h (hf _ _)
  refine .liftBind fun _ _ => .liftBind fun _ _ => .liftBind fun _ _ => ?_
  exact .on_step (saveTick_on _ _ c2) fun _ _ _ => .on_step (addLiq_on _ _ c4) fun _ _ _ => .pure _ _

/-! ### Swaps -/

/-- Equal where swaps look. -/
structure Alike (s s' : Store) : Prop where
  ticks : s'.ticks = s.ticks
  book : s'.orderbook = s.orderbook
  liq : s'.dirLiq = s.dirLiq
  active : s'.isActive = s.isActive

/-- Changed where swaps write. -/
def Keeps (s t : Store) : Prop := t = { s with ticks := t.ticks, orderbook := t.orderbook, dirLiq := t.dirLiq }

def AlikeRes {α : Type} (s s' : Store) : Res Store α → Res Store α → Prop
  | .ok a t, .ok a' t' => a' = a ∧ Alike t t' ∧ Keeps s t ∧ Keeps s' t'
  | .err e t, .err e' t' => e' = e ∧ Alike t t' ∧ Keeps s t ∧ Keeps s' t'
  | _, _ => False

def Blind {α : Type} (x : M α) : Prop := ∀ s s', Alike s s' → AlikeRes s s' (x s) (x s')

section
variable {α β : Type}
theorem Blind.pure (a : α) : Blind (Pure.pure a : M α) := fun _ _ h => ⟨rfl, h, rfl, rfl⟩
theorem Blind.fail (e : Err) : Blind (EM.fail e : M α) := fun _ _ h => ⟨rfl, h, rfl, rfl⟩
theorem Blind.lift (x : Except Err α) : Blind (EM.lift x : M α) := fun s s' h => by cases x <;> exact ⟨rfl, h, rfl, rfl⟩
theorem Blind.ensure (c : Bool) (e : Err) : Blind (EM.ensure c e : M Unit) := fun s s' h => by cases c <;> exact ⟨rfl, h, rfl, rfl⟩
theorem Keeps.trans {s t u : Store} (h1 : Keeps s t) (h2 : Keeps t u) : Keeps s u := by
  unfold Keeps at *
  rw [h2, h1]
theorem Blind.bind {x : M α} {f : α → M β} (hx : Blind x) (hf : ∀ a, Blind (f a)) : Blind (x >>= f) := by
  intro s s' h
  have h1 := hx s s' h
  rw [EM.bind_apply, EM.bind_apply]
  cases e : x s with
  | err er t =>
    rw [e] at h1
    cases e' : x s' with
    | ok a' t' => rw [e'] at h1; exact h1.elim
    | err er' t' => rw [e'] at h1; exact h1
  | ok a t =>
    rw [e] at h1
    cases e' : x s' with
    | err er' t' => rw [e'] at h1; exact h1.elim
    | ok a' t' =>
      rw [e'] at h1
      obtain ⟨rfl, h1, h2, h3⟩ := h1
      have h4 := hf a' t t' h1
      simp only
      revert h4
      cases f a' t <;> cases f a' t' <;> simp only [AlikeRes]
      · exact fun h => ⟨h.1, h.2.1, h2.trans h.2.2.1, h3.trans h.2.2.2⟩
      · exact id
      · exact id
      · exact fun h => ⟨h.1, h.2.1, h2.trans h.2.2.1, h3.trans h.2.2.2⟩
theorem Blind.get {f : Store → M β} (h0 : ∀ s s', Alike s s' → f s' = f s) (h : ∀ s, Blind (f s)) : Blind (EM.get >>= f) := by
  intro s s' hs
  rw [EM.get_bind, EM.get_bind, h0 s s' hs]
  exact h s s s' hs
theorem Blind.modify {g : Store → Store} (h1 : ∀ s s', Alike s s' → Alike (g s) (g s')) (h2 : ∀ s, Keeps s (g s)) : Blind (EM.modify g : M Unit) :=
  fun s s' h => ⟨rfl, h1 s s' h, h2 s, h2 s'⟩
end

theorem saveTicks_blind (l : List (Int × TickState)) : Blind (saveTicks l) := by
  induction l with
  | nil => exact .pure _
  | cons p l ih =>
    obtain ⟨t, ts⟩ := p
    unfold saveTicks
    refine .bind (.modify (fun s s' h => ⟨?_, h.book, h.liq, h.active⟩) fun s => rfl) fun _ => ih
    show SMap.insert s'.ticks t ts = SMap.insert s.ticks t ts
    rw [h.ticks]

theorem marketLoop_alike {s s' : Store} (h : s'.ticks = s.ticks) (dir : Dir) (l : List Int) (st : LoopSt) :
    marketLoop s' dir l st = marketLoop s dir l st := by
  induction l generalizing st with
  | nil => rfl
  | cons t l ih =>
    unfold marketLoop
    rw [h]
    simp only [ih]

theorem internal_alike {s s' : Store} (h : Alike s s') (o : MarketOrder) (t : Int) : runMarketOrderInternal s' o t = runMarketOrderInternal s o t := by
  unfold runMarketOrderInternal tickKeys
  rw [h.book, h.ticks]
  simp only [marketLoop_alike h.ticks]

theorem swap_blind (env : Env) (sender : Addr) (tokenIn : Coin) (out : Denom) (min fee : Nat) (target : Option Int) :
    Blind (dispatchSwapExactAmountIn env sender tokenIn out min fee target) := by
  unfold dispatchSwapExactAmountIn loadOrderbook runMarketOrder subtractDirectionalLiquidity saveDirLiq saveOrderbook
  refine .bind (.lift _) fun _ => .bind (.ensure _ _) fun _ => .bind (.get (fun s s' h => by rw [h.book]) fun s => ?_) fun ob => ?_
  · split
    · exact .pure _
    · exact .fail _
  refine .bind (.lift _) fun _ => .bind (.ensure _ _) fun _ => .bind ?_ fun r => .bind (.lift _) fun _ => .pure _
  refine .get (fun s s' h => by rw [internal_alike h]) fun s => .bind (.lift _) fun post => .bind (saveTicks_blind _) fun _ => .bind (.lift _) fun _ =>
    .bind (.get (fun s s' h => ?_) fun s => .bind (.lift _) fun _ => .modify (fun s s' h => ⟨h.ticks, h.book, ?_, h.active⟩) fun s => rfl) fun _ =>
    .bind (.modify (fun s s' h => ⟨h.ticks, rfl, h.liq, h.active⟩) fun s => rfl) fun _ => .pure _
  · unfold getDirectionalLiquidity; rw [h.liq]
  · simp only [h.liq]

theorem ensureIsActive_blind : Blind ensureIsActive := by
  unfold ensureIsActive
  exact .get (fun s s' h => by rw [h.active]) fun s => .ensure _ _

theorem Blind.usesP {x : M Response} (hx : Blind x) {s : Store} (hs : Proper s) : UsesP swapCells x s := by
  intro s' hp ha
  have ht : s'.ticks = s.ticks := SMap.Sorted.ext hp.1 hs.1 fun k => tick_of_view (ha (.tick k) trivial)
  have hb : s'.orderbook = s.orderbook := book_of_view (ha .orderbook trivial)
  have hl : s'.dirLiq = s.dirLiq := funext fun d => liq_of_view (ha (.dirLiq d) trivial)
  have h := hx s s' ⟨ht, hb, hl, active_of_view (ha .isActive trivial)⟩
  have keep : ∀ u v : Store, Keeps u v → ∀ c, ¬ swapCells c → sview v c = sview u c := by
    intro u v hk c hc
    rw [hk]
    cases c <;> first | rfl | exact absurd trivial hc
  have fin : ∀ t t' : Store, Alike t t' → Keeps s t → Keeps s' t' → After sview swapCells s s' t t' := by
    intro t t' h1 h2 h3
    refine ⟨fun c hc => ?_, fun c hc => ⟨keep _ _ h2 c hc, keep _ _ h3 c hc⟩⟩
    cases c <;> try exact hc.elim
    · simp only [sview, Store.cell, h1.book]
    · have := ha .isActive trivial
      rw [h2, h3]
      exact this
    · simp only [sview, Store.cell, h1.ticks]
    · simp only [sview, Store.cell, h1.liq]
  revert h
  cases x s <;> cases x s' <;> simp only [AlikeRes, Matches]
  · exact fun h => ⟨h.1, fin _ _ h.2.1 h.2.2.1 h.2.2.2⟩
  · exact id
  · exact id
  · exact fun h => ⟨h.1, fin _ _ h.2.1 h.2.2.1 h.2.2.2⟩

end OB
