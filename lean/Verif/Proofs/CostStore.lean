import Verif.Proofs.CostTree
import Verif.Proofs.Rel
/- How many cells the handlers use. -/
namespace OB
open Spec TreeNode

abbrev sview : Store → Cell → Option Val := Store.cell none

/-- The cells `S0` and at most `k` others. -/
def UsesX {α : Type} (S0 : List Cell) (k : Nat) (x : M α) (s : Store) : Prop :=
  ∃ S : List Cell, S.length ≤ k ∧ UsesOn sview (fun c => c ∈ S0 ∨ c ∈ S) x s

section
variable {α β : Type} {S0 : List Cell} {k k1 : Nat} {s : Store}

theorem UsesX.of {x : M α} (h : Uses sview k x s) : UsesX S0 k x s := let ⟨S, h1, h2⟩ := h; ⟨S, h1, h2.mono fun _ => Or.inr⟩
theorem UsesX.on {x : M α} (h : UsesOn sview (· ∈ S0) x s) : UsesX S0 k x s := ⟨[], by simp, h.mono fun _ => Or.inl⟩
theorem UsesX.mono {x : M α} (h : UsesX S0 k1 x s) (hk : k1 ≤ k) : UsesX S0 k x s := let ⟨S, h1, h2⟩ := h; ⟨S, h1.trans hk, h2⟩
theorem UsesX.pure (a : α) (s : Store) : UsesX S0 k (Pure.pure a : M α) s := .of (.pure a s)
theorem UsesX.fail (e : Err) (s : Store) : UsesX S0 k (EM.fail e : M α) s := .of (.fail e s)
theorem UsesX.step {x : M α} {f : α → M β} (hx : UsesX S0 k1 x s) (hk : k1 ≤ k)
    (hf : ∀ a t, x s = .ok a t → UsesX S0 (k - k1) (f a) t) : UsesX S0 k (x >>= f) s := by
  obtain ⟨S1, h1, h2⟩ := hx
  cases e : x s with
  | err er t =>
    refine ⟨S1, by omega, h2.bind fun a t' e' => ?_⟩
    rw [e] at e'; cases e'
  | ok a t =>
    obtain ⟨S2, h3, h4⟩ := hf a t e
    refine ⟨S1 ++ S2, by simp; omega, (h2.mono fun c hc => by rcases hc with h | h <;> simp [h]).bind fun a' t' e' => ?_⟩
    rw [e] at e'
    cases e'
    exact h4.mono fun c hc => by rcases hc with h | h <;> simp [h]
/-- A step within the fixed cells. -/
theorem UsesX.on_step {x : M α} {f : α → M β} (hx : UsesOn sview (· ∈ S0) x s) (hf : ∀ a t, x s = .ok a t → UsesX S0 k (f a) t) :
    UsesX S0 k (x >>= f) s := UsesX.step (UsesX.on (k := 0) hx) (by omega) hf
theorem UsesX.liftBind {x : Except Err α} {f : α → M β} (hf : ∀ a, x = .ok a → UsesX S0 k (f a) s) : UsesX S0 k (EM.lift x >>= f) s := by
  refine .on_step (.lift x s) fun a t e => ?_
  rw [EM.lift_eq_ok] at e
  obtain ⟨e, rfl⟩ := e
  exact hf a e
theorem UsesX.ensureBind {c : Bool} {er : Err} {f : Unit → M β} (hf : c = true → UsesX S0 k (f ()) s) : UsesX S0 k (EM.ensure c er >>= f) s := by
  refine .on_step (.ensure c er s) fun a t e => ?_
  rw [EM.ensure_eq_ok] at e
  obtain ⟨e, rfl⟩ := e
  exact hf e
theorem UsesX.get {f : Store → M β} (h0 : ∀ s', (∀ c ∈ S0, sview s' c = sview s c) → f s' = f s) (h : UsesX S0 k (f s) s) :
    UsesX S0 k (EM.get >>= f) s := by
  obtain ⟨S2, h1, h2⟩ := h
  exact ⟨S2, h1, .get (fun s' ha => h0 s' fun c hc => ha c (.inl hc)) h2⟩
theorem UsesX.read (S : List Cell) {f : Store → M β} (k1 : Nat) (hS : S.length ≤ k1) (hk : k1 ≤ k)
    (h0 : ∀ s', (∀ c ∈ S, sview s' c = sview s c) → f s' = f s) (h : UsesX S0 (k - k1) (f s) s) : UsesX S0 k (EM.get >>= f) s := by
  obtain ⟨S2, h1, h2⟩ := h
  refine ⟨S ++ S2, by simp; omega, .get (fun s' ha => h0 s' fun c hc => ha c (by simp [hc])) (h2.mono fun c hc => by
    rcases hc with h | h <;> simp [h])⟩
end

/-! ### Reading cells -/

theorem tick_of_view {s s' : Store} {t : Int} (h : sview s' (.tick t) = sview s (.tick t)) : s'.ticks.get? t = s.ticks.get? t :=
  Option.map_injective (fun a b e => by cases e; rfl) h
theorem order_of_view {s s' : Store} {k : Int × Nat} (h : sview s' (.order k) = sview s (.order k)) : s'.orders.get? k = s.orders.get? k :=
  Option.map_injective (fun a b e => by cases e; rfl) h
theorem book_of_view {s s' : Store} (h : sview s' .orderbook = sview s .orderbook) : s'.orderbook = s.orderbook :=
  Option.map_injective (fun a b e => by cases e; rfl) h
theorem orderId_of_view {s s' : Store} (h : sview s' .orderId = sview s .orderId) : s'.orderId = s.orderId :=
  Option.map_injective (fun a b e => by cases e; rfl) h
theorem active_of_view {s s' : Store} (h : sview s' .isActive = sview s .isActive) : s'.isActive = s.isActive :=
  Option.map_injective (fun a b e => by cases e; rfl) h
theorem fee_of_view {s s' : Store} (h : sview s' .makerFee = sview s .makerFee) : s'.makerFee = s.makerFee :=
  Option.map_injective (fun a b e => by cases e; rfl) h
theorem recipient_of_view {s s' : Store} (h : sview s' .makerFeeRecipient = sview s .makerFeeRecipient) : s'.makerFeeRecipient = s.makerFeeRecipient :=
  Option.map_injective (fun a b e => by cases e; rfl) h
theorem liq_of_view {s s' : Store} {d : Dir} (h : sview s' (.dirLiq d) = sview s (.dirLiq d)) : s'.dirLiq d = s.dirLiq d :=
  Option.map_injective (fun a b e => by cases e; rfl) h
theorem tree_of_view {s s' : Store} {c : Cell} (h : sview s' c = sview s c) : treeView s'.trees c = treeView s.trees c := by
  cases c <;> first | rfl | exact h

/-! ### Single operations -/

section
variable {S0 : List Cell} {s : Store}

theorem loadOrderbook_on (h : Cell.orderbook ∈ S0) : UsesOn sview (· ∈ S0) loadOrderbook s := by
  unfold loadOrderbook
  refine .get (fun s' ha => by rw [book_of_view (ha _ h)]) ?_
  split
  · exact .pure _ _
  · exact .fail _ _

theorem saveOrderbook_on (b : Orderbook) (h : Cell.orderbook ∈ S0) : UsesOn sview (· ∈ S0) (saveOrderbook b) s := by
  refine .modify (fun s' ha c hc => ?_) fun s' c hc => ?_
  · have := ha c hc
    cases c <;> first | rfl | exact this
  · cases c <;> first | rfl | exact absurd h hc

theorem saveTick_on (t : Int) (ts : TickState) (h : Cell.tick t ∈ S0) : UsesOn sview (· ∈ S0) (saveTick t ts) s := by
  refine .modify (fun s' ha c hc => ?_) fun s' c hc => ?_
  · have := ha c hc
    cases c <;> try exact this
    next t' =>
    simp only [sview, Store.cell] at this ⊢
    rw [SMap.get?_insert, SMap.get?_insert]
    split
    · rfl
    · exact this
  · cases c <;> try rfl
    next t' =>
    simp only [sview, Store.cell]
    rw [SMap.get?_insert, if_neg]
    rintro rfl
    exact hc h

theorem saveDirLiq_on (d : Dir) (x : Nat) (h : Cell.dirLiq d ∈ S0) : UsesOn sview (· ∈ S0) (saveDirLiq d x) s := by
  refine .modify (fun s' ha c hc => ?_) fun s' c hc => ?_
  · have := ha c hc
    cases c <;> try exact this
    next t' =>
    simp only [sview, Store.cell] at this ⊢
    split
    · rfl
    · exact this
  · cases c <;> try rfl
    next t' =>
    simp only [sview, Store.cell]
    rw [if_neg]
    rintro rfl
    exact hc h

theorem addLiq_on (d : Dir) (x : Nat) (h : Cell.dirLiq d ∈ S0) : UsesOn sview (· ∈ S0) (addDirectionalLiquidity d x) s := by
  unfold addDirectionalLiquidity
  refine .get (fun s' ha => by unfold getDirectionalLiquidity; rw [liq_of_view (ha _ h)]) ?_
  exact .bind (.lift _ _) fun _ _ _ => saveDirLiq_on _ _ h
theorem subLiq_on (d : Dir) (x : Nat) (h : Cell.dirLiq d ∈ S0) : UsesOn sview (· ∈ S0) (subtractDirectionalLiquidity d x) s := by
  unfold subtractDirectionalLiquidity
  refine .get (fun s' ha => by unfold getDirectionalLiquidity; rw [liq_of_view (ha _ h)]) ?_
  exact .bind (.lift _ _) fun _ _ _ => saveDirLiq_on _ _ h

theorem newOrderId_on (h : Cell.orderId ∈ S0) : UsesOn sview (· ∈ S0) newOrderId s := by
  unfold newOrderId
  refine .get (fun s' ha => by rw [orderId_of_view (ha _ h)]) ?_
  refine .bind (.lift _ _) fun n t _ => .bind ?_ fun _ _ _ => .pure _ _
  refine .modify (fun s' ha c hc => ?_) fun s' c hc => ?_
  · have := ha c hc
    cases c <;> first | rfl | exact this
  · cases c <;> first | rfl | exact absurd h hc

theorem ensureIsActive_on (h : Cell.isActive ∈ S0) : UsesOn sview (· ∈ S0) ensureIsActive s := by
  unfold ensureIsActive
  exact .get (fun s' ha => by rw [active_of_view (ha _ h)]) (.ensure _ _ _)

/-- The cells of an order: itself and its index entries. -/
def orderCells (k : Int × Nat) (owner : Addr) (tick : Int) : List Cell := [.order k, .ownerIdx owner k, .tickOwnerIdx tick owner k]

/-- The order stored before, if any, has the same index entries. -/
def SameIndex (s : Store) (k : Int × Nat) (owner : Addr) (tick : Int) : Prop :=
  ∀ o, s.orders.get? k = some o → o.owner = owner ∧ o.tickId = tick

theorem idx_none {s : Store} {k : Int × Nat} {owner : Addr} {tick : Int} (hs : SameIndex s k owner tick) {c : Cell}
    (hc : c ∉ orderCells k owner tick) (h : (∃ a, c = .ownerIdx a k) ∨ ∃ t a, c = .tickOwnerIdx t a k) : sview s c = none := by
  rcases h with ⟨a, rfl⟩ | ⟨t, a, rfl⟩
  all_goals
    simp only [sview, Store.cell]
    split
    · next o ho =>
      obtain ⟨rfl, rfl⟩ := hs o ho
      rw [if_neg]
      simp only [orderCells, List.mem_cons, List.not_mem_nil, reduceCtorEq, Cell.ownerIdx.injEq, Cell.tickOwnerIdx.injEq, and_true, or_false, false_or] at hc
      intro he
      first
        | exact hc he.symm
        | exact hc ⟨he.1.symm, he.2.symm⟩
    · rfl

theorem orderWrite_on {g : Store → Store} {k : Int × Nat} {owner : Addr} {tick : Int} {n : Option LimitOrder}
    (hg : ∀ s, ∀ c, (∀ k', c ≠ .order k') → (∀ a k', c ≠ .ownerIdx a k') → (∀ t a k', c ≠ .tickOwnerIdx t a k') → sview (g s) c = sview s c)
    (hk : ∀ s k', (g s).orders.get? k' = if k' = k then n else s.orders.get? k')
    (hs : SameIndex s k owner tick) (hn : ∀ o, n = some o → o.owner = owner ∧ o.tickId = tick) (h : ∀ c ∈ orderCells k owner tick, c ∈ S0) :
    UsesOn sview (· ∈ S0) (EM.modify g : M Unit) s := by
  intro s' ha
  have hs' : SameIndex s' k owner tick := fun o ho => hs o (by rw [← ho, order_of_view (ha _ (h _ (by simp [orderCells])))])
  have key : ∀ s1 : Store, SameIndex s1 k owner tick → ∀ c, c ∉ S0 → sview (g s1) c = sview s1 c := by
    intro s1 hs1 c hc
    have hc' : c ∉ orderCells k owner tick := fun hh => hc (h c hh)
    have hg1 : SameIndex (g s1) k owner tick := fun o ho => by
      rw [hk, if_pos rfl] at ho
      exact hn o ho
    cases c with
    | order k' =>
      simp only [sview, Store.cell, hk]
      rw [if_neg]
      rintro rfl
      exact hc' (by simp [orderCells])
    | ownerIdx a k' =>
      by_cases e : k' = k
      · subst e
        rw [idx_none hg1 hc' (.inl ⟨_, rfl⟩), idx_none hs1 hc' (.inl ⟨_, rfl⟩)]
      · simp only [sview, Store.cell, hk, if_neg e]
    | tickOwnerIdx t a k' =>
      by_cases e : k' = k
      · subst e
        rw [idx_none hg1 hc' (.inr ⟨_, _, rfl⟩), idx_none hs1 hc' (.inr ⟨_, _, rfl⟩)]
      · simp only [sview, Store.cell, hk, if_neg e]
    | _ => exact hg s1 _ (by simp) (by simp) (by simp)
  refine ⟨rfl, fun c hc => ?_, fun c hc => ⟨key s hs c hc, key s' hs' c hc⟩⟩
  cases c with
  | order k' =>
    have := ha _ hc
    simp only [sview, Store.cell] at this
    simp only [sview, Store.cell, hk]
    split
    · rfl
    · exact this
  | ownerIdx a k' =>
    have := ha _ hc
    simp only [sview, Store.cell] at this
    simp only [sview, Store.cell, hk]
    by_cases e : k' = k
    · simp only [if_pos e]
    · simp only [if_neg e]
      exact this
  | tickOwnerIdx t a k' =>
    have := ha _ hc
    simp only [sview, Store.cell] at this
    simp only [sview, Store.cell, hk]
    by_cases e : k' = k
    · simp only [if_pos e]
    · simp only [if_neg e]
      exact this
  | _ => exact (hg s' _ (by simp) (by simp) (by simp)).trans ((ha _ hc).trans (hg s _ (by simp) (by simp) (by simp)).symm)

theorem saveOrder_on {k : Int × Nat} {o : LimitOrder} (hs : SameIndex s k o.owner o.tickId) (h : ∀ c ∈ orderCells k o.owner o.tickId, c ∈ S0) :
    UsesOn sview (· ∈ S0) (saveOrder k o) s :=
  orderWrite_on (n := some o) (fun s c h1 h2 h3 => by cases c <;> first | rfl | exact absurd rfl (h1 _) | exact absurd rfl (h2 _ _) | exact absurd rfl (h3 _ _ _))
    (fun s k' => SMap.get?_insert ..) hs (fun o' e => by cases e; exact ⟨rfl, rfl⟩) h
theorem removeOrder_on {k : Int × Nat} {owner : Addr} {tick : Int} (hs : SameIndex s k owner tick) (h : ∀ c ∈ orderCells k owner tick, c ∈ S0) :
    UsesOn sview (· ∈ S0) (removeOrder k) s :=
  orderWrite_on (n := none) (fun s c h1 h2 h3 => by cases c <;> first | rfl | exact absurd rfl (h1 _) | exact absurd rfl (h2 _ _) | exact absurd rfl (h3 _ _ _))
    (fun s k' => SMap.get?_erase ..) hs (fun o' e => by cases e) h

end

/-- A tree operation within the store. -/
theorem liftTree_uses {α : Type} {k : Nat} {x : TM α} {s : Store} (h : TUses k x s.trees) : Uses sview k (liftTree x) s := by
  obtain ⟨S, h1, h2⟩ := h
  refine ⟨S, h1, fun s' ha => ?_⟩
  have h3 := h2 s'.trees fun c hc => tree_of_view (ha c hc)
  have aft : ∀ t t', After treeView (· ∈ S) s.trees s'.trees t t' → After sview (· ∈ S) s s' { s with trees := t } { s' with trees := t' } := by
    intro t t' h
    refine ⟨fun c hc => ?_, fun c hc => ?_⟩
    · have h4 := h.1 c hc
      have h5 := ha c hc
      cases c <;> first | exact h4 | exact h5
    · obtain ⟨h4, h5⟩ := h.2 c hc
      cases c <;> first | exact ⟨h4, h5⟩ | exact ⟨rfl, rfl⟩
  unfold liftTree
  revert h3
  cases x s.trees <;> cases x s'.trees <;> simp only [Matches]
  · exact fun h => ⟨h.1, aft _ _ h.2⟩
  · exact id
  · exact id
  · exact fun h => ⟨h.1, aft _ _ h.2⟩

end OB
