import Verif.Proofs.Writes
import Verif.SpecStore
import Verif.Props.Answers
/- C69-C71: the key-value storage under the contract. -/
namespace OB
open Spec

/-! ### C69: keys -/

/-- C69: two storage cells of the contract (items, map entries, index entries, over all namespaces, ticks, ids and addresses) never
share a key. -/
theorem C69_keys_distinct {c c' : Cell} (hc : CellOk c) (hc' : CellOk c') : c.key = c'.key ↔ c = c' :=
  ⟨Cell.key_inj hc hc', fun h => by rw [h]⟩

/-- C69: the byte order of the keys of ticks, orders of a tick, and index entries of an owner is the numeric order of the ticks and ids. -/
theorem C69_key_order :
    (∀ t t', TickOk t → TickOk t' → (bytesLt (Cell.tick t).key (Cell.tick t').key = true ↔ t < t')) ∧
    (∀ k k', CellOk (.order k) → CellOk (.order k') →
      (bytesLt (Cell.order k).key (Cell.order k').key = true ↔ k.1 < k'.1 ∨ k.1 = k'.1 ∧ k.2 < k'.2)) ∧
    (∀ a k k', CellOk (.order k) → CellOk (.order k') →
      (bytesLt (Cell.ownerIdx a k).key (Cell.ownerIdx a k').key = true ↔ k.1 < k'.1 ∨ k.1 = k'.1 ∧ k.2 < k'.2)) ∧
    (∀ t a k k', CellOk (.order k) → CellOk (.order k') →
      (bytesLt (Cell.tickOwnerIdx t a k).key (Cell.tickOwnerIdx t a k').key = true ↔ k.1 < k'.1 ∨ k.1 = k'.1 ∧ k.2 < k'.2)) := by
  have hpk : ∀ k k' : Int × Nat, CellOk (.order k) → CellOk (.order k') →
      (bytesLt (pkBytes k) (pkBytes k') = true ↔ k.1 < k'.1 ∨ k.1 = k'.1 ∧ k.2 < k'.2) := by
    intro k k' hk hk'
    rw [pkBytes_lt hk.1 hk.2 hk'.1 hk'.2]
    show (decide (k.1 < k'.1) || (decide (k.1 = k'.1) && decide (k.2 < k'.2))) = true ↔ _
    simp only [Bool.or_eq_true, Bool.and_eq_true, decide_eq_true_eq]
  refine ⟨fun t t' ht ht' => ?_, fun k k' hk hk' => ?_, fun a k k' hk hk' => ?_, fun t a k k' hk hk' => ?_⟩
  · simp only [Cell.key]
    rw [withKey_append _ (i64Bytes t), withKey_append _ (i64Bytes t'), bytesLt_append, i64Bytes_lt ht ht', decide_eq_true_eq]
  · rw [← hpk k k' hk hk']
    simp only [Cell.key, withKey_cons, bytesLt_append, pkBytes]
  · rw [← hpk k k' hk hk']
    simp only [Cell.key]
    rw [withKey_append _ (pkBytes k), withKey_append _ (pkBytes k'), bytesLt_append]
  · rw [← hpk k k' hk hk']
    simp only [Cell.key]
    rw [withKey_append _ (pkBytes k), withKey_append _ (pkBytes k'), bytesLt_append]

/-- Non-vacuity: real keys, a negative tick before a positive one. -/
example : (Cell.tick (-1)).key = [0, 10] ++ strBytes "tick_state" ++ [127, 255, 255, 255, 255, 255, 255, 255] ∧
    (Cell.tick 1).key = [0, 10] ++ strBytes "tick_state" ++ [128, 0, 0, 0, 0, 0, 0, 1] ∧
    bytesLt (Cell.tick (-1)).key (Cell.tick 1).key = true ∧
    (Cell.ownerIdx "bob" (10, 3)).key = [0, 12] ++ strBytes "orders_owner" ++ [0, 3, 98, 111, 98] ++ [0, 8, 128, 0, 0, 0, 0, 0, 0, 10] ++
      [0, 0, 0, 0, 0, 0, 0, 3] := by decide +kernel

/-! ### C71: writes -/

/-- C71: every storage write of the contract (an `Item` or `Map` save or removal, or an `IndexedMap` save or removal with its index
updates) does to the raw storage what it does to the typed store: reads of every other cell are unchanged, both indexes list exactly
the stored orders. -/
theorem C71_write {info : Option Val} {r : Raw} {s : Store} (h : Holds info r s) (hs : StoreOk s) {w : Write} (hw : w.Ok) :
    Holds info (w.raw r) (w.apply s) ∧ StoreOk (w.apply s) := ⟨Write.holds h hs hw, Write.cells_ok hs hw⟩

theorem runSubMsgs_store {ch : Chain} {w w' : World} {l : List SendMsg} (h : runSubMsgs ch w l = .ok w') : w'.store = w.store := by
  induction l generalizing w with
  | nil => cases h; rfl
  | cons m l ih =>
    unfold runSubMsgs at h
    split at h
    · next b _ => exact ih (w := ⟨w.store, b⟩) h
    · split at h
      · cases h
      · next hr => exact absurd hr (by intro hh; cases hh)

theorem runTx_writes {ch : Chain} {w w' : World} {bank : Bank} {x : M Response} {resp : Response} (hx : MActs (fun _ => True) x)
    (hs : StOk w.store) (h : runTx ch w bank x = .ok (w', resp)) :
    ∃ ws : List Write, (∀ a ∈ ws, a.Ok) ∧ w'.store = ws.foldl Write.apply w.store ∧ StOk w'.store := by
  unfold runTx at h
  obtain ⟨ws, h1, h2, h3, -⟩ := hx w.store hs
  split at h
  · cases h
  · next r s hxs =>
    rw [hxs] at h2 h3
    split at h
    · cases h
    · next w'' hsub =>
      cases h
      rw [runSubMsgs_store hsub]
      exact ⟨ws, h1, h2, h3⟩

theorem step_writes {ch : Chain} {w w' : World} {op : Op} {resp : Response} (ha : match op with | .execute a _ time _ => AddrOk a ∧ IdOk time | _ => True)
    (hs : StOk w.store) (h : step ch w op = .ok (w', resp)) :
    ∃ ws : List Write, (∀ a ∈ ws, a.Ok) ∧ w'.store = ws.foldl Write.apply w.store ∧ StOk w'.store := by
  have hsame : w'.store = w.store → ∃ ws : List Write, (∀ a ∈ ws, a.Ok) ∧ w'.store = ws.foldl Write.apply w.store ∧ StOk w'.store :=
    fun e => ⟨[], by simp, e, e ▸ hs⟩
  cases op with
  | execute a funds time msg =>
    simp only [step] at h
    split at h
    · cases h
    · split at h
      · cases h
      · next hwt =>
        rw [Except.bind_eq_ok'] at h
        obtain ⟨bank, _, h⟩ := h
        exact runTx_writes (macts_execute (by simpa using hwt) ha.1 ha.2) hs h
  | «sudo» time msg =>
    simp only [step] at h
    split at h
    · cases h
    · split at h
      · exact runTx_writes macts_sudo hs h
      · split at h
        · cases h
        · rw [Except.bind_eq_ok'] at h
          obtain ⟨bank, _, h⟩ := h
          exact runTx_writes macts_sudo hs h
  | migrate =>
    simp only [step] at h
    exact runTx_writes (x := migrate) (Acts.pure trivial) hs h
  | transfer src dst c =>
    simp only [step] at h
    split at h
    · cases h
    · rw [Except.bind_eq_ok'] at h
      obtain ⟨bank, _, h⟩ := h
      cases h
      exact hsame rfl
  | mint dst c =>
    cases h
    exact hsame rfl

/-- `s` comes from the empty storage by well-typed writes. -/
def Written (s : Store) : Prop := StOk s ∧ ∃ ws : List Write, (∀ a ∈ ws, a.Ok) ∧ s = ws.foldl Write.apply Store.empty

theorem stOk_empty : StOk Store.empty where
  trees := ⟨fun _ _ _ h => (by cases h), fun _ _ _ h => (by cases h), fun _ _ h => (by cases h)⟩
  orders := fun _ _ h => (by cases h)
  ticks := fun _ _ h => (by cases h)
  orderId := fun _ h => (by cases h)
  book := fun _ h => (by cases h)
  liq := fun _ _ h => (by cases h)
  fee := fun _ h => (by cases h)

theorem initial_written {ch : Chain} {w : World} (h : Initial ch w) : Written w.store := by
  obtain ⟨time, supply, quote, base, resp, h⟩ := h
  obtain ⟨ws, h1, h2, h3, -⟩ := macts_instantiate (env := ch.env time) (supply := supply) (quote := quote) (base := base) Store.empty stOk_empty
  rw [h] at h2 h3
  exact ⟨h3, ws, h1, h2⟩

theorem run_written {ch : Chain} {w : World} (h : Written w.store) {ops : List Op} (ho : OpsOk ops) : Written (run ch w ops).store := by
  induction ops generalizing w with
  | nil => exact h
  | cons op ops ih =>
    unfold run
    rw [List.foldl_cons]
    refine ih ?_ fun o hm => ho o (by simp [hm])
    unfold apply
    split
    · next w' resp hs =>
      obtain ⟨h1, ws, h2, h3⟩ := h
      obtain ⟨ws', g1, g2, g3⟩ := step_writes (ho op (by simp)) h1 hs
      refine ⟨g3, ws ++ ws', fun a hm => ?_, ?_⟩
      · rcases List.mem_append.1 hm with hm | hm
        · exact h2 a hm
        · exact g1 a hm
      · rw [g2, h3, List.foldl_append]
    · exact h

theorem holds_empty (info : Option Val) : ∃ r, Holds info r Store.empty := by
  have h0 : Holds none [] Store.empty := ⟨List.Pairwise.nil, fun _ _ h => (by cases h), fun c _ => (by cases c <;> rfl)⟩
  cases info with
  | none => exact ⟨_, h0⟩
  | some v =>
    exact ⟨_, HoldsCells.congr (HoldsCells.save h0 (c := .contractInfo) trivial v) fun c _ => by cases c <;> rfl⟩

theorem storeOk_empty : StoreOk Store.empty := fun c hne => by cases c <;> first | trivial | exact absurd rfl hne

theorem writes_sorted (ws : List Write) {s : Store} (h : SMap.Sorted s.ticks ∧ SMap.Sorted s.orders) :
    SMap.Sorted (ws.foldl Write.apply s).ticks ∧ SMap.Sorted (ws.foldl Write.apply s).orders := by
  induction ws generalizing s with
  | nil => exact h
  | cons w ws ih =>
    rw [List.foldl_cons]
    apply ih
    cases w <;> first
      | exact h
      | exact ⟨h.1.insert _ _, h.2⟩
      | exact ⟨h.1, h.2.insert _ _⟩
      | exact ⟨h.1, h.2.erase _⟩

theorem Written.facts {s : Store} (h : Written s) (info : Option Val) :
    StoreOk s ∧ SMap.Sorted s.ticks ∧ SMap.Sorted s.orders ∧ ∃ r, Holds info r s := by
  obtain ⟨-, ws, hw, rfl⟩ := h
  obtain ⟨r0, hr0⟩ := holds_empty info
  obtain ⟨h1, h2⟩ := writes_holds hr0 storeOk_empty ws hw
  obtain ⟨h3, h4⟩ := writes_sorted ws (s := Store.empty) ⟨List.Pairwise.nil, List.Pairwise.nil⟩
  exact ⟨h2, h3, h4, _, h1⟩

/-- C71: a transaction changes the raw storage by a sequence of such writes: if the raw storage holds the contract's state before, the
storage after these writes holds the state after, with nothing else in it. -/
theorem C71_transaction {ch : Chain} {w0 : World} (hi : Initial ch w0) {ops : List Op} (ho : OpsOk ops) {info : Option Val} {r : Raw}
    (hr : Holds info r (run ch w0 ops).store) {op : Op} (hop : OpsOk [op]) {w' : World} {resp : Response}
    (hs : step ch (run ch w0 ops) op = .ok (w', resp)) :
    ∃ ws : List Write, (∀ a ∈ ws, a.Ok) ∧ w'.store = ws.foldl Write.apply (run ch w0 ops).store ∧
      Holds info (ws.foldl Write.raw r) w'.store := by
  have hw := run_written (ch := ch) (initial_written hi) ho
  obtain ⟨ws, h1, h2, -⟩ := step_writes (hop op (by simp)) hw.1 hs
  exact ⟨ws, h1, h2, h2 ▸ (writes_holds hr (hw.facts info).1 ws h1).1⟩

/-! ### C70: what the storage answers -/

/-- C70: after any history there is exactly one raw storage holding the contract's state (and cw2's record). -/
theorem C70_storage {ch : Chain} {w0 : World} (hi : Initial ch w0) {ops : List Op} (ho : OpsOk ops) (info : Option Val) :
    ∃ r, Holds info r (run ch w0 ops).store ∧ ∀ r', Holds info r' (run ch w0 ops).store → r' = r := by
  obtain ⟨-, -, -, r, hr⟩ := (run_written (ch := ch) (initial_written hi) ho).facts info
  exact ⟨r, hr, fun r' hr' => hr'.unique hr⟩

/-- C70: iterating that storage in byte order gives the answers of the typed model: all ticks between two bounds, the tick sequence of a
market order (in both directions, with the stored states), a tick's orders, and an owner's orders through the indexes, paged alike. -/
theorem C70_iteration {ch : Chain} {w0 : World} (hi : Initial ch w0) {ops : List Op} (ho : OpsOk ops) {info : Option Val} {r : Raw}
    (hr : Holds info r (run ch w0 ops).store) :
    let s := (run ch w0 ops).store
    (∀ lo up limit, BoundsOk TickOk lo up → r.allTicks lo up limit = some (allTicks s lo up limit)) ∧
    (∀ lo up desc, TickOk lo → TickOk up →
      ∃ l, r.tickRange lo up desc = some l ∧ l.map Prod.fst = tickKeys s lo up desc ∧ ∀ t x, (t, x) ∈ l → SMap.get? s.ticks t = some x) ∧
    (∀ tick lo up limit, TickOk tick → BoundsOk IdOk lo up → r.ordersByTick tick lo up limit = some (ordersByTick s tick lo up limit)) ∧
    (∀ f lo up size, FilterOk f → BoundsOk (fun k : Int × Nat => TickOk k.1 ∧ IdOk k.2) lo up →
      r.getOrdersByOwner f lo up size = getOrdersByOwner s f lo up size) ∧
    (∀ owner lo up size, AddrOk owner → BoundsOk (fun k : Int × Nat => TickOk k.1 ∧ IdOk k.2) lo up →
      r.ordersByOwner owner lo up size = ordersByOwner s owner lo up size) := by
  intro s
  obtain ⟨h1, h2, h3, -⟩ := (run_written (ch := ch) (initial_written hi) ho).facts info
  refine ⟨fun lo up limit hb => raw_allTicks hr h1 h2 lo up limit hb.1 hb.2, fun lo up desc hlo hup => ?_,
    fun tick lo up limit ht hb => raw_ordersByTick hr h1 h3 tick ht lo up limit hb.1 hb.2,
    fun f lo up size hf hb => raw_getOrdersByOwner hr h1 h3 f (by cases f <;> exact hf) lo up size hb.1 hb.2,
    fun owner lo up size ha hb => raw_ordersByOwner hr h1 h3 owner ha lo up size hb.1 hb.2⟩
  obtain ⟨g1, g2⟩ := raw_tickRange hr h1 h2 lo up desc hlo hup
  obtain ⟨l, hl, hk⟩ := Option.map_eq_some_iff.1 g1
  exact ⟨l, hl, hk, g2 l hl⟩

/-- The senders of the demo are addresses and its times are `u64`. -/
theorem Demo.opsOk : OpsOk Demo.longer := by
  have h : (Demo.longer.all fun op => match op with | .execute a _ t _ => decide (a.toByteArray.size < 2 ^ 16 ∧ t < 2 ^ 64) | _ => true) = true := by
    decide +kernel
  intro op hop
  have := List.all_eq_true.1 h op hop
  split
  · unfold AddrOk IdOk; exact of_decide_eq_true this
  · trivial

/-- Non-vacuity: the raw storage after the demo history exists, and its owner index lists dave's order with the stored amounts. -/
example : ∃ r, Holds (some (.nat 7)) r (run Demo.ch Demo.w0 Demo.longer).store ∧ r.load .contractInfo = some (.nat 7) ∧
    r.getOrdersByOwner (.all "dave") none none none = [⟨0, 3, .bid, "dave", 40000, 260000 * 10 ^ 18, some (10 ^ 16), 100000, 7⟩] ∧
    (r.allTicks none none none).map (List.map Prod.fst) = some [-5000000, 0, 10] := by
  obtain ⟨r, hr, -⟩ := C70_storage Demo.initial Demo.opsOk (some (.nat 7))
  refine ⟨r, hr, hr.load .contractInfo trivial, ?_, ?_⟩
  · rw [(C70_iteration Demo.initial Demo.opsOk hr).2.2.2.1 (.all "dave") none none none (by show _ < _; decide)
      ⟨fun _ h => (by cases h), fun _ h => (by cases h)⟩]
    decide +kernel
  · rw [(C70_iteration Demo.initial Demo.opsOk hr).1 none none none ⟨fun _ h => (by cases h), fun _ h => (by cases h)⟩]
    decide +kernel

/-- Non-vacuity: a raw storage after two saves of the same order under different owners (the index entry of the old owner is gone) and
an order at a negative tick. -/
example :
    let o : LimitOrder := ⟨-3, 1, .bid, "alice", 5, 0, none, 5, 0⟩
    let r := [Write.saveOrder (-3, 1) o, .saveOrder (-3, 1) { o with owner := "bob" }, .saveOrder (2, 0) { o with tickId := 2, orderId := 0, owner := "bob" }].foldl
      Write.raw ([] : Raw)
    r.length = 6 ∧ r.getOrdersByOwner (.all "alice") none none none = [] ∧
      (r.getOrdersByOwner (.all "bob") none none none).map (·.tickId) = [-3, 2] ∧
      (r.getOrdersByOwner (.byTick 2 "bob") none none none).map (·.orderId) = [0] := by decide +kernel

end OB
