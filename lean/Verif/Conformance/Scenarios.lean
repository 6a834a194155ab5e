import Verif.Conformance.Harness
import Verif.Model.Query
/- Straight-line tests: tests/test_order.rs test_cancelled_orders and tests/test_state.rs -/
namespace OB.Conf

/-- `f(..).unwrap_err() == e` inside a longer test -/
def failsWith {α : Type} (x : M α) (e : Err) : M Unit := fun s =>
  match x s with
  | .err e' s => if e' = e then .ok () s else .err .panic s
  | .ok _ s => .err .panic s

/-- `assert!(..)` inside a longer test -/
def check (p : Store → Bool) : M Unit := do
  let s ← EM.get
  EM.ensure (p s) .panic

/-- every test operation here is run by "sender" -/
def go (o : TOp) : M Unit := o.run "sender"

/-- one after the other -/
def forAll {α : Type} (l : List α) (f : α → M Unit) : M Unit :=
  match l with
  | [] => pure ()
  | x :: l => do
    f x
    forAll l f

/-- test_order.rs:4244-4310 test_cancelled_orders -/
def cancelledOrders : M Unit := do
  createOrderbook env supply QUOTE BASE
  forAll (List.range 10) fun i => do
    go (.place 0 .bid "sender" 2 none)
    if i % 3 ≠ 0 then go (.cancel 0 i) else pure ()
  -- the tree drawn at test_order.rs:4262-4270: root, its children and their values and ranges
  check fun s => decide (s.trees.roots 0 .bid = some 5)
  check fun s => decide (s.trees.nodes 0 5 = some ⟨5, 0, .bid, some 1, some 9, none, .internal (12 * D) (2 * D) (18 * D) 4⟩)
  check fun s => decide (s.trees.nodes 0 1 = some ⟨1, 0, .bid, some 2, some 3, some 5, .internal (4 * D) (2 * D) (6 * D) 2⟩)
  check fun s => decide (s.trees.nodes 0 9 = some ⟨9, 0, .bid, some 7, some 11, some 5, .internal (8 * D) (8 * D) (18 * D) 3⟩)
  check fun s => decide (s.trees.nodes 0 7 = some ⟨7, 0, .bid, some 4, some 6, some 9, .internal (4 * D) (8 * D) (12 * D) 2⟩)
  check fun s => decide (s.trees.nodes 0 11 = some ⟨11, 0, .bid, some 8, some 10, some 9, .internal (4 * D) (14 * D) (18 * D) 2⟩)
  check fun s => decide (s.trees.nodes 0 10 = some ⟨10, 0, .bid, none, none, some 11, .leaf (2 * D) (16 * D)⟩)
  failsWith (go (.claim 0 9)) .zeroClaim
  go (.place 0 .bid "sender" 2 none)
  go (.runMarket ⟨7, .ask, "sender"⟩)
  forAll [9, 3, 6, 0] fun id => do
    failsWith (go (.cancel 0 id)) .cancelFilledOrder
    go (.claim 0 id)
    if id = 9 then go (.cancel 0 id) else pure ()
  failsWith (go (.claim 0 10)) .zeroClaim
  go (.cancel 0 10)
  forAll (List.range 10) fun i => check fun s => (s.orders.get? ((0 : Int), i)).isNone
  check fun s => decide ((s.ticks.get? (0 : Int)).map (·.getValues .bid) = some ⟨0, 22 * D, 19 * D, 12 * D, 19 * D⟩)

/-- test_order.rs:4243-4310 -/
theorem cancelled_orders_pass : (onOk (cancelledOrders Store.empty) fun _ _ => true) = true := by decide +kernel

/-- test_state.rs:6-13 test_order_id_works -/
theorem order_id_works_pass :
    (onOk ((do let a ← newOrderId; let b ← newOrderId; pure (a, b) : M (Nat × Nat)) Store.empty) fun p _ =>
      decide (p = (0, 1))) = true := by decide +kernel

/-- test_state.rs:15-38 test_tick_iteration: iteration is in the order of the ids, negative ones first (saved here in two
interleaved passes, which the map must undo) -/
theorem tick_iteration_pass :
    (onOk ((do
        forAll ((List.range 50).map fun (i : Nat) => (49 - i : Int)) fun i => saveTick i .default
        forAll ((List.range 50).map fun (i : Nat) => (i : Int) - 50) fun i => saveTick i .default : M Unit) Store.empty)
      fun _ s => decide (s.ticks.map Prod.fst = (List.range 100).map fun (i : Nat) => (i : Int) - 50)) = true := by
  decide +kernel

/-- the orders saved by tests/test_state.rs: `id`-th order on tick `tick` for `owner` -/
def saveNew (tick : Int) (owner : Addr) : M Unit := do
  let id ← newOrderId
  saveOrder (tick, id) ⟨tick, id, .ask, owner, id, 0, none, id, 0⟩

/-- test_state.rs:40-71 test_order_iteration (ascending) -/
theorem order_iteration_pass :
    (onOk (forAll (List.range 50) (fun i => saveNew 0 s!"maker{i}") Store.empty) fun _ s =>
      decide ((s.orders.map fun p => p.2.orderId) = List.range 50)) = true := by decide +kernel

/-- test_state.rs:74-108 test_get_orders_by_owner_all (the owner of order 1 is "owner1", too) -/
theorem orders_by_owner_all_pass :
    (onOk (forAll (List.range 10) (fun i => saveNew 0 (if i % 2 = 0 then "owner1" else s!"owner{i}")) Store.empty) fun _ s =>
      let l := getOrdersByOwner s (.all "owner1") none none none
      decide (l.length = 6) && l.all fun o => decide (o.owner = "owner1")) = true := by decide +kernel

/-- test_state.rs:148-189 test_get_orders_by_owner_by_tick -/
theorem orders_by_owner_by_tick_pass :
    (onOk (forAll (List.range 100)
        (fun i => saveNew ((i % 3 : Nat) : Int) (if i % 2 = 0 then "owner1" else s!"owner{i}")) Store.empty) fun _ s =>
      [0, 1, 2].all fun t =>
        let l := getOrdersByOwner s (.byTick t "owner1") none none none
        decide (l ≠ []) && l.all fun o => decide (o.owner = "owner1" ∧ o.tickId = t)) = true := by decide +kernel

/-- the loop of test_state.rs:217-246: the number of orders fetched and of pages -/
def pages (s : Store) : Nat → Option (Int × Nat) → Nat × Nat
  | 0, _ => (0, 0)
  | fuel + 1, start =>
    let l := getOrdersByOwner s (.all "owner1") start none (some 8)
    match l.getLast? with
    | none => (0, 0)
    | some o =>
      let r := pages s fuel (some (o.tickId, o.orderId + 1))
      (r.1 + l.length, r.2 + 1)

/-- test_state.rs:192-253 test_get_orders_by_owner_with_pagination -/
theorem orders_by_owner_with_pagination_pass :
    (onOk (forAll (List.range 100) (fun i => saveNew ((i % 3 : Nat) : Int) "owner1") Store.empty) fun _ s =>
      decide (pages s 20 none = (100, 13))) = true := by decide +kernel

end OB.Conf
