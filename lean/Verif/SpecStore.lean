import Verif.Model.Storage
/- What it means that the raw key-value storage holds a typed store (C69-C71). -/
namespace OB.Spec

/-- Tick ids are `i64`. -/
def TickOk (t : Int) : Prop := -(2 ^ 63 : Int) ≤ t ∧ t < 2 ^ 63
/-- Order and node ids are `u64`. -/
def IdOk (i : Nat) : Prop := i < 2 ^ 64
/-- Addresses are shorter than 2^16 bytes (the storage library cannot build longer key parts). -/
def AddrOk (a : Addr) : Prop := a.toByteArray.size < 2 ^ 16

/-- `Decimal256` and `Uint256` values (atomics). -/
def DecOk (x : Nat) : Prop := x < U256
/-- `Uint128` values. -/
def AmountOk (x : Nat) : Prop := x < U128
/-- The numbers of one side of a tick are `Decimal256` values. -/
def ValuesOk (v : TickValues) : Prop := DecOk v.tal ∧ DecOk v.ctv ∧ DecOk v.etas ∧ DecOk v.crc ∧ DecOk v.lastSync
/-- Both sides of a tick. -/
def TickStateOk (x : TickState) : Prop := ValuesOk x.askValues ∧ ValuesOk x.bidValues
/-- The fields of an order are values of their Rust types. -/
def OrderOk (o : LimitOrder) : Prop := TickOk o.tickId ∧ IdOk o.orderId ∧ AddrOk o.owner ∧ AmountOk o.quantity ∧ DecOk o.etas ∧
  (∀ b ∈ o.claimBounty, DecOk b) ∧ AmountOk o.placedQuantity ∧ IdOk o.placedAt
/-- The fields of the orderbook's record are values of their Rust types. -/
def BookOk (b : Orderbook) : Prop := TickOk b.currentTick ∧ TickOk b.nextBidTick ∧ TickOk b.nextAskTick
/-- The contents of a tree node are values of their Rust types. -/
def NodeTypeOk : NodeType → Prop
  | .leaf value etas => DecOk value ∧ DecOk etas
  | .internal acc lo hi weight => DecOk acc ∧ DecOk lo ∧ DecOk hi ∧ IdOk weight
/-- The fields of a tree node are values of their Rust types. -/
def NodeOk (n : TreeNode) : Prop := TickOk n.tickId ∧ IdOk n.key ∧ (∀ i ∈ n.left, IdOk i) ∧ (∀ i ∈ n.right, IdOk i) ∧
  (∀ i ∈ n.parent, IdOk i) ∧ NodeTypeOk n.ntype

/-- A cell whose key parts are values of their Rust types. -/
def CellOk : Cell → Prop
  | .tick t => TickOk t
  | .order k => TickOk k.1 ∧ IdOk k.2
  | .ownerIdx a k => AddrOk a ∧ TickOk k.1 ∧ IdOk k.2
  | .tickOwnerIdx t a k => TickOk t ∧ AddrOk a ∧ TickOk k.1 ∧ IdOk k.2
  | .node t i => TickOk t ∧ IdOk i
  | .root t _ => TickOk t
  | .counter t => TickOk t
  | _ => True

/-- The raw storage `r` holds exactly the cell contents `F`: its keys are sorted and are keys of cells, and every cell holds its content. -/
structure HoldsCells (r : Raw) (F : Cell → Option Val) : Prop where
  sorted : SMap.Sorted r
  cells : ∀ k v, (k, v) ∈ r → ∃ c, CellOk c ∧ k = c.key
  load : ∀ c, CellOk c → r.load c = F c

/-- The raw storage `r` holds exactly the typed store `s`, and `info` in cw2's cell. -/
def Holds (info : Option Val) (r : Raw) (s : Store) : Prop := HoldsCells r (s.cell info)

/-- Every nonempty cell of the typed store has a key of the right type. -/
def StoreOk (s : Store) : Prop := ∀ c, s.cell none c ≠ none → CellOk c

/-- One storage write of the contract. -/
inductive Write where
  | orderId (n : Nat)
  | orderbook (b : Orderbook)
  | isActive (b : Bool)
  | makerFee (x : Nat)
  | makerFeeRecipient (a : Addr)
  | admin (a : Option Addr)
  | adminOffer (a : Option Addr)
  | moderator (a : Option Addr)
  | moderatorOffer (a : Option Addr)
  | tick (t : Int) (x : TickState)
  | dirLiq (d : Dir) (x : Nat)
  | saveOrder (k : Int × Nat) (o : LimitOrder)
  | removeOrder (k : Int × Nat)
  | node (n : TreeNode)
  | dropNode (t : Int) (id : Nat)
  | root (t : Int) (d : Dir) (id : Nat)
  | counter (t : Int) (n : Nat)

/-- Its effect on the typed store. -/
def Write.apply (s : Store) : Write → Store
  | .orderId n => { s with orderId := some n }
  | .orderbook b => { s with orderbook := some b }
  | .isActive b => { s with isActive := some b }
  | .makerFee x => { s with makerFee := some x }
  | .makerFeeRecipient a => { s with makerFeeRecipient := some a }
  | .admin a => { s with admin := a }
  | .adminOffer a => { s with adminOffer := a }
  | .moderator a => { s with moderator := a }
  | .moderatorOffer a => { s with moderatorOffer := a }
  | .tick t x => { s with ticks := s.ticks.insert t x }
  | .dirLiq d x => { s with dirLiq := fun d' => if d' = d then some x else s.dirLiq d' }
  | .saveOrder k o => { s with orders := s.orders.insert k o }
  | .removeOrder k => { s with orders := s.orders.erase k }
  | .node n => { s with trees := { s.trees with nodes := fun t k => if t = n.tickId ∧ k = n.key then some n else s.trees.nodes t k } }
  | .dropNode t i => { s with trees := { s.trees with nodes := fun t' k => if t' = t ∧ k = i then none else s.trees.nodes t' k } }
  | .root t d i => { s with trees := { s.trees with roots := fun t' d' => if t' = t ∧ d' = d then some i else s.trees.roots t' d' } }
  | .counter t n => { s with trees := { s.trees with counter := fun t' => if t' = t then some n else s.trees.counter t' } }

/-- An optional `Item`: saved or removed. -/
def optCell (r : Raw) (c : Cell) : Option Addr → Raw
  | some a => r.save c (.addr a)
  | none => r.remove c

/-- Its effect on the raw storage. -/
def Write.raw (r : Raw) : Write → Raw
  | .orderId n => r.save .orderId (.nat n)
  | .orderbook b => r.save .orderbook (.book b)
  | .isActive b => r.save .isActive (.bool b)
  | .makerFee x => r.save .makerFee (.nat x)
  | .makerFeeRecipient a => r.save .makerFeeRecipient (.addr a)
  | .admin a => optCell r .admin a
  | .adminOffer a => optCell r .adminOffer a
  | .moderator a => optCell r .moderator a
  | .moderatorOffer a => optCell r .moderatorOffer a
  | .tick t x => r.save (.tick t) (.tick x)
  | .dirLiq d x => r.save (.dirLiq d) (.nat x)
  | .saveOrder k o => r.saveOrder k o
  | .removeOrder k => r.removeOrder k
  | .node n => r.save (.node n.tickId n.key) (.node n)
  | .dropNode t i => r.remove (.node t i)
  | .root t d i => r.save (.root t d) (.nat i)
  | .counter t n => r.save (.counter t) (.nat n)

/-- The write's key parts and the written value are values of their Rust types. -/
def Write.Ok : Write → Prop
  | .orderId n => IdOk n
  | .orderbook b => BookOk b
  | .makerFee x => DecOk x
  | .tick t x => TickOk t ∧ TickStateOk x
  | .dirLiq _ x => DecOk x
  | .saveOrder k o => TickOk k.1 ∧ IdOk k.2 ∧ OrderOk o
  | .removeOrder k => TickOk k.1 ∧ IdOk k.2
  | .node n => NodeOk n
  | .dropNode t i => TickOk t ∧ IdOk i
  | .root t _ i => TickOk t ∧ IdOk i
  | .counter t n => TickOk t ∧ IdOk n
  | _ => True

/-- The environment hands over values of the Rust types: senders are addresses (no other address becomes part of a storage key) and
block times are `u64` nanoseconds. -/
def OpsOk (ops : List Op) : Prop := ∀ op ∈ ops, match op with | .execute a _ time _ => AddrOk a ∧ IdOk time | _ => True

/-- Bounds of a query over ticks, order ids or both are values of their Rust types. -/
def BoundsOk {K : Type} (ok : K → Prop) (lo hi : Option K) : Prop := (∀ x, lo = some x → ok x) ∧ ∀ x, hi = some x → ok x

/-- The filter of `get_orders_by_owner` is made of values of the Rust types. -/
def FilterOk : FilterOwnerOrders → Prop
  | .all a => AddrOk a
  | .byTick t a => TickOk t ∧ AddrOk a

end OB.Spec
