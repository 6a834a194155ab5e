import Verif.Conformance.Harness
/- The loops of tests/test_order.rs -/
namespace OB.Conf

/-- test_order.rs:24-32 -/
structure PlaceCase where
  tick : Int
  quantity : Nat
  sent : Nat
  dir : Dir
  bounty : Option Nat
  err : Option Err

/-- test_order.rs:197-348 -/
def PlaceCase.run (c : PlaceCase) : Bool :=
  onOk (setup "owner" [] Store.empty) fun _ s =>
    let r := placeLimit env ⟨"owner", [⟨denomOf c.dir, c.sent⟩]⟩ c.tick c.dir c.quantity c.bounty s
    match c.err with
    | some e => onErr r e fun s' =>
        (s'.orders.get? (c.tick, 0)).isNone && decide (((tickOf s' c.tick).getValues c.dir).tal = 0)
    | none => onOk r fun resp s' =>
        decide (resp.events = [.placeLimit "owner" c.tick 0 c.dir c.quantity (denomOf c.dir) (denomOf c.dir.opposite)]) &&
        decide (s'.orders.get? (c.tick, 0) = some ⟨c.tick, 0, c.dir, "owner", c.quantity, 0, c.bounty, c.quantity, env.time⟩) &&
        decide ((tickOf s' c.tick).getValues c.dir = ⟨c.quantity * D, c.quantity * D, 0, 0, 0⟩)

/-- test_order.rs:351-361 -/
structure CancelCase where
  tick : Int
  id : Nat
  dir : Dir
  quantity : Nat
  placeOrder : Bool
  err : Option Err
  owner : Addr
  sender : Option Addr
  sent : List Coin

/-- test_order.rs:421-627 -/
def CancelCase.run (c : CancelCase) : Bool :=
  onOk (setup c.owner [] Store.empty) fun _ s =>
  onOk ((if c.placeOrder then do
      let _ ← placeLimit env ⟨c.owner, [⟨BASE, c.quantity⟩]⟩ c.tick c.dir c.quantity none
      pure ()
    else pure () : M Unit) s) fun _ s =>
    let r := cancelLimit env ⟨c.sender.getD c.owner, c.sent⟩ c.tick c.id s
    match c.err with
    | some e => onErr r e fun s' =>
        decide ((s'.orders.get? (c.tick, c.id)).isSome = c.placeOrder) &&
        decide (((tickOf s' c.tick).getValues c.dir).tal = if c.placeOrder then c.quantity * D else 0)
    | none => onOk r fun resp s' =>
        decide (resp.events = [.cancelLimit c.owner c.tick c.id c.quantity c.dir c.quantity (denomOf c.dir) (denomOf c.dir.opposite)]) &&
        decide (resp.msgs = [⟨c.owner, ⟨denomOf c.dir, c.quantity⟩, REPLY_ID_REFUND⟩]) &&
        (s'.orders.get? (c.tick, 0)).isNone &&
        decide (((tickOf s' c.tick).getValues c.dir).tal = 0) &&
        -- the tree: root 1 over leaf 2
        decide (s'.trees.roots c.tick c.dir = some 1) &&
        decide (s'.trees.nodes c.tick 1 =
          some ⟨1, c.tick, c.dir, some 2, none, none, .internal (c.quantity * D) 0 (c.quantity * D) 2⟩) &&
        decide (s'.trees.nodes c.tick 2 = some ⟨2, c.tick, c.dir, none, none, some 1, .leaf (c.quantity * D) 0⟩)

/-- test_order.rs:630-639; an order to fill against is (tick, direction, quantity) -/
structure MarketCase where
  order : MarketOrder
  bound : Int
  orders : List (Int × Dir × Nat)
  output : Nat
  etas : List (Int × Nat)
  pointers : List (Dir × Int)
  err : Option Err

/-- `place_multiple_limit_orders` -/
def placeList (owner : Addr) : List (Int × Dir × Nat) → M Unit
  | [] => pure ()
  | (t, d, q) :: l => do
    place owner t d q none
    placeList owner l

/-- test_order.rs:892-1004 -/
def MarketCase.run (c : MarketCase) : Bool :=
  onOk ((do createOrderbook env supply QUOTE BASE; placeList "owner" c.orders : M Unit) Store.empty) fun _ s =>
    let r := runMarketOrder c.order c.bound s
    match c.err with
    | some e => onErr r e fun _ => true
    | none => onOk r fun out s' =>
        (c.etas.all fun p => decide (((tickOf s' p.1).getValues c.order.dir.opposite).etas = p.2)) &&
        (match s'.orderbook with
          | none => false
          | some b => c.pointers.all fun p => match p.1 with
            | .ask => decide (p.2 = b.nextAskTick)
            | .bid => decide (p.2 = b.nextBidTick)) &&
        decide (s'.orders = s.orders) &&
        decide (out.1 = ⟨denomOf c.order.dir.opposite, c.output⟩)

/-- test_order.rs:1007-1014 -/
structure MovingCase where
  ops : List TOp
  values : List ((Int × Dir) × TickValues)
  pointers : Int × Int

/-- test_order.rs:1547-1581 -/
def MovingCase.run (c : MovingCase) : Bool :=
  onOk (setup "sender" c.ops Store.empty) fun _ s =>
    (c.values.all fun p => decide ((s.ticks.get? p.1.1).map (·.getValues p.1.2) = some p.2)) &&
    decide (s.orderbook.map (fun b => (b.nextBidTick, b.nextAskTick)) = some c.pointers)

/-- test_order.rs:1584-1594 -/
structure ClaimCase where
  ops : List TOp
  sender : Addr
  tick : Int
  id : Nat
  msg : Option SendMsg
  bounty : Option SendMsg
  state : Option LimitOrder
  err : Option Err

/-- test_order.rs:2821-2907 -/
def ClaimCase.run (c : ClaimCase) : Bool :=
  onOk (setup c.sender c.ops Store.empty) fun _ s =>
    match c.err with
    | some e => onErr (claimLimit env ⟨c.sender, []⟩ c.tick c.id s) e fun _ => true
    | none =>
      onErr (cancelLimit env ⟨"sender", []⟩ c.tick c.id s) .cancelFilledOrder fun s =>
      onOk (claimLimit env ⟨c.sender, []⟩ c.tick c.id s) fun resp s' =>
        decide (resp.msgs = c.msg.toList ++ c.bounty.toList) &&
        decide (s'.orders.get? (c.tick, c.id) = c.state.map placedNow)

/-- test_order.rs:2910-2919 -/
structure MovingClaimCase where
  ops : List TOp
  sender : Addr
  tick : Int
  id : Nat
  msg : SendMsg
  state : Option LimitOrder
  err : Option Err

/-- test_order.rs:3539-3593 -/
def MovingClaimCase.run (c : MovingClaimCase) : Bool :=
  onOk (setup c.sender c.ops Store.empty) fun _ s =>
    let r := claimLimit env ⟨c.sender, []⟩ c.tick c.id s
    match c.err with
    | some e => onErr r e fun _ => true
    | none => onOk r fun resp s' =>
        decide (resp.msgs.head? = some c.msg) && decide (s'.orders.get? (c.tick, c.id) = c.state.map placedNow)

/-- test_order.rs:3596-3603 -/
structure BatchCase where
  ops : List TOp
  orders : List (Int × Nat)
  msgs : List SendMsg
  states : Option (List LimitOrder)
  err : Option Err

/-- test_order.rs:3755-3832; `owner` = "owner", `sender` = "sender" -/
def BatchCase.run (c : BatchCase) : Bool :=
  onOk (setup "owner" c.ops Store.empty) fun _ s =>
    let r := batchClaimLimits ⟨"sender", []⟩ env c.orders s
    match c.err with
    | some e => onErr r e fun _ => true
    | none => onOk r fun resp s' =>
        decide (resp.msgs = c.msgs) &&
        c.orders.all fun p => decide (s'.orders.get? p =
          ((c.states.getD []).find? fun o => decide (o.tickId = p.1 ∧ o.orderId = p.2)).map placedNow)

/-- test_order.rs:3835-3839 -/
structure LiquidityCase where
  ops : List TOp
  expected : (Dir × Nat) × (Dir × Nat)

/-- test_order.rs:4018-4054 -/
def LiquidityCase.run (c : LiquidityCase) : Bool :=
  onOk (setup "sender" c.ops Store.empty) fun _ s =>
    decide (getDirectionalLiquidity s c.expected.1.1 = c.expected.1.2) &&
    decide (getDirectionalLiquidity s c.expected.2.1 = c.expected.2.2)

/-- test_order.rs:4057-4065 -/
structure MakerFeeCase where
  order : LimitOrder
  fee : Option Nat
  recipient : Option Addr
  claimer : Addr × Coin
  maker : Option (Addr × Coin)
  err : Option Err

/-- test_order.rs:4169-4240 -/
def MakerFeeCase.run (c : MakerFeeCase) : Bool :=
  let q := c.order.quantity * D
  let s : Store := { Store.empty with
    orderbook := some ⟨QUOTE, BASE, 0, 0, 0⟩
    orders := SMap.insert Store.empty.orders (c.order.tickId, c.order.orderId) c.order
    makerFee := c.fee
    makerFeeRecipient := c.recipient
    ticks := SMap.insert Store.empty.ticks c.order.tickId (TickState.default.setValues c.order.dir ⟨q, q, q, 0, q⟩) }
  let r := claimOrder "sender" c.order.tickId c.order.orderId s
  match c.err with
  | some e => onErr r e fun _ => true
  | none => onOk r fun x _ =>
      decide (x.2.1.head? = some ⟨c.claimer.1, c.claimer.2, REPLY_ID_CLAIM⟩) &&
      decide (x.2.1[if c.order.claimBounty.isSome then 2 else 1]? = c.maker.map fun m => ⟨m.1, m.2, REPLY_ID_MAKER_FEE⟩)

end OB.Conf
