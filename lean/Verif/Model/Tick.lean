import Verif.Model.SumTree
/- state.rs helpers and tick.rs -/
namespace OB

/-- `TICK_STATE.save` (order.rs:121, 219, 390; tick.rs:96) -/
def saveTick (tick : Int) (t : TickState) : M Unit :=
  EM.modify fun s => { s with ticks := s.ticks.insert tick t }

/-- One iteration of the loop in tick.rs:37-88 for one direction: returns the new tick values
(`v` unchanged if the side is up to date). -/
def syncSide (tick : Int) (dir : Dir) (v : TickValues) (target : Nat) : M TickValues := do
  if v.lastSync = target then pure v
  else do
    let old := v.crc
    let tree ← liftTree (getOrInitRootNode tick dir)
    let s ← EM.get
    let new ← EM.lift (getPrefixSum s.trees tree target old)
    let realized ← EM.lift (match checkedSub new old with
      | .ok x => .ok x
      | .error _ => .error .invalidPrefixSum)
    let etas ← EM.lift (checkedAdd v.etas realized)
    let v := { v with etas := etas, crc := new, lastSync := target }
    EM.ensure (decide (v.etas ≤ v.ctv)) .invalidTickSync
    pure v

/-- tick.rs:11-99 `sync_tick` -/
def syncTick (tick : Int) (bidEtas askEtas : Nat) : M Unit := do
  let s ← EM.get
  match s.ticks.get? tick with
  | none => EM.fail .std
  | some ts => do
    let bidValues := ts.getValues .bid
    let askValues := ts.getValues .ask
    if bidValues.lastSync = bidEtas ∧ askValues.lastSync = askEtas then pure ()
    else do
      let bidValues ← syncSide tick .bid bidValues bidEtas
      let askValues ← syncSide tick .ask askValues askEtas
      let ts := ts.setValues .bid bidValues
      let ts := ts.setValues .ask askValues
      saveTick tick ts

/-- state.rs:55-59 `new_order_id` (`id + 1` panics on overflow) -/
def newOrderId : M Nat := do
  let s ← EM.get
  let id := s.orderId.getD 0
  let next ← EM.lift (u64Succ id)
  EM.modify fun s => { s with orderId := some next }
  pure id

/-- state.rs:111-120 -/
def getDirectionalLiquidity (s : Store) (d : Dir) : Nat := (s.dirLiq d).getD 0

/-- `DIRECTION_TOTAL_LIQUIDITY.save` (state.rs:134, 154) -/
def saveDirLiq (d : Dir) (x : Nat) : M Unit :=
  EM.modify fun s => { s with dirLiq := fun d' => if d' = d then some x else s.dirLiq d' }

/-- state.rs:125-140 -/
def addDirectionalLiquidity (d : Dir) (amount : Nat) : M Unit := do
  let s ← EM.get
  let x ← EM.lift (checkedAdd (getDirectionalLiquidity s d) amount)
  saveDirLiq d x

/-- state.rs:145-160 -/
def subtractDirectionalLiquidity (d : Dir) (amount : Nat) : M Unit := do
  let s ← EM.get
  let x ← EM.lift (checkedSub (getDirectionalLiquidity s d) amount)
  saveDirLiq d x

/-- state.rs:165-168 -/
def getMakerFee (s : Store) : Nat := s.makerFee.getD 0

/-- `ORDERBOOK.load(storage)?` (order.rs:32, 201, 261, 297, 450, 625; sudo.rs:125) -/
def loadOrderbook : M Orderbook := do
  let s ← EM.get
  match s.orderbook with
  | some b => pure b
  | none => EM.fail .std

/-- `ORDERBOOK.save` (order.rs:90, 401; orderbook.rs:31) -/
def saveOrderbook (b : Orderbook) : M Unit :=
  EM.modify fun s => { s with orderbook := some b }

/-- `orders().save` (order.rs:110, 681) -/
def saveOrder (key : Int × Nat) (o : LimitOrder) : M Unit :=
  EM.modify fun s => { s with orders := s.orders.insert key o }

/-- `orders().remove` (order.rs:213, 678) -/
def removeOrder (key : Int × Nat) : M Unit :=
  EM.modify fun s => { s with orders := s.orders.erase key }

end OB
