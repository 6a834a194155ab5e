import Verif.Model.Tick
import Verif.Model.TickMath
/- order.rs -/
namespace OB

/-- cw_utils::must_pay (used at order.rs:63): exactly one coin (`one_coin`), of nonzero amount and of the given denom. -/
def mustPay (funds : List Coin) (denom : Denom) : Except Err Nat :=
  match funds with
  | [] => .error (.payment .noFunds)
  | [c] => if c.amount = 0 then .error (.payment .noFunds)
           else if c.denom = denom then .ok c.amount else .error (.payment (.missingDenom denom))
  | _ => .error (.payment .multipleDenoms)

/-- cw_utils::nonpayable (used at order.rs:145, 251, 286) -/
def nonpayable (funds : List Coin) : Except Err Unit :=
  if funds.isEmpty then .ok () else .error (.payment .nonPayable)

/-- types/order.rs:56-76, 84-87 `LimitOrder::new(..).with_placed_at(..)` -/
def LimitOrder.new (tick : Int) (id : Nat) (dir : Dir) (owner : Addr) (quantity etas : Nat) (bounty : Option Nat)
    (placedAt : Nat) : LimitOrder :=
  { tickId := tick, orderId := id, dir, owner, quantity, etas, claimBounty := bounty, placedQuantity := quantity,
    placedAt }

/-- order.rs:48-56: a bounty, if given, must be at most 1% (`>= 0` is trivially true). -/
def bountyOk : Option Nat → Bool
  | none => true
  | some b => decide (b ≤ percent 1)

/-- order.rs:78-89: pointer update on placement -/
def Orderbook.withPlaced (b : Orderbook) (tick : Int) : Dir → Orderbook
  | .bid => if tick > b.nextBidTick then { b with nextBidTick := tick } else b
  | .ask => if tick < b.nextAskTick then { b with nextAskTick := tick } else b

/-- order.rs:23-136 `place_limit` -/
def placeLimit (env : Env) (info : MessageInfo) (tick : Int) (dir : Dir) (quantity : Nat)
    (claimBounty : Option Nat) : M Response := do
  let orderbook ← loadOrderbook
  EM.ensure (decide (tick ≥ MIN_TICK ∧ tick ≤ MAX_TICK)) (.invalidTickId tick)
  EM.ensure (decide (quantity > 0)) (.invalidQuantity quantity)
  EM.ensure (bountyOk claimBounty) (.invalidClaimBounty claimBounty)
  let expectedDenom := orderbook.expectedDenom dir
  let received ← EM.lift (mustPay info.funds expectedDenom)
  EM.ensure (decide (received = quantity)) (.insufficientFunds received quantity)
  let orderId ← newOrderId
  let orderbook := orderbook.withPlaced tick dir
  saveOrderbook orderbook
  let s ← EM.get
  let tickState := (s.ticks.get? tick).getD .default
  let tickValues := tickState.getValues dir
  let limitOrder := LimitOrder.new tick orderId dir info.sender quantity tickValues.ctv claimBounty env.time
  let quantDec ← EM.lift (fromRatio limitOrder.quantity 1)
  saveOrder (tick, orderId) limitOrder
  let tal ← EM.lift (checkedAdd tickValues.tal quantDec)
  let quantDec' ← EM.lift (fromRatio quantity 1)
  let ctv ← EM.lift (checkedAdd tickValues.ctv quantDec')
  let tickState := tickState.setValues dir { tickValues with tal := tal, ctv := ctv }
  saveTick tick tickState
  addDirectionalLiquidity dir quantDec
  pure { events := [.placeLimit info.sender tick orderId dir quantity expectedDenom (orderbook.oppositeDenom dir)] }

/-- order.rs:138-242 `cancel_limit` -/
def cancelLimit (_env : Env) (info : MessageInfo) (tick : Int) (orderId : Nat) : M Response := do
  EM.lift (nonpayable info.funds)
  let s ← EM.get
  match s.orders.get? (tick, orderId) with
  | none => EM.fail (.orderNotFound tick orderId)
  | some order => do
    EM.ensure (decide (info.sender = order.owner)) .unauthorized
    let tickState := (s.ticks.get? tick).getD .default
    syncTick tick (tickState.getValues .bid).etas (tickState.getValues .ask).etas
    let s ← EM.get
    let tickState := (s.ticks.get? tick).getD .default
    let tickValues := tickState.getValues order.dir
    EM.ensure (decide (tickValues.etas ≤ order.etas)) .cancelFilledOrder
    let tree ← liftTree (getOrInitRootNode tick order.dir)
    let nodeId ← liftTree (generateNodeId order.tickId)
    let s ← EM.get
    match s.ticks.get? order.tickId with
    | none => EM.fail (.invalidTickId order.tickId)
    | some currTickState => do
      let currTickValues := currTickState.getValues order.dir
      let quantDec ← EM.lift (fromRatio order.quantity 1)
      let newNode := TreeNode.mk' order.tickId order.dir nodeId (.leaf quantDec order.etas)
      let tree ← liftTree (TreeNode.insert (treeFuel s.trees tick) tree newNode)
      let orderbook ← loadOrderbook
      let expectedDenom := orderbook.expectedDenom order.dir
      let refund : SendMsg := ⟨order.owner, ⟨expectedDenom, order.quantity⟩, REPLY_ID_REFUND⟩
      removeOrder (order.tickId, order.orderId)
      let q ← EM.lift (fromRatio order.quantity 1)
      let tal ← EM.lift (checkedSub currTickValues.tal q)
      let currTickState := currTickState.setValues order.dir { currTickValues with tal := tal }
      saveTick order.tickId currTickState
      subtractDirectionalLiquidity order.dir quantDec
      liftTree tree.save
      pure { msgs := [refund],
             events := [.cancelLimit info.sender tick orderId order.quantity order.dir order.placedQuantity
               expectedDenom (orderbook.oppositeDenom order.dir)] }

/-- order.rs:697-712: bounty amount and remaining amount -/
def takeBounty (claimBounty : Option Nat) (amount : Nat) : Except Err (Nat × Nat) :=
  match claimBounty with
  | none => .ok (0, amount)
  | some cb =>
    if amount = 0 then .ok (0, amount)
    else do
      let a ← fromRatio amount 1
      let b ← checkedMul a cb
      let bounty := toUintFloor b
      let rest ← checkedSub amount bounty
      pure (bounty, rest)

/-- order.rs:714-729: maker fee (computed on the raw amount) and remaining amount -/
def takeMakerFee (makerFee rawAmount amount : Nat) : Except Err (Nat × Nat) :=
  if makerFee = 0 then .ok (0, amount)
  else if amount = 0 then .ok (0, amount)
  else do
    let a ← fromRatio rawAmount 1
    let f ← checkedMul a makerFee
    let fee := toUintFloor f
    let rest ← checkedSub amount fee
    pure (fee, rest)

/-- order.rs:618-767 `claim_order`: returns (amount paid to the owner, messages, updated order). -/
def claimOrder (sender : Addr) (tick : Int) (orderId : Nat) : M (Nat × List SendMsg × LimitOrder) := do
  let orderbook ← loadOrderbook
  let s ← EM.get
  match s.ticks.get? tick with
  | none => EM.fail (.invalidTickId tick)
  | some tickState =>
    match s.orders.get? (tick, orderId) with
    | none => EM.fail (.orderNotFound tick orderId)
    | some order => do
      syncTick tick (tickState.getValues .bid).etas (tickState.getValues .ask).etas
      let s ← EM.get
      match s.ticks.get? tick with
      | none => EM.fail (.invalidTickId tick)
      | some tickState => do
        let tickValues := tickState.getValues order.dir
        EM.ensure (decide (tickValues.etas > order.etas)) .zeroClaim
        let diff ← EM.lift (checkedSub tickValues.etas order.etas)
        let qDec ← EM.lift (fromRatio order.quantity 1)
        let amountFilledDec := min diff qDec
        let amountFilled ← EM.lift (u128TryFrom (toUintFloor amountFilledDec))
        let quantity ← EM.lift (checkedSub order.quantity amountFilled)
        let etas ← EM.lift (checkedAdd order.etas amountFilledDec)
        let order := { order with quantity := quantity, etas := etas }
        if order.quantity = 0 then removeOrder (tick, orderId) else saveOrder (tick, orderId) order
        let tickPrice ← EM.lift (tickToPrice tick)
        let rawAmount ← EM.lift (amountToValue order.dir amountFilled tickPrice .down)
        let denom := orderbook.oppositeDenom order.dir
        let (bounty, amount) ← EM.lift (takeBounty order.claimBounty rawAmount)
        let s ← EM.get
        let (fee, amount) ← EM.lift (takeMakerFee (getMakerFee s) rawAmount amount)
        let ownerMsgs : List SendMsg :=
          if amount = 0 then [] else [⟨order.owner, ⟨denom, amount⟩, REPLY_ID_CLAIM⟩]
        let bountyMsgs : List SendMsg :=
          if bounty = 0 then [] else [⟨sender, ⟨denom, bounty⟩, REPLY_ID_CLAIM_BOUNTY⟩]
        if fee = 0 then pure (amount, ownerMsgs ++ bountyMsgs, order)
        else
          match s.makerFeeRecipient with
          | none => EM.fail .noMakerFeeRecipient
          | some r =>
            pure (amount, ownerMsgs ++ bountyMsgs ++ [⟨r, ⟨denom, fee⟩, REPLY_ID_MAKER_FEE⟩], order)

/-- order.rs:337-357 -/
def claimedEvent (sender : Addr) (o : LimitOrder) (amount : Nat) (orderDenom outputDenom : Denom) : Event :=
  .limitClaimed sender o.tickId o.orderId o.quantity o.owner o.dir amount o.placedQuantity
    (decide (o.quantity = 0)) orderDenom outputDenom

/-- order.rs:244-277 `claim_limit` -/
def claimLimit (_env : Env) (info : MessageInfo) (tick : Int) (orderId : Nat) : M Response := do
  EM.lift (nonpayable info.funds)
  let (amount, msgs, order) ← claimOrder info.sender tick orderId
  let orderbook ← loadOrderbook
  pure { msgs := msgs,
         events := [claimedEvent info.sender order amount (orderbook.expectedDenom order.dir)
           (orderbook.oppositeDenom order.dir)] }

/-- The loop of order.rs:299-327. Errors are swallowed *without undoing the writes of the failed claim*; a panic is not
an error value in Rust and aborts. -/
def batchLoop (sender : Addr) (orderbook : Orderbook) : List (Int × Nat) → M (List SendMsg × List Event)
  | [] => pure ([], [])
  | (tick, id) :: rest => fun s =>
    match claimOrder sender tick id s with
    | .ok (amount, msgs, order) s' =>
      (do
        let (ms, es) ← batchLoop sender orderbook rest
        pure (msgs ++ ms, claimedEvent sender order amount (orderbook.expectedDenom order.dir)
          (orderbook.oppositeDenom order.dir) :: es) : M (List SendMsg × List Event)) s'
    | .err .panic s' => .err .panic s'
    | .err .diverge s' => .err .diverge s'
    | .err _ s' => batchLoop sender orderbook rest s'

/-- order.rs:280-334 `batch_claim_limits` -/
def batchClaimLimits (info : MessageInfo) (_env : Env) (orders : List (Int × Nat)) : M Response := do
  EM.lift (nonpayable info.funds)
  EM.ensure (decide (orders.length ≤ MAX_BATCH_CLAIM)) (.batchClaimLimitExceeded MAX_BATCH_CLAIM)
  let orderbook ← loadOrderbook
  let (msgs, events) ← batchLoop info.sender orderbook orders
  pure { msgs := msgs, events := .method "batchClaimLimit" [("sender", .str info.sender)] :: events }

/-- order.rs:414-418 `PostMarketOrderState` plus the mutated `order.quantity` -/
structure PostMarketOrder where
  output : Coin
  tickUpdates : List (Int × TickState)
  updatedOrderbook : Orderbook
  quantity : Nat
  deriving DecidableEq, Repr

/-- Loop variables of order.rs:495-499 (plus `order.quantity` and `orderbook`). -/
structure LoopSt where
  quantity : Nat
  orderbook : Orderbook
  totalOutput : Nat
  tickUpdates : List (Int × TickState)
  lastTickPrice : Nat
  deriving DecidableEq, Repr

/-- order.rs:528-531: move the best-price pointer of side `side` -/
def Orderbook.setNext (b : Orderbook) (side : Dir) (tick : Int) : Orderbook :=
  match side with
  | .ask => { b with nextAskTick := tick }
  | .bid => { b with nextBidTick := tick }

/-- The tick loop of order.rs:500-581 over the keys `ticks` (in iteration order). -/
def marketLoop (s : Store) (dir : Dir) : List Int → LoopSt → Except Err LoopSt
  | [], st => .ok st
  | tick :: rest, st =>
    match s.ticks.get? tick with
    | none => .error .std
    | some currentTick => do
      let values := currentTick.getValues dir.opposite
      if values.tal = 0 then marketLoop s dir rest st
      else do
        let tickPrice ← tickToPrice tick
        let st := { st with lastTickPrice := tickPrice }
        let outputQuantity ← amountToValue dir st.quantity tickPrice .down
        if outputQuantity = 0 then pure { st with quantity := 0 }
        else do
          let st := { st with orderbook := st.orderbook.setNext dir.opposite tick }
          let outputDec ← fromRatio outputQuantity 1
          let fillDec := if outputDec < values.tal then outputDec else values.tal
          let tal ← checkedSub values.tal fillDec
          let etas ← checkedAdd values.etas fillDec
          let fill ← u128TryFrom (toUintFloor fillDec)
          let inputFilled ← amountToValue dir.opposite fill tickPrice .up
          if inputFilled = 0 then .error (.invalidSwap .zeroStep)
          else do
            let inp ← u128TryFrom inputFilled
            let quantity ← checkedSub st.quantity inp
            let updated := currentTick.setValues dir.opposite { values with tal := tal, etas := etas }
            let out ← checkedAdd st.totalOutput fill
            marketLoop s dir rest
              { st with quantity := quantity, tickUpdates := st.tickUpdates ++ [(tick, updated)], totalOutput := out }

/-- order.rs:486-491: the keys of `TICK_STATE` in `[lo, hi]`, ascending or descending -/
def tickKeys (s : Store) (lo hi : Int) (descending : Bool) : List Int :=
  let ks := (SMap.keys s.ticks).filter fun t => decide (lo ≤ t ∧ t ≤ hi)
  if descending then ks.reverse else ks

/-- order.rs:437-615 `run_market_order_internal` (reads storage only) -/
def runMarketOrderInternal (s : Store) (order : MarketOrder) (tickBound : Int) : Except Err PostMarketOrder := do
  if order.quantity = 0 then .error (.invalidSwap .zeroInput)
  else match s.orderbook with
  | none => .error .std
  | some orderbook =>
    let outputDenom := orderbook.oppositeDenom order.dir
    if ¬ (tickBound ≤ MAX_TICK ∧ tickBound ≥ MIN_TICK) then .error (.invalidTickId tickBound)
    else do
      let ticks ← (match order.dir with
        | .ask =>
          if tickBound ≤ orderbook.nextBidTick then .ok (tickKeys s tickBound orderbook.nextBidTick true)
          else .error (.invalidTickId tickBound)
        | .bid =>
          if tickBound ≥ orderbook.nextAskTick then .ok (tickKeys s orderbook.nextAskTick tickBound false)
          else .error (.invalidTickId tickBound))
      let st ← marketLoop s order.dir ticks ⟨order.quantity, orderbook, 0, [], D⟩
      let remaining ← amountToValue order.dir st.quantity st.lastTickPrice .down
      let partialOrder := match order.dir with
        | .ask => decide (tickBound > MIN_TICK)
        | .bid => decide (tickBound < MAX_TICK)
      if remaining = 0 ∨ partialOrder = true then
        .ok ⟨⟨outputDenom, st.totalOutput⟩, st.tickUpdates, st.orderbook, st.quantity⟩
      else .error .insufficientLiquidity

/-- `for (tick_id, tick_state) in tick_updates { TICK_STATE.save(..)?; }` (order.rs:389-391) -/
def saveTicks : List (Int × TickState) → M Unit
  | [] => pure ()
  | (t, ts) :: rest => do
    saveTick t ts
    saveTicks rest

/-- order.rs:375-411 `run_market_order`: returns (output amount, payout message without reply id, remaining quantity of
the order). -/
def runMarketOrder (order : MarketOrder) (tickBound : Int) : M (Coin × Nat) := do
  let s ← EM.get
  let post ← EM.lift (runMarketOrderInternal s order tickBound)
  saveTicks post.tickUpdates
  let outDec ← EM.lift (fromRatio post.output.amount 1)
  subtractDirectionalLiquidity order.dir.opposite outDec
  saveOrderbook post.updatedOrderbook
  pure (post.output, post.quantity)

end OB
