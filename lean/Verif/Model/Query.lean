import Verif.Model.Sudo
import Verif.Model.Text
/- query.rs and state.rs:78-106. Queries read the storage only. -/
namespace OB

/-- `Decimal::from_str(&x.to_string())?` for a Decimal256 `x` (query.rs:68): written as text and read back. -/
def decimalFromDecimal256 (x : Nat) : Except Err Nat :=
  match readDecimal U128 (decText x) with
  | some y => .ok y
  | none => .error .std

/-- query.rs:34-70 `spot_price` (18-decimal atomics) -/
def spotPrice (s : Store) (quote base : Denom) : Except Err Nat := do
  if quote = base then .error (.invalidPair quote base)
  else match s.orderbook with
    | none => .error .std
    | some b => do
      let dir ← b.directionFromPair base quote
      let next := match dir with
        | .ask => b.nextBidTick
        | .bid => b.nextAskTick
      let price ← tickToPrice next
      let spot ← (match dir with
        | .ask => .ok price
        | .bid => match decInv price with
          | some x => .ok x
          | none => .error .panic)
      decimalFromDecimal256 spot

/-- types/coin.rs:36-43 `Coin256` to `Coin`: `Uint128::from_str(&coin.amount.to_string()).unwrap()`. -/
def coin256ToCoin (c : Coin) : Except Err Coin :=
  match readUint U128 (natText c.amount) with
  | some n => .ok ⟨c.denom, n⟩
  | none => .error .panic

/-- query.rs:80-109 `calc_out_amount_given_in` -/
def calcOutAmountGivenIn (s : Store) (tokenIn : Coin) (tokenOutDenom : Denom) (swapFee : Nat) : Except Err Coin := do
  ensureSwapFee swapFee
  match s.orderbook with
  | none => .error .std
  | some b => do
    let dir ← b.directionFromPair tokenIn.denom tokenOutDenom
    let post ← runMarketOrderInternal s ⟨tokenIn.amount, dir, "querier"⟩ (defaultBound dir)
    coin256ToCoin post.output

/-- query.rs:117-141 `total_pool_liquidity`: (ask coin, bid coin). The `unwrap` panics beyond `Uint128`. -/
def totalPoolLiquidity (s : Store) : Except Err (List Coin) :=
  match s.orderbook with
  | none => .error .std
  | some b => do
    let f (d : Dir) : Except Err Coin :=
      match u128TryFrom (toUintFloor (getDirectionalLiquidity s d)) with
      | .ok x => .ok ⟨b.expectedDenom d, x⟩
      | .error _ => .error .panic
    let a ← f .ask
    let c ← f .bid
    pure [a, c]

/-- `Bound::inclusive` on both ends, either optional (cw_storage_plus; order.rs:488-489, query.rs:153-154, state.rs:86-87) -/
def inBounds {K : Type} [Key K] (lo hi : Option K) (k : K) : Bool :=
  (match lo with | none => true | some l => !Key.lt k l) && (match hi with | none => true | some h => !Key.lt h k)

/-- query.rs:144-186 `all_ticks` -/
def allTicks (s : Store) (startFrom endAt : Option Int) (limit : Option Nat) : List (Int × TickState) :=
  let ticks := s.ticks.filter fun p => inBounds startFrom endAt p.1
  match limit with
  | some n => ticks.take n
  | none => ticks

/-- query.rs:189-192 -/
def isActive (s : Store) : Bool := s.isActive.getD true

/-- query.rs:195-199 -/
def getSwapFee : Nat := 0

/-- state.rs:11 -/
def DEFAULT_PAGE_SIZE : Nat := 100

/-- `x as usize` for a `u64` on wasm32: the low 32 bits (query.rs:340, state.rs:85). -/
def asUsize (x : Nat) : Nat := x % 2 ^ 32

/-- types/order.rs:117-122 -/
inductive FilterOwnerOrders where
  | all (owner : Addr)
  | byTick (tick : Int) (owner : Addr)
  deriving DecidableEq, Repr

/-- The prefix of the secondary index selected by the filter (state.rs:41-51, 90-95): index key `owner`, resp.
`(tick_id, owner)` of the stored order. Simplification: the index is not stored, it is the filter of the primary map. -/
def FilterOwnerOrders.selects : FilterOwnerOrders → LimitOrder → Bool
  | .all a, o => decide (o.owner = a)
  | .byTick t a, o => decide (o.tickId = t ∧ o.owner = a)

/-- state.rs:78-106 `get_orders_by_owner` -/
def getOrdersByOwner (s : Store) (f : FilterOwnerOrders) (lo hi : Option (Int × Nat)) (pageSize : Option Nat) :
    List LimitOrder :=
  (((s.orders.filter fun p => f.selects p.2).filter fun p => inBounds lo hi p.1).take
    (asUsize (pageSize.getD DEFAULT_PAGE_SIZE))).map Prod.snd

/-- query.rs:202-227 `orders_by_owner`: (count, orders) -/
def ordersByOwner (s : Store) (owner : Addr) (startFrom endAt : Option (Int × Nat)) (limit : Option Nat) :
    Nat × List LimitOrder :=
  ((s.orders.filter fun p => decide (p.2.owner = owner)).length,
   getOrdersByOwner s (.all owner) startFrom endAt limit)

/-- query.rs:229-235: (quote, base) -/
def denoms (s : Store) : Except Err (Denom × Denom) :=
  match s.orderbook with
  | none => .error .std
  | some b => .ok (b.quoteDenom, b.baseDenom)

/-- query.rs:237-240 -/
def orderbookState (s : Store) : Except Err Orderbook :=
  match s.orderbook with
  | none => .error .std
  | some b => .ok b

/-- query.rs:242-256 `ticks_by_id` -/
def ticksById (s : Store) : List Int → Except Err (List (Int × TickState))
  | [] => .ok []
  | t :: ts =>
    match s.ticks.get? t with
    | none => .error (.invalidTickId t)
    | some x => do
      let rest ← ticksById s ts
      pure ((t, x) :: rest)

/-- query.rs:264-286: one side of `get_unrealized_cancels` -/
def unrealizedCancels (s : Store) (ts : TickState) (tick : Int) (dir : Dir) : Except Err Nat :=
  let v := ts.getValues dir
  match getRootNode s.trees tick dir with
  | .ok root => do
    let total ← getPrefixSum s.trees root v.etas v.crc
    pure (total - v.crc)
  | .error _ => .ok 0

/-- query.rs:297-314 `ticks_unrealized_cancels_by_id`: (tick, ask, bid) -/
def ticksUnrealizedCancels (s : Store) : List Int → Except Err (List (Int × Nat × Nat))
  | [] => .ok []
  | t :: ts =>
    match s.ticks.get? t with
    | none => .error (.invalidTickId t)
    | some x => do
      let a ← unrealizedCancels s x t .ask
      let b ← unrealizedCancels s x t .bid
      let rest ← ticksUnrealizedCancels s ts
      pure ((t, a, b) :: rest)

/-- `Bound::inclusive` on order ids within a tick (query.rs:327-328, 336-337) -/
def inBoundsId (lo hi : Option Nat) (k : Nat) : Bool :=
  (match lo with | none => true | some l => decide (l ≤ k)) && (match hi with | none => true | some h => decide (k ≤ h))

/-- query.rs:316-348 `orders_by_tick`: (count, orders). Simplification: the default limit `count as usize` is the count itself. -/
def ordersByTick (s : Store) (tick : Int) (startFrom endAt : Option Nat) (limit : Option Nat) :
    Nat × List LimitOrder :=
  let sel := s.orders.filter fun p => decide (p.1.1 = tick) && inBoundsId startFrom endAt p.1.2
  (sel.length, (sel.take ((limit.map asUsize).getD sel.length)).map Prod.snd)

/-- msg.rs:69-150 -/
inductive QueryMsg where
  | spotPrice (quote base : Denom)
  | calcOutAmountGivenIn (tokenIn : Coin) (tokenOutDenom : Denom) (swapFee : Nat)
  | calcOutAmtGivenIn (tokenIn : Coin) (tokenOutDenom : Denom) (swapFee : Nat)
  | getTotalPoolLiquidity
  | calcInAmtGivenOut
  | allTicks (startFrom endAt : Option Int) (limit : Option Nat)
  | isActive
  | getSwapFee
  | ordersByOwner (owner : Addr) (startFrom endAt : Option (Int × Nat)) (limit : Option Nat)
  | orderbookState
  | ticksById (ids : List Int)
  | ordersByTick (tick : Int) (startFrom endAt : Option Nat) (limit : Option Nat)
  | denoms
  | getMakerFee
  | getUnrealizedCancels (ids : List Int)
  | auth (msg : AuthQueryMsg)
  deriving DecidableEq, Repr

/-- The answers, before JSON encoding (contract.rs:104-177). -/
inductive Answer where
  | decimal (x : Nat)
  | coin (c : Coin)
  | coins (cs : List Coin)
  | ticks (l : List (Int × TickState))
  | bool (x : Bool)
  | orders (count : Nat) (l : List LimitOrder)
  | book (b : Orderbook)
  | denoms (quote base : Denom)
  | unrealized (l : List (Int × Nat × Nat))
  | addr (a : Option Addr)
  deriving DecidableEq, Repr

/-- contract.rs:104-177 `query`. `deps` is read-only there (`Deps`, not `DepsMut`); here the storage is threaded through anyway.
`CalcInAmtGivenOut` is `unimplemented!()`: a panic. -/
def query (msg : QueryMsg) : M Answer := do
  let s ← EM.get
  match msg with
  | .spotPrice quote base => do let x ← EM.lift (OB.spotPrice s quote base); pure (.decimal x)
  | .calcOutAmountGivenIn c out fee => do let x ← EM.lift (OB.calcOutAmountGivenIn s c out fee); pure (.coin x)
  | .calcOutAmtGivenIn c out fee => do let x ← EM.lift (OB.calcOutAmountGivenIn s c out fee); pure (.coin x)
  | .getTotalPoolLiquidity => do let x ← EM.lift (totalPoolLiquidity s); pure (.coins x)
  | .calcInAmtGivenOut => EM.fail .panic
  | .allTicks a b l => pure (.ticks (OB.allTicks s a b l))
  | .isActive => pure (.bool (OB.isActive s))
  | .getSwapFee => pure (.decimal OB.getSwapFee)
  | .ordersByOwner o a b l => let r := OB.ordersByOwner s o a b l; pure (.orders r.1 r.2)
  | .orderbookState => do let x ← EM.lift (OB.orderbookState s); pure (.book x)
  | .ticksById ids => do let x ← EM.lift (OB.ticksById s ids); pure (.ticks x)
  | .ordersByTick t a b l => let r := OB.ordersByTick s t a b l; pure (.orders r.1 r.2)
  | .denoms => do let x ← EM.lift (OB.denoms s); pure (.denoms x.1 x.2)
  | .getMakerFee => pure (.decimal (OB.getMakerFee s))
  | .getUnrealizedCancels ids => do let x ← EM.lift (ticksUnrealizedCancels s ids); pure (.unrealized x)
  | .auth m => pure (.addr (authQuery s m))

end OB
