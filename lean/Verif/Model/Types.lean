import Verif.Model.Num
import Verif.Model.SMap
/-
Data types (types/*.rs, msg.rs), storage layout (state.rs, sumtree/node.rs, sumtree/tree.rs, auth.rs) and the
storage/error monad.
-/
namespace OB

/-- Addresses are strings (cosmwasm_std::Addr; types/order.rs:44). -/
abbrev Addr := String
/-- Denoms are strings (types/orderbook.rs:9-10). -/
abbrev Denom := String

/-- types/order.rs:7-12 -/
inductive Dir where
  | bid
  | ask
  deriving DecidableEq, Repr

/-- types/order.rs:16-21 -/
def Dir.opposite : Dir → Dir
  | .bid => .ask
  | .ask => .bid

/-- types/order.rs:39-52. `etas`, `claimBounty` are Decimal256 atomics; `placedAt` is a timestamp in ns. -/
structure LimitOrder where
  tickId : Int
  orderId : Nat
  dir : Dir
  owner : Addr
  quantity : Nat
  etas : Nat
  claimBounty : Option Nat
  placedQuantity : Nat
  placedAt : Nat
  deriving DecidableEq, Repr

/-- types/order.rs:90-95 -/
structure MarketOrder where
  quantity : Nat
  dir : Dir
  owner : Addr
  deriving DecidableEq, Repr

/-- types/orderbook.rs:7-16 -/
structure Orderbook where
  quoteDenom : Denom
  baseDenom : Denom
  currentTick : Int
  nextBidTick : Int
  nextAskTick : Int
  deriving DecidableEq, Repr

/-- types/orderbook.rs:37-42 -/
def Orderbook.expectedDenom (b : Orderbook) : Dir → Denom
  | .bid => b.quoteDenom
  | .ask => b.baseDenom

/-- types/orderbook.rs:46-51 -/
def Orderbook.oppositeDenom (b : Orderbook) : Dir → Denom
  | .bid => b.baseDenom
  | .ask => b.quoteDenom

/-- types/orderbook.rs:57-78 -/
def Orderbook.directionFromPair (b : Orderbook) (tokenIn tokenOut : Denom) : Except Err Dir :=
  if b.baseDenom = tokenIn ∧ b.quoteDenom = tokenOut then .ok .ask
  else if b.quoteDenom = tokenIn ∧ b.baseDenom = tokenOut then .ok .bid
  else .error (.invalidPair tokenIn tokenOut)

/-- types/tick.rs:6-33; all fields are Decimal256 atomics.
`tal` = total_amount_of_liquidity, `ctv` = cumulative_total_value, `etas` = effective_total_amount_swapped,
`crc` = cumulative_realized_cancels, `lastSync` = last_tick_sync_etas. -/
structure TickValues where
  tal : Nat
  ctv : Nat
  etas : Nat
  crc : Nat
  lastSync : Nat
  deriving DecidableEq, Repr

/-- types/tick.rs:35-45 -/
def TickValues.default : TickValues := ⟨0, 0, 0, 0, 0⟩

/-- types/tick.rs:50-57 -/
structure TickState where
  askValues : TickValues
  bidValues : TickValues
  deriving DecidableEq, Repr

/-- `#[derive(Default)]`, types/tick.rs:51 -/
def TickState.default : TickState := ⟨.default, .default⟩

/-- types/tick.rs:60-66 -/
def TickState.getValues (t : TickState) (d : Dir) : TickValues :=
  if d = .ask then t.askValues else t.bidValues

/-- types/tick.rs:68-74 -/
def TickState.setValues (t : TickState) (d : Dir) (v : TickValues) : TickState :=
  if d = .ask then { t with askValues := v } else { t with bidValues := v }

/-- sumtree/node.rs:28-44 -/
inductive NodeType where
  | leaf (value etas : Nat)
  | internal (accumulator rangeMin rangeMax weight : Nat)
  deriving DecidableEq, Repr

/-- sumtree/node.rs:102-111 -/
structure TreeNode where
  key : Nat
  tickId : Int
  dir : Dir
  left : Option Nat
  right : Option Nat
  parent : Option Nat
  ntype : NodeType
  deriving DecidableEq, Repr

/-- The part of the storage used by the sumtrees:
`nodes` = `NODES` (node.rs:16), key (tick, node id);
`roots` = `TREE` (tree.rs:7), key (tick, direction);
`counter` = `NODE_ID_COUNTER` (node.rs:17), key tick. -/
structure TreeSt where
  nodes : Int → Nat → Option TreeNode
  roots : Int → Dir → Option Nat
  counter : Int → Option Nat

/-- Contract storage (state.rs:8-20, 36-53; auth.rs:11-14). The two secondary indexes of `orders()` are not stored:
index queries are modelled as filters of the primary map (see Query.lean). -/
structure Store where
  orderId : Option Nat
  orderbook : Option Orderbook
  ticks : SMap Int TickState
  dirLiq : Dir → Option Nat
  isActive : Option Bool
  makerFee : Option Nat
  makerFeeRecipient : Option Addr
  orders : SMap (Int × Nat) LimitOrder
  trees : TreeSt
  admin : Option Addr
  adminOffer : Option Addr
  moderator : Option Addr
  moderatorOffer : Option Addr

/-- Storage of a contract before instantiation (contract.rs:26): every cell of state.rs:8-53 absent. -/
def Store.empty : Store where
  orderId := none
  orderbook := none
  ticks := []
  dirLiq := fun _ => none
  isActive := none
  makerFee := none
  makerFeeRecipient := none
  orders := []
  trees := ⟨fun _ _ => none, fun _ _ => none, fun _ => none⟩
  admin := none
  adminOffer := none
  moderator := none
  moderatorOffer := none

/-- cosmwasm_std::Coin, and types/coin.rs:20-23 `Coin256` -/
structure Coin where
  denom : Denom
  amount : Nat
  deriving DecidableEq, Repr

/-- A bank-send submessage (`BankMsg::Send` or `MsgSend256`, types/coin.rs:46-51) from the contract, dispatched with
`SubMsg::reply_on_error(_, replyId)`. Each such message of the contract carries exactly one coin. -/
structure SendMsg where
  to : Addr
  coin : Coin
  replyId : Nat
  deriving DecidableEq, Repr

/-- types/reply_id.rs:1 -/
def REPLY_ID_REFUND : Nat := 1
/-- types/reply_id.rs:2 -/
def REPLY_ID_CLAIM : Nat := 2
/-- types/reply_id.rs:3 -/
def REPLY_ID_CLAIM_BOUNTY : Nat := 3
/-- types/reply_id.rs:4 -/
def REPLY_ID_MAKER_FEE : Nat := 4
/-- types/reply_id.rs:5 -/
def REPLY_ID_SUDO_SWAP_EXACT_IN : Nat := 5

/-- Value of an attribute (`add_attributes` calls, e.g. order.rs:126-137, auth.rs:100-112), before its conversion to a string: a string, a `bool` or a `Decimal256` (as atomics). -/
inductive Attr where
  | str (s : String)
  | bool (b : Bool)
  | dec (x : Nat)
  deriving DecidableEq, Repr

/-- Attributes/events of a `Response` as structured data (their texts are in Text.lean):
order.rs:124-135 (placeLimit), 224-240 (cancelLimit), 337-357 (limitClaimed), sudo.rs:174-183 (swapExactAmountIn),
`method` is the response of the other messages (auth.rs, sudo.rs:76-87,258-265, contract.rs:44-48, order.rs:330-331). The constant
`method` attributes of the first four are implied by the constructor; a single claim is `limitClaimed` without a preceding
`batchClaimLimit`. -/
inductive Event where
  | placeLimit (owner : Addr) (tickId : Int) (orderId : Nat) (dir : Dir) (quantity : Nat)
      (orderDenom outputDenom : Denom)
  | cancelLimit (owner : Addr) (tickId : Int) (orderId : Nat) (quantity : Nat) (dir : Dir) (initialQuantity : Nat)
      (orderDenom outputDenom : Denom)
  | limitClaimed (sender : Addr) (tickId : Int) (orderId : Nat) (quantityRemaining : Nat) (owner : Addr) (dir : Dir)
      (amountClaimed placedQuantity : Nat) (fullyClaimed : Bool) (orderDenom outputDenom : Denom)
  | swapExactAmountIn (sender : Addr) (tokenIn : Coin) (tokenOutDenom : Denom) (tokenOutMin outputQuantity : Nat)
  | method (name : String) (attrs : List (String × Attr))
  deriving DecidableEq, Repr

/-- cosmwasm_std::Response: submessages, structured attributes/events, and the `data` field (only swaps set it:
`SwapExactAmountInResponseData`, sudo.rs:184-186). -/
structure Response where
  msgs : List SendMsg := []
  events : List Event := []
  data : Option Nat := none
  deriving DecidableEq, Repr

/-- cosmwasm_std::MessageInfo (contract.rs:60) -/
structure MessageInfo where
  sender : Addr
  funds : List Coin

/-- contract.rs:57-61: the parts of cosmwasm_std::Env / Api the contract uses: its own address, the block time and address validation. -/
structure Env where
  contract : Addr
  time : Nat
  addrValid : Addr → Bool

/-! ### Storage/error monad -/

/-- `ContractResult<_>` (error.rs:130) of a storage operation. The storage is returned in the error case too: a Rust `Err` does not undo writes
(only a failed transaction does, see World.lean). -/
inductive Res (σ α : Type) where
  | ok (a : α) (s : σ)
  | err (e : Err) (s : σ)

/-- Storage operations with `Result<_, ContractError>` (error.rs:130). -/
def EM (σ α : Type) := σ → Res σ α

namespace EM
variable {σ α β : Type}

/-- `Ok(a)`; no code of its own -/
def pure (a : α) : EM σ α := fun s => .ok a s
/-- the `?` operator: an error ends the function; no code of its own -/
def bind (x : EM σ α) (f : α → EM σ β) : EM σ β := fun s =>
  match x s with
  | .ok a s' => f a s'
  | .err e s' => .err e s'

/-- sequencing with `?` (error.rs:130); no code of its own -/
instance : Monad (EM σ) where
  pure := EM.pure
  bind := EM.bind

/-- `return Err(e)` (e.g. order.rs:149) -/
def fail (e : Err) : EM σ α := fun s => .err e s
/-- read the storage (`deps.storage`; e.g. order.rs:32) -/
def get : EM σ σ := fun s => .ok s s
/-- write the storage (`deps.storage`; e.g. order.rs:90) -/
def modify (f : σ → σ) : EM σ Unit := fun s => .ok () (f s)
/-- `?` on a pure result (e.g. order.rs:114) -/
def lift (x : Except Err α) : EM σ α := fun s =>
  match x with
  | .ok a => .ok a s
  | .error e => .err e s
/-- `ensure!(c, e)` (e.g. order.rs:36) -/
def ensure (c : Bool) (e : Err) : EM σ Unit := fun s => if c then .ok () s else .err e s

end EM

/-- Sumtree operations (sumtree/node.rs, sumtree/tree.rs). -/
abbrev TM := EM TreeSt
/-- Contract operations (contract.rs, order.rs, sudo.rs, auth.rs, tick.rs, orderbook.rs). -/
abbrev M := EM Store

/-- Run a sumtree operation (sumtree/node.rs, sumtree/tree.rs) on the sumtree part of the storage. -/
def liftTree {α : Type} (x : TM α) : M α := fun s =>
  match x s.trees with
  | .ok a t => .ok a { s with trees := t }
  | .err e t => .err e { s with trees := t }

end OB
