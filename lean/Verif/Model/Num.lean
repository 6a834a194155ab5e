/-
Fixed-width arithmetic of `cosmwasm_std` as used by the contract.

`Decimal256` is represented by its numerator ("atomics"): a `Nat` below 2^256, 10^18 atomics per unit.
`Uint128`, `Uint256`, `u64` are `Nat`s with explicit range checks.

The library itself is not part of /repo; the semantics below are those of cosmwasm-std 1.5
(`/repo/contracts/sumtree-orderbook/Cargo.toml:45`), see the trusted base in DESIGN.md.
-/
namespace OB

/-- The text inside `ContractError::InvalidSwap` (error.rs:57-58), by its source: order.rs:445-447, 566-568; sudo.rs:119-121, 214-219, 224-229,
235-237, 246-250; `.text` in Model/ErrText spells it out. -/
inductive SwapErr where
  | zeroInput
  | zeroStep
  | sameDenoms
  | maxIn (expected received : Nat)
  | minOut (expected received : Nat)
  | fee (received : Nat)
  deriving DecidableEq, Repr

/-- `cw_utils::PaymentError` (error.rs:20-21, from order.rs:63, 145, 251, 286), the kinds that `must_pay` and `nonpayable` report. -/
inductive PaymentErr where
  | missingDenom (denom : String)
  | multipleDenoms
  | noFunds
  | nonPayable
  deriving DecidableEq, Repr

/-- Errors of the contract: `error.rs:9-128`, plus the library errors it wraps.
Payloads are kept only where they are plain data. `panic` is a Rust panic (`unwrap` on an error, arithmetic overflow
with `overflow-checks = true`, `unimplemented!`): the VM aborts and nothing catches it.
`diverge` is the model's "ran out of fuel" (Rust would recurse forever); it is proved unreachable.
`decode` is a message whose integers do not fit the Rust types (rejected by serde before the entry point runs).
`bank` is a failed bank transfer. -/
inductive Err where
  | std            -- ContractError::Std (missing key, failed addr_validate)
  | overflow       -- ContractError::Overflow
  | payment (e : PaymentErr)
  | conversionOverflow
  | checkedFromRatio
  | unauthorized
  | invalidTickId (tick : Int)
  | invalidQuantity (quantity : Nat)
  | insufficientFunds (sent required : Nat)
  | invalidPair (tokenIn tokenOut : String)
  | invalidSwap (e : SwapErr)
  | invalidDenom (denom : String)
  | duplicateDenoms
  | orderNotFound (tick : Int) (order : Nat)
  | replyError (id : Nat)
  | tickOutOfBounds (tick : Int)
  | invalidNodeType
  | childlessInternalNode
  | cancelFilledOrder
  | invalidTickSync
  | invalidPrefixSum
  | zeroClaim
  | nodeInsertionError
  | insufficientLiquidity
  | invalidClaimBounty (bounty : Option Nat)
  | batchClaimLimitExceeded (max : Nat)
  | inactive
  | noMakerFeeRecipient
  | invalidMakerFeeRecipient
  | invalidMakerFee
  | invalidSumtree
  | panic
  | diverge
  | decode
  | bank
  deriving DecidableEq, Repr

/-- Number of values of `u64` (e.g. order ids, state.rs:8, and node ids, sumtree/node.rs:17-26). -/
def U64 : Nat := 2 ^ 64
/-- Number of values of `Uint128` (quantities, types/order.rs:45; msg.rs:19). -/
def U128 : Nat := 2 ^ 128
/-- Number of values of `Uint256`/`Decimal256` (types/tick.rs:7-34, types/coin.rs:20-23). -/
def U256 : Nat := 2 ^ 256
/-- `Decimal256::DECIMAL_FRACTIONAL`: atomics per unit, 10^18 (cosmwasm_std; all Decimal256 values, e.g. types/tick.rs:7-34). -/
def D : Nat := 10 ^ 18

/-- `u64 + 1` (state.rs:57, sumtree/node.rs:23) under `overflow-checks = true` (`Cargo.toml:25`). -/
def u64Succ (x : Nat) : Except Err Nat :=
  if x + 1 < U64 then .ok (x + 1) else .error .panic

/-- `Uint128::try_from(Uint256)` (cosmwasm_std; order.rs:555, 574, 667; query.rs:125, 131). -/
def u128TryFrom (x : Nat) : Except Err Nat :=
  if x < U128 then .ok x else .error .conversionOverflow

/-- `Uint128::checked_sub`, `Uint256::checked_sub`, `Decimal256::checked_sub` (cosmwasm_std; order.rs:216, 547, 574, 665, 673, 710, 727;
state.rs:157; tick.rs:64; tick_math.rs:59; tree.rs:120, 170, 196). -/
def checkedSub (x y : Nat) : Except Err Nat :=
  if y ≤ x then .ok (x - y) else .error .overflow

/-- `Uint256::checked_add`, `Decimal256::checked_add` (cosmwasm_std; order.rs:114, 118, 551, 580, 674; state.rs:137; tick.rs:75;
tick_math.rs:61; node.rs:178, 337, 548; tree.rs:139). -/
def checkedAdd (x y : Nat) : Except Err Nat :=
  if x + y < U256 then .ok (x + y) else .error .overflow

/-- `Decimal256::checked_from_ratio(n, d)` (cosmwasm_std; tick_math.rs:71) on `Uint256` arguments: `⌊n·10^18/d⌋` (512-bit intermediate). -/
def checkedFromRatio (n d : Nat) : Except Err Nat :=
  if d = 0 then .error .checkedFromRatio
  else if n * D / d < U256 then .ok (n * D / d) else .error .checkedFromRatio

/-- `Decimal256::from_ratio(n, d)` (cosmwasm_std; order.rs:108, 118, 189, 216, 397, 533, 666, 708, 724; tick_math.rs:51, 74, 101, 124): as
`checked_from_ratio` but panics. -/
def fromRatio (n d : Nat) : Except Err Nat :=
  match checkedFromRatio n d with
  | .ok x => .ok x
  | .error _ => .error .panic

/-- `Decimal256::checked_mul` (cosmwasm_std; order.rs:708, 725; tick_math.rs:55, 101): `⌊x·y/10^18⌋` (512-bit intermediate). -/
def checkedMul (x y : Nat) : Except Err Nat :=
  if x * y / D < U256 then .ok (x * y / D) else .error .overflow

/-- `Decimal256::checked_div` (cosmwasm_std; tick_math.rs:124): `checked_from_ratio` of the numerators. -/
def checkedDiv (x y : Nat) : Except Err Nat := checkedFromRatio x y

/-- `Decimal256::to_uint_floor` (cosmwasm_std; order.rs:555, 667, 709, 726; query.rs:125, 131; tick_math.rs:88). -/
def toUintFloor (x : Nat) : Nat := x / D

/-- `Decimal256::to_uint_ceil` (cosmwasm_std; tick_math.rs:90). -/
def toUintCeil (x : Nat) : Nat := if x = 0 then 0 else 1 + (x - 1) / D

/-- `Uint256::checked_mul` (cosmwasm_std; tick_math.rs:73). -/
def u256CheckedMul (x y : Nat) : Except Err Nat :=
  if x * y < U256 then .ok (x * y) else .error .overflow

/-- `Uint256::checked_pow` (cosmwasm_std; tick_math.rs:69). -/
def u256CheckedPow (b e : Nat) : Except Err Nat :=
  if b ^ e < U256 then .ok (b ^ e) else .error .overflow

/-- `Decimal256::percent(x)` (cosmwasm_std; constants.rs:11, order.rs:51). -/
def percent (x : Nat) : Nat := x * 10 ^ 16

/-- `Decimal256::inv` (cosmwasm_std; query.rs:64): `None` for zero, else `10^36 / numerator`. -/
def decInv (x : Nat) : Option Nat := if x = 0 then none else some (D * D / x)

/-- `Decimal256::MAX` (cosmwasm_std; node.rs:96). -/
def decMax : Nat := U256 - 1

end OB
