import Verif.Model.Types
/- constants.rs and tick_math.rs -/
namespace OB

/-- constants.rs:4 -/
def MIN_TICK : Int := -108000000
/-- constants.rs:5 -/
def MAX_TICK : Int := 182402823
/-- constants.rs:6 -/
def EXPONENT_AT_PRICE_ONE : Int := -6
/-- constants.rs:7 -/
def GEOMETRIC_EXPONENT_INCREMENT_DISTANCE_IN_TICKS : Int := 9000000
/-- constants.rs:9 (`Decimal::zero()`) -/
def EXPECTED_SWAP_FEE : Nat := 0
/-- constants.rs:10 -/
def MAX_BATCH_CLAIM : Nat := 100
/-- constants.rs:11 -/
def MAX_MAKER_FEE_PERCENTAGE : Nat := percent 5
/-- constants.rs:14 -/
def OSMOSIS_GOV_ADDR : Addr := "osmo10d07y265gmmuvt4z0w9aw880jnsr700jjeq4qp"
/-- constants.rs:18-19 -/
def CIRCUIT_BREAKER_SUBDAO_ADDR : Addr := "osmo1peuxfjj66n2qt2v5jmqlvzz8neakjgduez7vttvemw58uug6546sr60ngl"
/-- constants.rs:24 -/
def DEFAULT_MAKER_FEE_RECIPIENT : Addr := "osmo1r9jc2234fljy93z80cevqjt3nmjycec8aj4cc6"
/-- constants.rs:27 -/
def DEFAULT_MAKER_FEE : Nat := 0

/-- tick_math.rs:67-76 `pow_ten`. `expo` is an `i32`; every caller passes a value in [-25, 20]. -/
def powTen (expo : Int) : Except Err Nat := do
  let target ← u256CheckedPow 10 expo.natAbs
  if expo < 0 then checkedFromRatio 1 target
  else do
    let res ← u256CheckedMul 1 target
    fromRatio res 1

/-- tick_math.rs:12-65 `tick_to_price`. Rust's `/` on `i64` truncates towards zero: `Int.tdiv`. -/
def tickToPrice (tickIndex : Int) : Except Err Nat :=
  if tickIndex = 0 then .ok D
  else if ¬ (tickIndex ≥ MIN_TICK ∧ tickIndex ≤ MAX_TICK) then .error (.tickOutOfBounds tickIndex)
  else do
    let delta := Int.tdiv tickIndex GEOMETRIC_EXPONENT_INCREMENT_DISTANCE_IN_TICKS
    let expo0 := EXPONENT_AT_PRICE_ONE + delta
    let expo := if tickIndex < 0 then expo0 - 1 else expo0
    let increment ← powTen expo
    let numAdditive := tickIndex - delta * GEOMETRIC_EXPONENT_INCREMENT_DISTANCE_IN_TICKS
    let geometric ← powTen delta
    let n ← fromRatio numAdditive.natAbs 1
    let additive ← checkedMul n increment
    if numAdditive < 0 then checkedSub geometric additive
    else checkedAdd geometric additive

/-- tick_math.rs:79-82 -/
inductive Rounding where
  | down
  | up
  deriving DecidableEq, Repr

/-- tick_math.rs:86-92 -/
def Rounding.round : Rounding → Nat → Nat
  | .down, x => toUintFloor x
  | .up, x => toUintCeil x

/-- tick_math.rs:96-116 (any failure of the multiplication is reported as `Overflow`) -/
def multiplyByPrice (amount price : Nat) (r : Rounding) : Except Err Nat := do
  let a ← fromRatio amount 1
  match checkedMul price a with
  | .ok x => .ok (r.round x)
  | .error _ => .error .overflow

/-- tick_math.rs:119-136 -/
def divideByPrice (amount price : Nat) (r : Rounding) : Except Err Nat := do
  let a ← fromRatio amount 1
  match checkedDiv a price with
  | .ok x => .ok (r.round x)
  | .error _ => .error .overflow

/-- tick_math.rs:139-152 -/
def amountToValue (dir : Dir) (amount price : Nat) (r : Rounding) : Except Err Nat :=
  if amount = 0 then .ok 0
  else match dir with
    | .bid => divideByPrice amount price r
    | .ask => multiplyByPrice amount price r

end OB
