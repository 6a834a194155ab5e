import Verif.Model.Types
/-
Text forms: numbers as `to_string()` writes them into attributes and messages (order.rs:125-135, 225-240, 344-356, sudo.rs:78-87,
176-183, 261-264, auth.rs:98-101, 319-322, contract.rs:44-48, types/coin.rs:26-43), numbers read back by `from_str`
(query.rs:68, types/coin.rs:39, constants.rs:31,35), and the responses as the lists of attributes and events the chain sees.
The formatting and parsing routines themselves are those of cosmwasm-std 1.5 and of Rust's integers (no code in /repo).
-/
namespace OB

/-- The last `k` decimal digits of a number without leading zeros, used by `natText` (`to_string()`, order.rs:128). -/
def digitsText : Nat → Nat → List Char
  | 0, _ => []
  | k + 1, n => if n < 10 then [n.digitChar] else digitsText k (n / 10) ++ [(n % 10).digitChar]

/-- `to_string()` of `u64`, `Uint128`, `Uint256` (order.rs:128, 130, 229, 347; types/coin.rs:28): decimal digits (never more than
the binary ones). -/
def natText (n : Nat) : List Char := digitsText (n.log2 + 1) n

/-- `to_string()` of `i64` (tick ids; order.rs:127, 228, 346) -/
def intText (t : Int) : List Char := if t < 0 then '-' :: natText t.natAbs else natText t.natAbs

/-- `to_string()` of `bool` (order.rs:353, sudo.rs:263) -/
def boolText (b : Bool) : String := if b then "true" else "false"

/-- types/order.rs:24-37 `String::from(OrderDirection)` and `Display` -/
def Dir.text : Dir → String
  | .ask => "ask"
  | .bid => "bid"

/-- `format!("{:0>padding$}", ..)` of cosmwasm-std's decimal formatting, used by auth.rs:321 and query.rs:68: zeros on the left. -/
def padLeft (k : Nat) (l : List Char) : List Char := List.replicate (k - l.length) '0' ++ l

/-- `trim_end_matches('0')` of cosmwasm-std's decimal formatting, used by auth.rs:321 and query.rs:68. -/
def trimZeros (l : List Char) : List Char := (l.reverse.dropWhile (· == '0')).reverse

/-- `to_string()` of a `Decimal256` with the given atomics (auth.rs:321, query.rs:68): the whole part and, unless zero, a dot and the
18 fractional digits without trailing zeros. -/
def decText (x : Nat) : List Char :=
  if x % 10 ^ 18 = 0 then natText (x / 10 ^ 18)
  else natText (x / 10 ^ 18) ++ '.' :: trimZeros (padLeft 18 (natText (x % 10 ^ 18)))

/-- cosmwasm-std's `Display for Coin`, used by sudo.rs:179: the amount followed by the denom. -/
def coinText (c : Coin) : List Char := natText c.amount ++ c.denom.toList

/-- The digits-only part of Rust's `u128::from_str` (and `Uint256::from_str`; types/coin.rs:39): not empty, digits only, below `bound`. -/
def readDigits (bound : Nat) (l : List Char) : Option Nat :=
  if l ≠ [] ∧ l.all Char.isDigit then
    let n := Nat.ofDigitChars 10 l 0
    if n < bound then some n else none
  else none

/-- `Uint128::from_str` (types/coin.rs:39): a leading plus sign is skipped. -/
def readUint (bound : Nat) (l : List Char) : Option Nat :=
  match l with
  | '+' :: l => readDigits bound l
  | l => readDigits bound l

/-- `Decimal::from_str` (query.rs:68, bound 2^128) and `Decimal256::from_str` (constants.rs:31,35, bound 2^256) as atomics: digits, and
optionally one dot with at most 18 characters after it; checked arithmetic. -/
def readDecimal (bound : Nat) (l : List Char) : Option Nat :=
  match readUint bound (l.takeWhile (· ≠ '.')) with
  | none => none
  | some whole =>
    if whole * 10 ^ 18 < bound then
      match l.dropWhile (· ≠ '.') with
      | [] => some (whole * 10 ^ 18)
      | _ :: frac =>
        if '.' ∈ frac then none
        else match readUint bound frac with
          | none => none
          | some f =>
            if frac.length ≤ 18 then
              let x := whole * 10 ^ 18 + f * 10 ^ (18 - frac.length)
              if x < bound then some x else none
            else none
    else none

/-- constants.rs:30-32 `max_spot_price`; `none` is the panic of `unwrap`. (Not called by the contract itself.) -/
def maxSpotPrice : Option Nat := readDecimal U256 "340282300000000000000".toList

/-- constants.rs:34-36 `min_spot_price`; `none` is the panic of `unwrap`. (Not called by the contract itself.) -/
def minSpotPrice : Option Nat := readDecimal U256 "0.000000000001".toList

/-! ### Responses as text -/

/-- Attributes: key and value (cosmwasm-std; built at order.rs:124-135, 225-240, 344-356, sudo.rs:78-87, 176-183, 261-264, auth.rs). -/
abbrev Attrs := List (String × String)

/-- The part of a response that the chain publishes: the attributes and the custom events (order.rs:273-276, 329-333). -/
structure RawResponse where
  attributes : Attrs
  events : List (String × Attrs)
  deriving DecidableEq

/-- The text of an attribute value (auth.rs:100, 219, 321, 343, sudo.rs:79, 263, contract.rs:46-47). -/
def Attr.text : Attr → String
  | .str s => s
  | .bool b => boolText b
  | .dec x => String.ofList (decText x)

/-- The attributes written for one entry of the structured response: order.rs:124-135 (placeLimit), order.rs:225-240 (cancelLimit),
order.rs:344-356 (the attributes of the event `limitClaimed`), sudo.rs:176-183 (swapExactAmountIn), and the others, each beginning with
its `method`. -/
def Event.attrs : Event → Attrs
  | .placeLimit owner tick id dir q denom out =>
    [("method", "placeLimit"), ("owner", owner), ("tick_id", .ofList (intText tick)), ("order_id", .ofList (natText id)),
     ("order_direction", dir.text), ("quantity", .ofList (natText q)), ("order_denom", denom), ("output_denom", out)]
  | .cancelLimit owner tick id q dir placed denom out =>
    [("method", "cancelLimit"), ("owner", owner), ("tick_id", .ofList (intText tick)), ("order_id", .ofList (natText id)),
     ("quantity", .ofList (natText q)), ("order_direction", dir.text), ("initial_quantity", .ofList (natText placed)),
     ("order_denom", denom), ("output_denom", out)]
  | .limitClaimed sender tick id remaining owner dir amount placed full denom out =>
    [("sender", sender), ("tick_id", .ofList (intText tick)), ("order_id", .ofList (natText id)),
     ("quantity_remaining", .ofList (natText remaining)), ("owner", owner), ("order_direction", dir.text),
     ("amount_claimed", .ofList (natText amount)), ("placed_quantity", .ofList (natText placed)), ("fully_claimed", boolText full),
     ("order_denom", denom), ("output_denom", out)]
  | .swapExactAmountIn sender tokenIn out min output =>
    [("method", "swapExactAmountIn"), ("sender", sender), ("token_in", .ofList (coinText tokenIn)), ("token_out_denom", out),
     ("token_out_min_amount", .ofList (natText min)), ("output_quantity", .ofList (natText output))]
  | .method name attrs => ("method", name) :: attrs.map fun p => (p.1, p.2.text)

/-- order.rs:337-357: the entries published as custom events. -/
def Event.isClaimed : Event → Bool
  | .limitClaimed .. => true
  | _ => false

/-- The published form of a response. A single claim has the attribute `method` and one event (order.rs:273-276), a batch claim the
attributes of `batchClaimLimit` and one event per claimed order (order.rs:329-333), any other response only attributes. -/
def Response.raw (r : Response) : RawResponse :=
  { attributes := match r.events with
      | [] => []
      | e :: _ => if e.isClaimed then [("method", "claimLimit")] else e.attrs
    events := (r.events.filter Event.isClaimed).map fun e => ("limitClaimed", e.attrs) }

end OB
