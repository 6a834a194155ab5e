import Verif.Model.Text
import Verif.Model.TickMath
/-
error.rs: the texts of the errors (`thiserror`'s `Display`). Numbers and denoms are formatted as in Model/Text; `{:?}` of `Uint128` and
`Decimal256` puts the name of the type around the number (cosmwasm-std 1.5), `{:?}` of `Option` is Rust's.
Simplified: the texts of the libraries' own errors (`Std`, `Overflow`, `ConversionOverflow`, `CheckedFromRatio`) and what the bank says inside a
`ReplyError` are not modelled (`none`), nor is there a text for panics and for what happens before the contract runs.
-/
namespace OB

/-- `{:?}` of `Uint128` (error.rs:45, 48) -/
def uint128Debug (n : Nat) : List Char := "Uint128(".toList ++ natText n ++ [')']

/-- `{:?}` of `Decimal256` (error.rs:103, 123) -/
def dec256Debug (x : Nat) : List Char := "Decimal256(".toList ++ decText x ++ [')']

/-- `{:?}` of `Option<Decimal256>` (error.rs:103) -/
def optDec256Debug : Option Nat → List Char
  | none => "None".toList
  | some x => "Some(".toList ++ dec256Debug x ++ [')']

/-- The texts of cw-utils 1.0's `PaymentError` (error.rs:20-21, transparent). -/
def PaymentErr.text : PaymentErr → List Char
  | .missingDenom d => "Must send reserve token '".toList ++ d.toList ++ "'".toList
  | .multipleDenoms => "Sent more than one denomination".toList
  | .noFunds => "No funds sent".toList
  | .nonPayable => "This message does no accept funds".toList

/-- order.rs:446, 567; sudo.rs:120, 215-218, 225-228, 236, 247-249 -/
def SwapErr.text : SwapErr → List Char
  | .zeroInput => "Input amount cannot be zero".toList
  | .zeroStep => "Input amount for a given swap step cannot be zero".toList
  | .sameDenoms => "Input and output denoms cannot be the same".toList
  | .maxIn expected received => "Exceeded max swap amount: expected ".toList ++ natText expected ++ " received ".toList ++ natText received
  | .minOut expected received => "Did not meet minimum swap amount: expected ".toList ++ natText expected ++ " received ".toList ++ natText received
  | .fee received => "Provided swap fee does not match: expected ".toList ++ decText EXPECTED_SWAP_FEE ++ " received ".toList ++ decText received

/-- error.rs:9-128: the text of an error, if it is the contract's own. -/
def Err.text : Err → Option (List Char)
  | .payment e => some e.text
  | .unauthorized => some "Unauthorized".toList
  | .invalidTickId t => some ("Invalid tick ID: ".toList ++ intText t)
  | .invalidQuantity q => some ("Invalid quantity: ".toList ++ uint128Debug q)
  | .insufficientFunds sent required =>
    some ("Insufficient funds. Sent: ".toList ++ uint128Debug sent ++ ", Required: ".toList ++ uint128Debug required)
  | .invalidPair a b => some ("Invalid pair: (".toList ++ a.toList ++ ", ".toList ++ b.toList ++ ")".toList)
  | .invalidSwap e => some ("Invalid swap: ".toList ++ e.text)
  | .invalidDenom _ => some "Invalid denom".toList
  | .duplicateDenoms => some "Base and quote denoms cannot be the same".toList
  | .orderNotFound t id => some ("Order not found: ".toList ++ intText t ++ ", ".toList ++ natText id)
  | .tickOutOfBounds t => some ("Tick out of bounds: ".toList ++ intText t)
  | .invalidNodeType => some "Invalid Node Type".toList
  | .childlessInternalNode => some "Childless Internal Node".toList
  | .cancelFilledOrder => some "Cannot cancel an order that has partially or fully been filled".toList
  | .invalidTickSync => some "Invalid tick state: syncing tick pushed ETAS past CTT".toList
  | .zeroClaim => some "Zero Claim: Nothing to be claimed yet".toList
  | .nodeInsertionError => some "Node insertion error".toList
  | .insufficientLiquidity => some "Orderbook ran out of liquidity during market order".toList
  | .invalidClaimBounty b => some ("Claim bounty must be a value between 0 and 0.01 (1%). Received: ".toList ++ optDec256Debug b)
  | .batchClaimLimitExceeded n =>
    some ("Exceeded the maximum number of claims in a batch. Maximum allowed: ".toList ++ natText n)
  | .inactive => some "Orderbook is inactive".toList
  | .noMakerFeeRecipient => some "No maker fee recipient currently set".toList
  | .invalidMakerFeeRecipient => some "Invalid Maker Fee Recipient".toList
  | .invalidMakerFee =>
    some ("Invalid Maker Fee: provided fee must be less than or equal to ".toList ++ dec256Debug MAX_MAKER_FEE_PERCENTAGE)
  | .std | .overflow | .conversionOverflow | .checkedFromRatio | .replyError _ | .invalidPrefixSum | .invalidSumtree | .panic | .diverge
  | .decode | .bank => none

end OB
