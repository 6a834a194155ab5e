import Verif.Model.ErrText
import Verif.SpecErr
import Verif.SpecAdmin
import Verif.SpecText
/- The wording of rejections. -/
namespace OB.Spec

/-- A piece of a text: words, or a number in decimal notation. -/
inductive Piece where
  | words (s : String)
  | nat (n : Nat)
  | int (t : Int)
  | dec (x : ℚ)

/-- The piece can be read off the text. -/
def Piece.Reads : Piece → List Char → Prop
  | .words s, t => t = s.toList
  | .nat n, t => number t = some n
  | .int n, t => integer t = some n
  | .dec x, t => decimal t = some x

/-- A text that consists of these pieces, one after the other. `none`: there is no text of the contract (the chain or a library speaks). -/
def Matches : Option (List Piece) → Option (List Char) → Prop
  | none, t => t = none
  | some ps, t => ∃ ts, List.Forall₂ Piece.Reads ps ts ∧ t = some ts.flatten

/-- A checklist with wordings: the text is that of the first condition that fails. -/
def Says : List (Prop × Option (List Piece)) → Option (List Char) → Prop
  | [], _ => False
  | (c, m) :: rest, t => (¬ c ∧ Matches m t) ∨ (c ∧ Says rest t)

/-- Only words. -/
def plain (s : String) : Option (List Piece) := some [.words s]

/-- Before a trading message of a user reaches the book. -/
def userSays (ch : Chain) (w : World) (sender : Addr) (funds : List Coin) (msg : ExecuteMsg) : List (Prop × Option (List Piece)) :=
  [(sender ≠ ch.contract, none), (msg.wellTyped = true, none), ((∃ bank, w.bank.sendAll sender ch.contract funds = .ok bank), none),
   (isActive w.store = true, plain "Orderbook is inactive")]

/-- A message that takes no funds came with some. -/
def noFundsSays : Option (List Piece) := plain "This message does no accept funds"

/-- The tick is not acceptable. -/
def badTick (t : Int) : Option (List Piece) := some [.words "Invalid tick ID: ", .int t]

/-- There is no such order. -/
def noOrder (tick : Int) (id : Nat) : Option (List Piece) := some [.words "Order not found: ", .int tick, .words ", ", .nat id]

/-- The wordings for the funds sent with an order of `q`. -/
def fundsSays (denom : Denom) (funds : List Coin) (q : Nat) : List (Prop × Option (List Piece)) :=
  [(funds.length ≤ 1, plain "Sent more than one denomination"), ((∃ c, c.amount ≠ 0 ∧ funds = [c]), plain "No funds sent"),
   ((∃ a, a ≠ 0 ∧ funds = [⟨denom, a⟩]), some [.words "Must send reserve token '", .words denom, .words "'"]),
   (funds = [⟨denom, q⟩], some [.words "Insufficient funds. Sent: Uint128(", .nat (amountOf denom funds), .words "), Required: Uint128(", .nat q, .words ")"])]

/-- What stops the matching engine, in words. -/
noncomputable def matchSays (side : Dir) (levels : List (Int × Nat)) (q : Nat) : Option (List Piece) :=
  match matchError side levels q with
  | some (.invalidSwap _) => plain "Invalid swap: Input amount for a given swap step cannot be zero"
  | _ => none

/-- A configuration message with a bad argument. -/
def badArgumentSays : AuthMsg → Option (List Piece)
  | .setMakerFee _ => some [.words "Invalid Maker Fee: provided fee must be less than or equal to Decimal256(", .dec (5 / 100), .words ")"]
  | .setMakerFeeRecipient _ => plain "Invalid Maker Fee Recipient"
  | _ => none

/-- The kind of a reason: the reason without its numbers and names. -/
def kindOf : Err → Err
  | .payment (.missingDenom _) => .payment (.missingDenom "")
  | .invalidTickId _ => .invalidTickId 0
  | .invalidQuantity _ => .invalidQuantity 0
  | .insufficientFunds _ _ => .insufficientFunds 0 0
  | .invalidPair _ _ => .invalidPair "" ""
  | .invalidSwap (.maxIn _ _) => .invalidSwap (.maxIn 0 0)
  | .invalidSwap (.minOut _ _) => .invalidSwap (.minOut 0 0)
  | .invalidSwap (.fee _) => .invalidSwap (.fee 0)
  | .invalidDenom _ => .invalidDenom ""
  | .orderNotFound _ _ => .orderNotFound 0 0
  | .tickOutOfBounds _ => .tickOutOfBounds 0
  | .invalidClaimBounty (some _) => .invalidClaimBounty (some 0)
  | .batchClaimLimitExceeded _ => .batchClaimLimitExceeded 0
  | .replyError _ => .replyError 0
  | e => e

end OB.Spec

namespace OB
open Spec

/-- The wording of an error of the contract. -/
def Err.pieces : Err → Option (List Piece)
  | .payment (.missingDenom d) => some [.words "Must send reserve token '", .words d, .words "'"]
  | .payment .multipleDenoms => plain "Sent more than one denomination"
  | .payment .noFunds => plain "No funds sent"
  | .payment .nonPayable => plain "This message does no accept funds"
  | .unauthorized => plain "Unauthorized"
  | .invalidTickId t => some [.words "Invalid tick ID: ", .int t]
  | .invalidQuantity q => some [.words "Invalid quantity: Uint128(", .nat q, .words ")"]
  | .insufficientFunds sent required => some [.words "Insufficient funds. Sent: Uint128(", .nat sent, .words "), Required: Uint128(", .nat required, .words ")"]
  | .invalidPair a b => some [.words "Invalid pair: (", .words a, .words ", ", .words b, .words ")"]
  | .invalidSwap .zeroInput => plain "Invalid swap: Input amount cannot be zero"
  | .invalidSwap .zeroStep => plain "Invalid swap: Input amount for a given swap step cannot be zero"
  | .invalidSwap .sameDenoms => plain "Invalid swap: Input and output denoms cannot be the same"
  | .invalidSwap (.maxIn x y) => some [.words "Invalid swap: Exceeded max swap amount: expected ", .nat x, .words " received ", .nat y]
  | .invalidSwap (.minOut x y) => some [.words "Invalid swap: Did not meet minimum swap amount: expected ", .nat x, .words " received ", .nat y]
  | .invalidSwap (.fee x) => some [.words "Invalid swap: Provided swap fee does not match: expected 0 received ", .dec (x / 10 ^ 18)]
  | .invalidDenom _ => plain "Invalid denom"
  | .duplicateDenoms => plain "Base and quote denoms cannot be the same"
  | .orderNotFound t id => some [.words "Order not found: ", .int t, .words ", ", .nat id]
  | .tickOutOfBounds t => some [.words "Tick out of bounds: ", .int t]
  | .invalidNodeType => plain "Invalid Node Type"
  | .childlessInternalNode => plain "Childless Internal Node"
  | .cancelFilledOrder => plain "Cannot cancel an order that has partially or fully been filled"
  | .invalidTickSync => plain "Invalid tick state: syncing tick pushed ETAS past CTT"
  | .zeroClaim => plain "Zero Claim: Nothing to be claimed yet"
  | .nodeInsertionError => plain "Node insertion error"
  | .insufficientLiquidity => plain "Orderbook ran out of liquidity during market order"
  | .invalidClaimBounty none => plain "Claim bounty must be a value between 0 and 0.01 (1%). Received: None"
  | .invalidClaimBounty (some x) =>
    some [.words "Claim bounty must be a value between 0 and 0.01 (1%). Received: Some(Decimal256(", .dec (x / 10 ^ 18), .words "))"]
  | .batchClaimLimitExceeded n => some [.words "Exceeded the maximum number of claims in a batch. Maximum allowed: ", .nat n]
  | .inactive => plain "Orderbook is inactive"
  | .noMakerFeeRecipient => plain "No maker fee recipient currently set"
  | .invalidMakerFeeRecipient => plain "Invalid Maker Fee Recipient"
  | .invalidMakerFee => some [.words "Invalid Maker Fee: provided fee must be less than or equal to Decimal256(", .dec (5 / 100), .words ")"]
  | .std | .overflow | .conversionOverflow | .checkedFromRatio | .replyError _ | .invalidPrefixSum | .invalidSumtree | .panic | .diverge
  | .decode | .bank => none

end OB
