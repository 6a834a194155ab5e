import Verif.SpecSays
import Verif.SpecQuery
import Verif.Model.Reenter
/- Why a query is refused. -/
namespace OB.Spec

/-- The price levels of a side, best first, with their liquidity. -/
def Depth (s : Store) (side : Dir) (levels : List (Int × Nat)) : Prop :=
  levels.Pairwise (fun x y => Better side x.1 y.1) ∧ ∀ t liquidity, (t, liquidity) ∈ levels ↔ liquidity = tickLiquidity s t side ∧ liquidity ≠ 0

/-- The checklist of a quote: no fee; the book's pair; a positive input; the matching engine gets through; nothing worth a unit at the last price is
left over; the output fits 128 bits. -/
noncomputable def quoteChecks (ob : Orderbook) (depth : Dir → List (Int × Nat)) (tokenIn : Coin) (out : Denom) (fee : Nat) : List (Prop × Err) :=
  let side := if tokenIn.denom = ob.baseDenom then Dir.bid else .ask
  let result := matchLevels side (depth side) tokenIn.amount
  [(fee = 0, .invalidSwap (.fee fee)),
   ((tokenIn.denom = ob.baseDenom ∧ out = ob.quoteDenom) ∨ (tokenIn.denom = ob.quoteDenom ∧ out = ob.baseDenom), .invalidPair tokenIn.denom out),
   (tokenIn.amount ≠ 0, .invalidSwap .zeroInput),
   (matchError side (depth side) tokenIn.amount = none, (matchError side (depth side) tokenIn.amount).getD .std),
   (∀ F left dust, result = some (F, left, dust) → usedUp side F left, .insufficientLiquidity),
   (outputOf result < 2 ^ 128, .panic)]

/-- The checklist of every query. `b` is the book's history (which ticks have ever been used), `depth` its price levels. -/
noncomputable def queryChecks (s : Store) (ob : Orderbook) (b : Book) (depth : Dir → List (Int × Nat)) : QueryMsg → List (Prop × Err)
  | .spotPrice quote base =>
    [((quote = ob.quoteDenom ∧ base = ob.baseDenom) ∨ (quote = ob.baseDenom ∧ base = ob.quoteDenom), .invalidPair base quote)]
  | .calcOutAmountGivenIn c out fee => quoteChecks ob depth c out fee
  | .calcOutAmtGivenIn c out fee => quoteChecks ob depth c out fee
  | .getTotalPoolLiquidity => [(∀ d, overTicks (fun t => tickLiquidity s t d) < 2 ^ 128, .panic)]
  | .calcInAmtGivenOut => [(False, .panic)]
  | .ticksById ids => ids.map fun t => (Used b t, .invalidTickId t)
  | .getUnrealizedCancels ids => ids.map fun t => (Used b t, .invalidTickId t)
  | _ => []

/-- The wordings of a quote. -/
noncomputable def quoteSays (ob : Orderbook) (depth : Dir → List (Int × Nat)) (tokenIn : Coin) (out : Denom) (fee : Nat) :
    List (Prop × Option (List Piece)) :=
  let side := if tokenIn.denom = ob.baseDenom then Dir.bid else .ask
  let result := matchLevels side (depth side) tokenIn.amount
  [(fee = 0, some [.words "Invalid swap: Provided swap fee does not match: expected 0 received ", .dec (fee / 10 ^ 18)]),
   ((tokenIn.denom = ob.baseDenom ∧ out = ob.quoteDenom) ∨ (tokenIn.denom = ob.quoteDenom ∧ out = ob.baseDenom),
     some [.words "Invalid pair: (", .words tokenIn.denom, .words ", ", .words out, .words ")"]),
   (tokenIn.amount ≠ 0, plain "Invalid swap: Input amount cannot be zero"),
   (matchError side (depth side) tokenIn.amount = none, matchSays side (depth side) tokenIn.amount),
   (∀ F left dust, result = some (F, left, dust) → usedUp side F left, plain "Orderbook ran out of liquidity during market order"),
   (outputOf result < 2 ^ 128, none)]

/-- The wordings of every query. -/
noncomputable def querySays (s : Store) (ob : Orderbook) (b : Book) (depth : Dir → List (Int × Nat)) : QueryMsg → List (Prop × Option (List Piece))
  | .spotPrice quote base =>
    [((quote = ob.quoteDenom ∧ base = ob.baseDenom) ∨ (quote = ob.baseDenom ∧ base = ob.quoteDenom),
      some [.words "Invalid pair: (", .words base, .words ", ", .words quote, .words ")"])]
  | .calcOutAmountGivenIn c out fee => quoteSays ob depth c out fee
  | .calcOutAmtGivenIn c out fee => quoteSays ob depth c out fee
  | .getTotalPoolLiquidity => [(∀ d, overTicks (fun t => tickLiquidity s t d) < 2 ^ 128, none)]
  | .calcInAmtGivenOut => [(False, none)]
  | .ticksById ids => ids.map fun t => (Used b t, badTick t)
  | .getUnrealizedCancels ids => ids.map fun t => (Used b t, badTick t)
  | _ => []

end OB.Spec
