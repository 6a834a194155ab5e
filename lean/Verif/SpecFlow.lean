import Verif.SpecBook
/- Vocabulary for the statements about the flow of coins. -/
namespace OB.Spec

/-- The payment that comes with an operation: who pays, to whom, which coins. -/
def payment (ch : Chain) : Op → Option (Addr × Addr × List Coin)
  | .execute sender funds _ _ => some (sender, ch.contract, funds)
  | .sudo _ (.swapExactAmountIn sender tokenIn _ _ _) => some (sender, ch.contract, [tokenIn])
  | .sudo _ (.swapToTick sender tokenIn _ _ _ _) => some (sender, ch.contract, [tokenIn])
  | .transfer src dst c => some (src, dst, [c])
  | _ => none

/-- What `a` pays in `d` with the operation. -/
def paysIn (ch : Chain) (op : Op) (a : Addr) (d : Denom) : Nat :=
  match payment ch op with
  | some (src, _, cs) => if a = src then amountOf d cs else 0
  | none => 0

/-- What `a` is paid in `d` with the operation. -/
def getsPaid (ch : Chain) (op : Op) (a : Addr) (d : Denom) : Nat :=
  match payment ch op with
  | some (_, dst, cs) => if a = dst then amountOf d cs else 0
  | none => 0

end OB.Spec
