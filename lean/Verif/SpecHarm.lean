import Verif.SpecExploit
import Verif.SpecExit
/- Vocabulary for what others can do to an account. -/
namespace OB.Spec

/-- What the claims of orders of the accounts `S` cost them at most, in quote: 6/94 of the amount paid out to the owner (5% maker fee and
1% bounty are 6 of 100, the owner gets the other 94) and less than one unit of the denom paid out. -/
def claimCosts (t0 : Int) (S : Finset Addr) (es : List Event) : ℚ :=
  (es.map fun e => match e with
    | .limitClaimed _ _ _ _ owner dir amount _ _ _ _ => if owner ∈ S then inWorth t0 dir.opposite (6 / 94 * amount + 1) else 0
    | _ => 0).sum

/-- Who signs an operation. -/
def signer : Op → Option Addr
  | .execute a _ _ _ => some a
  | .sudo _ (.swapExactAmountIn a ..) => some a
  | .sudo _ (.swapToTick a ..) => some a
  | .transfer a _ _ => some a
  | _ => none

/-- What a maker does: place orders that do not bid above or ask below the price of tick `t0`, cancel and claim. -/
def MakerOp (t0 : Int) : Op → Prop
  | .execute _ _ _ (.placeLimit tick dir _ _) => ¬ Better dir tick t0
  | .execute _ _ _ (.cancelLimit _ _) => True
  | .execute _ _ _ (.claimLimit _ _) => True
  | .execute _ _ _ (.batchClaim _) => True
  | _ => False

/-- The open orders of the accounts `S` do not bid above or ask below the price of tick `t0`. -/
def OrdersAround (b : Book) (S : Finset Addr) (t0 : Int) : Prop := ∀ t d, ∀ x ∈ b t d, x.owner ∈ S → x.left ≠ 0 → ¬ Better d t t0

/-- `l` lists the live orders of the accounts `S`, each once. -/
structure OwnedOrders (b : Book) (S : Finset Addr) (l : List (Int × Dir × Entry)) : Prop where
  once : l.Nodup
  all : ∀ t d x, (t, d, x) ∈ l ↔ x ∈ b t d ∧ x.Live ∧ x.owner ∈ S

end OB.Spec
