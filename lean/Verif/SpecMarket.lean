import Verif.SpecAns
import Verif.SpecIds
/- Claims and gifts decide nothing about the market (C109). -/
namespace OB.Spec

/-- Operations that are not part of the market: claims, plain bank transfers and mints, and migrations. -/
def Op.quiet : Op → Bool
  | .execute _ _ _ (.claimLimit ..) | .execute _ _ _ (.batchClaim _) | .transfer .. | .mint .. | .migrate => true
  | _ => false

def Op.isCancel : Op → Bool
  | .execute _ _ _ (.cancelLimit ..) => true
  | _ => false

/-- The operations of a history that are part of the market: placements, cancellations, swaps and the administration. -/
def market (ops : List Op) : List Op := ops.filter fun op => !Op.quiet op

/-- These operations with their outcomes. -/
def marketOutcomes (ch : Chain) (w : World) (ops : List Op) : List (Op × Except Err Response) :=
  (ops.zip (answers ch w ops)).filter fun p => !Op.quiet p.1

/-- The same outcome: the same error, or acceptance with the same response. Refused cancellations may be refused with different errors: if a filled order was
claimed it is gone. -/
def SameOutcome (p p' : Op × Except Err Response) : Prop :=
  p.1 = p'.1 ∧ (p.2 = p'.2 ∨ (Op.isCancel p.1 = true ∧ (∃ e, p.2 = .error e) ∧ ∃ e, p'.2 = .error e))

/-- Nobody lacked money, and nobody tried to cancel an order with an unclaimed fill. -/
def Unhindered (p : Op × Except Err Response) : Prop := p.2 ≠ .error .bank ∧ p.2 ≠ .error .cancelFilledOrder

/-- The order, whatever was claimed of it. -/
def _root_.OB.Entry.unclaimed (x : Entry) : Entry := { x with claimed := 0 }

end OB.Spec
