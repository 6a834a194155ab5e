import Verif.SpecFlow
import Verif.Model.Refuse
/- Vocabulary for banks that refuse transfers. -/
namespace OB.Spec

/-- The accounts an operation pays from or to: the account that sends it; for a claim also the owner of the order and the recipient of
the maker fee. -/
def Party (s : Store) (op : Op) (a : Addr) : Prop :=
  match op with
  | .execute sender _ _ (.claimLimit tick id) =>
    a = sender ∨ (∃ o, s.orders.get? (tick, id) = some o ∧ a = o.owner) ∨ s.makerFeeRecipient = some a
  | .execute sender _ _ (.batchClaim l) =>
    a = sender ∨ (∃ k ∈ l, ∃ o, s.orders.get? k = some o ∧ a = o.owner) ∨ s.makerFeeRecipient = some a
  | .execute sender _ _ _ => a = sender
  | .sudo _ (.swapExactAmountIn sender ..) => a = sender
  | .sudo _ (.swapToTick sender ..) => a = sender
  | .transfer src dst _ => a = src ∨ a = dst
  | _ => False

/-- The first transfer of the list that is refused. -/
def FirstRefused (rf : Refusals) (src : Addr) (ms : List SendMsg) (m : SendMsg) : Prop :=
  ∃ p q, ms = p ++ m :: q ∧ (∀ x ∈ p, rf src x.to x.coin = false) ∧ rf src m.to m.coin = true

end OB.Spec
