import Verif.SpecAns
/- Two deployments that differ in their administration only (C107). -/
namespace OB.Spec

/-- Operations that are not trades: administration, governance calls other than swaps, migrations, and plain bank transfers and mints. -/
def Op.Aside : Op → Prop
  | .execute _ _ _ (.auth _) | .sudo _ (.transferAdmin _) | .sudo _ .removeAdmin | .sudo _ (.setActive _) | .migrate | .mint .. | .transfer .. => True
  | _ => False

/-- Histories with the same trades; what happens beside them may differ. -/
def SameTrades (ops ops' : List Op) : Prop := List.Forall₂ (fun a b => a = b ∨ (Op.Aside a ∧ Op.Aside b)) ops ops'

/-- Claims, the operations whose payout the maker fee splits. -/
def Op.IsClaim : Op → Prop
  | .execute _ _ _ (.claimLimit ..) | .execute _ _ _ (.batchClaim _) => True
  | _ => False

/-- An event without the amount that the owner of a claimed order receives. -/
def blind : Event → Event
  | .limitClaimed sender tick id rest owner dir _ placed full orderDenom outputDenom =>
    .limitClaimed sender tick id rest owner dir 0 placed full orderDenom outputDenom
  | e => e

/-- The same up to the split between the owners of orders (transfers of kind 2) and the fee recipient (kind 4): the same total of each coin is paid
out, the same claim bounties, and the events differ in the owners' amounts only. -/
def SameButSplit (resp resp' : Response) : Prop :=
  resp.data = resp'.data ∧ resp.events.map blind = resp'.events.map blind ∧
  (∀ d, amountOf d (resp.msgs.map SendMsg.coin) = amountOf d (resp'.msgs.map SendMsg.coin)) ∧
  (resp.msgs.filter fun m => m.replyId ≠ 2 ∧ m.replyId ≠ 4) = resp'.msgs.filter fun m => m.replyId ≠ 2 ∧ m.replyId ≠ 4

/-- Two outcomes of a trade that agree: the same rejection, or acceptance with the same response; for claims the same up to the split. -/
def Agree (op : Op) : Except Err Response → Except Err Response → Prop
  | .error e, .error e' => e = e'
  | .ok resp, .ok resp' => SameButSplit resp resp' ∧ (¬ Op.IsClaim op → resp = resp')
  | _, _ => False

/-- Queries about the administration. -/
def OfAdmin : QueryMsg → Prop
  | .getMakerFee | .auth _ => True
  | _ => False

end OB.Spec
