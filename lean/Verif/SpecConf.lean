import Verif.SpecLog
import Verif.SpecAuth
/- A client that follows the configuration by reading events only. -/
namespace OB.Spec

/-- Reading one event of an accepted transaction: what it says about the configuration. A claimed role goes to whoever it was
offered to; the event itself does not repeat the address. -/
def Roles.note (c : Roles) : Event → Roles
  | .method "transfer_admin" [("new_admin", .str a)] => { c with adminOffer := some a }
  | .method "cancel_transfer_admin" [] => { c with adminOffer := none }
  | .method "reject_admin_transfer" [] => { c with adminOffer := none }
  | .method "claim_admin" [] => { c with admin := c.adminOffer, adminOffer := none }
  | .method "renounce_adminship" [] => { c with admin := none }
  | .method "offer_moderator" [("new_moderator", .str a)] => { c with moderatorOffer := some a }
  | .method "reject_moderator_offer" [] => { c with moderatorOffer := none }
  | .method "claim_moderator" [] => { c with moderator := c.moderatorOffer, moderatorOffer := none }
  | .method "set_active" [("active", .bool b)] => { c with active := b }
  | .method "set_maker_fee" [("maker_fee", .dec f)] => { c with fee := f }
  | .method "set_maker_fee_recipient" [("maker_fee_recipient", .str a)] => { c with recipient := some a }
  | .method "sudo_transfer_admin" [("new_admin", .str a)] => { c with admin := some a }
  | .method "sudo_remove_admin" [] => { c with admin := none }
  | _ => c

end OB.Spec
