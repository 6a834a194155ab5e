import Verif.SpecObs
/- Vocabulary for the statements about roles and configuration: a reference state machine. -/
namespace OB.Spec

/-- The configuration as the queries report it. -/
structure Roles where
  admin : Option Addr
  adminOffer : Option Addr
  moderator : Option Addr
  moderatorOffer : Option Addr
  active : Bool
  fee : Nat
  recipient : Option Addr
  deriving DecidableEq, Repr

/-- The configuration of a book. -/
def roles (s : Store) : Roles :=
  ⟨authQuery s .admin, authQuery s .adminOffer, authQuery s .moderator, authQuery s .moderatorOffer, isActive s, getMakerFee s,
    s.makerFeeRecipient⟩

/-- Who may send which configuration message. -/
def MayCall (c : Roles) (a : Addr) : AuthMsg → Prop
  | .transferAdmin _ | .cancelAdminTransfer | .renounceAdminship | .offerModerator _ | .setMakerFee _ | .setMakerFeeRecipient _ =>
    c.admin = some a
  | .setActive _ => c.admin = some a ∨ c.moderator = some a
  | .claimAdmin | .rejectAdminTransfer => c.adminOffer = some a
  | .claimModerator | .rejectModeratorOffer => c.moderatorOffer = some a

/-- The arguments are acceptable: addresses are valid, the maker fee is at most 5%. -/
def Sensible (valid : Addr → Bool) (a : Addr) : AuthMsg → Prop
  | .transferAdmin x | .offerModerator x | .setMakerFeeRecipient x => valid x = true
  | .claimAdmin | .claimModerator => valid a = true
  | .setMakerFee fee => fee ≤ 5 * 10 ^ 16
  | _ => True

/-- What each configuration message does. -/
def rolesAfter (c : Roles) (a : Addr) : AuthMsg → Roles
  | .transferAdmin x => { c with adminOffer := some x }
  | .cancelAdminTransfer | .rejectAdminTransfer => { c with adminOffer := none }
  | .claimAdmin => { c with admin := some a, adminOffer := none }
  | .renounceAdminship => { c with admin := none }
  | .offerModerator x => { c with moderatorOffer := some x }
  | .rejectModeratorOffer => { c with moderatorOffer := none }
  | .claimModerator => { c with moderator := some a, moderatorOffer := none }
  | .setActive x => { c with active := x }
  | .setMakerFee fee => { c with fee := fee }
  | .setMakerFeeRecipient x => { c with recipient := some x }

/-- What any accepted operation does to the configuration: only configuration messages and governance calls touch it. -/
def rolesOp (c : Roles) : Op → Roles
  | .execute a _ _ (.auth m) => rolesAfter c a m
  | .sudo _ (.transferAdmin a) => { c with admin := some a }
  | .sudo _ .removeAdmin => { c with admin := none }
  | .sudo _ (.setActive x) => { c with active := x }
  | _ => c

/-- Everything but the configuration is the same. -/
structure SameBook (s s' : Store) : Prop where
  orderId : s'.orderId = s.orderId
  orderbook : s'.orderbook = s.orderbook
  ticks : s'.ticks = s.ticks
  dirLiq : s'.dirLiq = s.dirLiq
  orders : s'.orders = s.orders
  trees : s'.trees = s.trees

end OB.Spec
