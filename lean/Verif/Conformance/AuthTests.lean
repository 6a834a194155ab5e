import Verif.Conformance.Harness
import Verif.Model.Query
/- The loops of tests/test_auth.rs, tests/test_orderbook.rs and tests/test_instantiate.rs. The `dispatch_*` functions called
there are the branches of `auth::dispatch`, here reached through `authDispatch`. -/
namespace OB.Conf

/-- test_auth.rs:23-28 -/
structure TransferAdminCase where
  admin : Addr
  new : Addr
  err : Option Err

/-- test_auth.rs:49-86 -/
def TransferAdminCase.run (c : TransferAdminCase) : Bool :=
  let r := authDispatch env ⟨"sender", []⟩ (.transferAdmin c.new) { Store.empty with admin := some c.admin }
  match c.err with
  | some e => onErr r e fun s => s.adminOffer.isNone
  | none => onOk r fun _ s => decide (s.adminOffer = some c.new)

/-- test_auth.rs:88-93 -/
structure CancelAdminCase where
  admin : Addr
  new : Addr
  err : Option Err

/-- test_auth.rs:114-154 -/
def CancelAdminCase.run (c : CancelAdminCase) : Bool :=
  let r := authDispatch env ⟨"sender", []⟩ .cancelAdminTransfer
    { Store.empty with admin := some c.admin, adminOffer := some c.new }
  match c.err with
  | some e => onErr r e fun s => decide (s.adminOffer = some c.new)
  | none => onOk r fun _ s => s.adminOffer.isNone

/-- test_auth.rs:156-161 -/
structure ClaimAdminCase where
  sender : Addr
  new : Option Addr
  err : Option Err

/-- test_auth.rs:188-237 -/
def ClaimAdminCase.run (c : ClaimAdminCase) : Bool :=
  let r := authDispatch env ⟨c.sender, []⟩ .claimAdmin { Store.empty with adminOffer := c.new }
  match c.err with
  | some e => onErr r e fun s => s.admin.isNone
  | none => onOk r fun _ s => decide (s.admin = c.new) && s.adminOffer.isNone

/-- test_auth.rs:239-244 -/
structure RejectAdminCase where
  sender : Addr
  new : Option Addr
  err : Option Err

/-- test_auth.rs:272-333 -/
def RejectAdminCase.run (c : RejectAdminCase) : Bool :=
  let r := authDispatch env ⟨c.sender, []⟩ .rejectAdminTransfer
    { Store.empty with admin := some "current_admin", adminOffer := c.new }
  match c.err with
  | some e => onErr r e fun s => decide (s.admin = some "current_admin") && decide (s.adminOffer = c.new)
  | none => onOk r fun _ s => decide (s.admin = some "current_admin") && s.adminOffer.isNone

/-- test_auth.rs:335-339 -/
structure RenounceCase where
  sender : Addr
  err : Option Err

/-- test_auth.rs:358-401 -/
def RenounceCase.run (c : RenounceCase) : Bool :=
  let r := authDispatch env ⟨c.sender, []⟩ .renounceAdminship { Store.empty with admin := some "current_admin" }
  match c.err with
  | some e => onErr r e fun s => decide (s.admin = some "current_admin")
  | none => onOk r fun _ s => s.admin.isNone

/-- test_auth.rs:405-410 -/
structure OfferModeratorCase where
  sender : Addr
  new : Addr
  err : Option Err

/-- test_auth.rs:439-481 -/
def OfferModeratorCase.run (c : OfferModeratorCase) : Bool :=
  let r := authDispatch env ⟨c.sender, []⟩ (.offerModerator c.new)
    { Store.empty with admin := some "current_admin", moderator := some "current_moderator" }
  match c.err with
  | some e => onErr r e fun s => s.moderatorOffer.isNone
  | none => onOk r fun _ s => decide (s.moderatorOffer = some c.new)

/-- test_auth.rs:483-488 -/
structure RejectModeratorCase where
  sender : Addr
  new : Option Addr
  err : Option Err

/-- test_auth.rs:516-577 -/
def RejectModeratorCase.run (c : RejectModeratorCase) : Bool :=
  let r := authDispatch env ⟨c.sender, []⟩ .rejectModeratorOffer
    { Store.empty with moderator := some "current_moderator", moderatorOffer := c.new }
  match c.err with
  | some e => onErr r e fun s => decide (s.moderator = some "current_moderator") && decide (s.moderatorOffer = c.new)
  | none => onOk r fun _ s => decide (s.moderator = some "current_moderator") && s.moderatorOffer.isNone

/-- test_auth.rs:579-584 -/
structure ClaimModeratorCase where
  sender : Addr
  new : Option Addr
  err : Option Err

/-- test_auth.rs:612-673 -/
def ClaimModeratorCase.run (c : ClaimModeratorCase) : Bool :=
  let r := authDispatch env ⟨c.sender, []⟩ .claimModerator
    { Store.empty with moderator := some "current_moderator", moderatorOffer := c.new }
  match c.err with
  | some e => onErr r e fun s => decide (s.moderator = some "current_moderator") && decide (s.moderatorOffer = c.new)
  | none => onOk r fun _ s => c.new.isSome && decide (s.moderator = c.new) && s.moderatorOffer.isNone

/-- test_auth.rs:675-681 -/
structure SetActiveCase where
  sender : Addr
  current : Bool
  new : Bool
  err : Option Err

/-- test_auth.rs:726-776 -/
def SetActiveCase.run (c : SetActiveCase) : Bool :=
  let r := execute env ⟨c.sender, []⟩ (.auth (.setActive c.new)) { Store.empty with
    isActive := some c.current, admin := some "current_admin", moderator := some "current_moderator" }
  match c.err with
  | some e => onErr r e fun _ => true
  | none => onOk r fun _ s => decide (s.isActive = some c.new)

/-- test_auth.rs:864-869 -/
structure SetFeeCase where
  sender : Addr
  fee : Nat
  err : Option Err

/-- test_auth.rs:911-954 -/
def SetFeeCase.run (c : SetFeeCase) : Bool :=
  let r := execute env ⟨c.sender, []⟩ (.auth (.setMakerFee c.fee)) { Store.empty with
    admin := some "admin", moderator := some "moderator" }
  match c.err with
  | some e => onErr r e fun s => s.makerFee.isNone
  | none => onOk r fun _ s => decide (getMakerFee s = c.fee)

/-- test_auth.rs:957-962 -/
structure SetRecipientCase where
  sender : Addr
  recipient : Addr
  err : Option Err

/-- test_auth.rs:998-1043 -/
def SetRecipientCase.run (c : SetRecipientCase) : Bool :=
  let r := execute env ⟨c.sender, []⟩ (.auth (.setMakerFeeRecipient c.recipient)) { Store.empty with
    admin := some "admin", moderator := some "moderator" }
  match c.err with
  | some e => onErr r e fun s => s.makerFeeRecipient.isNone
  | none => onOk r fun _ s => decide (s.makerFeeRecipient = some c.recipient)

/-- test_orderbook.rs:12-17, test_instantiate.rs:12-16 -/
structure CreateCase where
  quote : Denom
  base : Denom
  err : Option Err

/-- test_orderbook.rs:60-89 -/
def CreateCase.run (c : CreateCase) : Bool :=
  let r := createOrderbook env supply c.quote c.base Store.empty
  match c.err with
  | some e => onErr r e fun _ => true
  | none => onOk r fun _ s => decide (s.orderbook = some ⟨c.quote, c.base, 0, MIN_TICK, MAX_TICK⟩)

/-- test_instantiate.rs:41-67 -/
def CreateCase.runInstantiate (c : CreateCase) : Bool :=
  let r := instantiate env supply c.quote c.base Store.empty
  match c.err with
  | some e => onErr r e fun _ => true
  | none => onOk r fun _ _ => true

/-- the four role queries: test_auth.rs:778-862 test_get_admin, test_get_admin_offer, test_get_moderator,
test_get_moderator_offer -/
theorem role_queries_pass :
    (onOk (query (.auth .admin) { Store.empty with admin := some "admin" }) fun a _ => decide (a = .addr (some "admin"))) &&
    (onOk (query (.auth .adminOffer) Store.empty) fun a _ => decide (a = .addr none)) &&
    (onOk (query (.auth .adminOffer) { Store.empty with adminOffer := some "admin" }) fun a _ => decide (a = .addr (some "admin"))) &&
    (onOk (query (.auth .moderator) { Store.empty with moderator := some "mod" }) fun a _ => decide (a = .addr (some "mod"))) &&
    (onOk (query (.auth .moderatorOffer) { Store.empty with moderatorOffer := some "moderator" }) fun a _ =>
      decide (a = .addr (some "moderator"))) = true := by
  decide +kernel

end OB.Conf
