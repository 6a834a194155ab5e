import Verif.Model.Order
/- orderbook.rs and auth.rs -/
namespace OB

/-- msg.rs:36-54 -/
inductive AuthMsg where
  | transferAdmin (newAdmin : Addr)
  | cancelAdminTransfer
  | rejectAdminTransfer
  | claimAdmin
  | renounceAdminship
  | offerModerator (newModerator : Addr)
  | rejectModeratorOffer
  | claimModerator
  | setActive (active : Bool)
  | setMakerFee (fee : Nat)
  | setMakerFeeRecipient (recipient : Addr)
  deriving DecidableEq, Repr

/-- orderbook.rs:43-54 `set_maker_fee` -/
def setMakerFee (fee : Nat) : M Nat := do
  EM.ensure (decide (fee ≤ MAX_MAKER_FEE_PERCENTAGE)) .invalidMakerFee
  EM.modify fun s => { s with makerFee := some fee }
  pure fee

/-- orderbook.rs:57-65 `set_maker_fee_recipient` -/
def setMakerFeeRecipient (env : Env) (r : Addr) : M Unit := do
  EM.ensure (env.addrValid r) .invalidMakerFeeRecipient
  EM.modify fun s => { s with makerFeeRecipient := some r }

/-- orderbook.rs:10-40 `create_orderbook`; `supply d` is the queried supply amount of denom `d` (0 if the query fails). -/
def createOrderbook (env : Env) (supply : Denom → Nat) (quote base : Denom) : M Unit := do
  EM.ensure (decide (quote ≠ base)) .duplicateDenoms
  EM.ensure (decide (supply quote ≠ 0)) (.invalidDenom quote)
  EM.ensure (decide (supply base ≠ 0)) (.invalidDenom base)
  saveOrderbook ⟨quote, base, 0, MIN_TICK, MAX_TICK⟩
  let _ ← setMakerFee DEFAULT_MAKER_FEE
  setMakerFeeRecipient env DEFAULT_MAKER_FEE_RECIPIENT

/-- auth.rs:354-362 -/
def ensureIsAdmin (sender : Addr) : M Unit := do
  let s ← EM.get
  EM.ensure (decide (s.admin = some sender)) .unauthorized

/-- auth.rs:369-379 -/
def ensureIsAdminOrModerator (sender : Addr) : M Unit := do
  let s ← EM.get
  EM.ensure (decide (s.moderator = some sender ∨ s.admin = some sender)) .unauthorized

/-- auth.rs:163-172 -/
def offerAdmin (env : Env) (a : Addr) : M Unit := do
  EM.ensure (env.addrValid a) .std
  EM.modify fun s => { s with adminOffer := some a }

/-- auth.rs:174-177 -/
def removeAdminTransfer : M Unit := EM.modify fun s => { s with adminOffer := none }

/-- auth.rs:179-188 -/
def updateAdmin (env : Env) (a : Addr) : M Unit := do
  EM.ensure (env.addrValid a) .std
  EM.modify fun s => { s with admin := some a }

/-- auth.rs:190-193 -/
def removeAdmin : M Unit := EM.modify fun s => { s with admin := none }

/-- auth.rs:257-266 -/
def offerModerator (env : Env) (a : Addr) : M Unit := do
  EM.ensure (env.addrValid a) .std
  EM.modify fun s => { s with moderatorOffer := some a }

/-- auth.rs:268-271 -/
def removeModeratorOffer : M Unit := EM.modify fun s => { s with moderatorOffer := none }

/-- auth.rs:273-282 -/
def updateModerator (env : Env) (a : Addr) : M Unit := do
  EM.ensure (env.addrValid a) .std
  EM.modify fun s => { s with moderator := some a }

/-- sudo.rs:258-265 `set_active` -/
def setActive (active : Bool) : M Response := do
  EM.modify fun s => { s with isActive := some active }
  pure { events := [.method "set_active" [("active", .bool active)]] }

/-- auth.rs:17-68 `dispatch` and the `dispatch_*` functions it calls (auth.rs:89-161, 208-255, 297-345) -/
def authDispatch (env : Env) (info : MessageInfo) : AuthMsg → M Response
  | .transferAdmin a => do
    ensureIsAdmin info.sender
    offerAdmin env a
    pure { events := [.method "transfer_admin" [("new_admin", .str a)]] }
  | .cancelAdminTransfer => do
    ensureIsAdmin info.sender
    removeAdminTransfer
    pure { events := [.method "cancel_transfer_admin" []] }
  | .rejectAdminTransfer => do
    let s ← EM.get
    EM.ensure (decide (some info.sender = s.adminOffer)) .unauthorized
    removeAdminTransfer
    pure { events := [.method "reject_admin_transfer" []] }
  | .claimAdmin => do
    let s ← EM.get
    EM.ensure (decide (some info.sender = s.adminOffer)) .unauthorized
    updateAdmin env info.sender
    removeAdminTransfer
    pure { events := [.method "claim_admin" []] }
  | .renounceAdminship => do
    ensureIsAdmin info.sender
    removeAdmin
    pure { events := [.method "renounce_adminship" []] }
  | .offerModerator a => do
    ensureIsAdmin info.sender
    offerModerator env a
    pure { events := [.method "offer_moderator" [("new_moderator", .str a)]] }
  | .rejectModeratorOffer => do
    let s ← EM.get
    EM.ensure (decide (some info.sender = s.moderatorOffer)) .unauthorized
    removeModeratorOffer
    pure { events := [.method "reject_moderator_offer" []] }
  | .claimModerator => do
    let s ← EM.get
    EM.ensure (decide (some info.sender = s.moderatorOffer)) .unauthorized
    updateModerator env info.sender
    removeModeratorOffer
    pure { events := [.method "claim_moderator" []] }
  | .setActive active => do
    ensureIsAdminOrModerator info.sender
    setActive active
  | .setMakerFee fee => do
    ensureIsAdmin info.sender
    let _ ← setMakerFee fee
    pure { events := [.method "set_maker_fee" [("maker_fee", .dec fee)]] }
  | .setMakerFeeRecipient r => do
    ensureIsAdmin info.sender
    setMakerFeeRecipient env r
    pure { events := [.method "set_maker_fee_recipient" [("maker_fee_recipient", .str r)]] }

/-- msg.rs:153-159 -/
inductive AuthQueryMsg where
  | admin
  | adminOffer
  | moderator
  | moderatorOffer
  deriving DecidableEq, Repr

/-- auth.rs:71-82 -/
def authQuery (s : Store) : AuthQueryMsg → Option Addr
  | .admin => s.admin
  | .adminOffer => s.adminOffer
  | .moderator => s.moderator
  | .moderatorOffer => s.moderatorOffer

end OB
