import Verif.Conformance.AuthTests
/- tests/test_auth.rs, tests/test_instantiate.rs, tests/test_orderbook.rs
Generated by /verif/tools/gen_conformance.py from the Rust test sources; do not edit. -/
namespace OB.Conf

/-- test_auth.rs:31-47 test_transfer_admin -/
def transferAdminCases : List TransferAdminCase := [
  -- valid transfer
  { admin := "sender", new := "new_admin", err := none },
  -- unauthorized
  { admin := "notthesender", new := "new_admin", err := (some .unauthorized) }
]

/-- the model passes them -/
theorem transferAdminCases_pass : transferAdminCases.all TransferAdminCase.run = true := by decide +kernel

/-- test_auth.rs:96-112 test_cancel_admin_transfer -/
def cancelAdminCases : List CancelAdminCase := [
  -- valid transfer
  { admin := "sender", new := "new_admin", err := none },
  -- unauthorized
  { admin := "notthesender", new := "new_admin", err := (some .unauthorized) }
]

/-- the model passes them -/
theorem cancelAdminCases_pass : cancelAdminCases.all CancelAdminCase.run = true := by decide +kernel

/-- test_auth.rs:164-186 test_claim_admin -/
def claimAdminCases : List ClaimAdminCase := [
  -- valid claim
  { sender := "new_admin", new := (some "new_admin"), err := none },
  -- no offer
  { sender := "new_admin", new := none, err := (some .unauthorized) },
  -- unauthorized
  { sender := "notthenewadmin", new := (some "new_admin"), err := (some .unauthorized) }
]

/-- the model passes them -/
theorem claimAdminCases_pass : claimAdminCases.all ClaimAdminCase.run = true := by decide +kernel

/-- test_auth.rs:247-270 test_reject_admin_transfer -/
def rejectAdminCases : List RejectAdminCase := [
  -- valid rejection
  { sender := "new_admin", new := (some "new_admin"), err := none },
  -- no offer
  { sender := "new_admin", new := none, err := (some .unauthorized) },
  -- unauthorized
  { sender := "notthenewadmin", new := (some "new_admin"), err := (some .unauthorized) }
]

/-- the model passes them -/
theorem rejectAdminCases_pass : rejectAdminCases.all RejectAdminCase.run = true := by decide +kernel

/-- test_auth.rs:342-356 test_renounce_adminship -/
def renounceCases : List RenounceCase := [
  -- valid renouncement
  { sender := "current_admin", err := none },
  -- unauthorized
  { sender := "notthenewadmin", err := (some .unauthorized) }
]

/-- the model passes them -/
theorem renounceCases_pass : renounceCases.all RenounceCase.run = true := by decide +kernel

/-- test_auth.rs:413-437 test_offer_moderator -/
def offerModeratorCases : List OfferModeratorCase := [
  -- valid offer
  { sender := "current_admin", new := "new_admin", err := none },
  -- unauthorized
  { sender := "nottheadmin", new := "new_admin", err := (some .unauthorized) },
  -- unauthorized current moderator
  { sender := "current_moderator", new := "new_admin", err := (some .unauthorized) }
]

/-- the model passes them -/
theorem offerModeratorCases_pass : offerModeratorCases.all OfferModeratorCase.run = true := by decide +kernel

/-- test_auth.rs:491-514 test_reject_moderator_offer -/
def rejectModeratorCases : List RejectModeratorCase := [
  -- valid rejection
  { sender := "new_moderator", new := (some "new_moderator"), err := none },
  -- no offer
  { sender := "new_moderator", new := none, err := (some .unauthorized) },
  -- unauthorized
  { sender := "notthenewmoderator", new := (some "new_moderator"), err := (some .unauthorized) }
]

/-- the model passes them -/
theorem rejectModeratorCases_pass : rejectModeratorCases.all RejectModeratorCase.run = true := by decide +kernel

/-- test_auth.rs:587-610 test_claim_moderator -/
def claimModeratorCases : List ClaimModeratorCase := [
  -- valid rejection
  { sender := "new_moderator", new := (some "new_moderator"), err := none },
  -- no offer
  { sender := "new_moderator", new := none, err := (some .unauthorized) },
  -- unauthorized
  { sender := "notthenewmoderator", new := (some "new_moderator"), err := (some .unauthorized) }
]

/-- the model passes them -/
theorem claimModeratorCases_pass : claimModeratorCases.all ClaimModeratorCase.run = true := by decide +kernel

/-- test_auth.rs:684-724 test_set_active -/
def setActiveCases : List SetActiveCase := [
  -- valid admin set active: true -> false
  { sender := "current_admin", current := true, new := false, err := none },
  -- valid admin set active: false -> true
  { sender := "current_admin", current := false, new := true, err := none },
  -- valid moderator set active: true -> false
  { sender := "current_moderator", current := true, new := false, err := none },
  -- valid moderator set active: false -> true
  { sender := "current_moderator", current := false, new := true, err := none },
  -- unauthorized
  { sender := "notadminormoderator", current := true, new := false, err := (some .unauthorized) }
]

/-- the model passes them -/
theorem setActiveCases_pass : setActiveCases.all SetActiveCase.run = true := by decide +kernel

/-- test_auth.rs:872-908 test_set_maker_fee -/
def setFeeCases : List SetFeeCase := [
  -- valid fee set by moderator
  { sender := "moderator", fee := 10000000000000000, err := (some .unauthorized) },
  -- valid fee set by admin
  { sender := "admin", fee := 10000000000000000, err := none },
  -- valid zero fee
  { sender := "admin", fee := 0, err := none },
  -- invalid fee set by unauthorized user
  { sender := "user", fee := 0, err := (some .unauthorized) },
  -- fee above maximum
  { sender := "admin", fee := 60000000000000000, err := (some .invalidMakerFee) }
]

/-- the model passes them -/
theorem setFeeCases_pass : setFeeCases.all SetFeeCase.run = true := by decide +kernel

/-- test_auth.rs:965-996 test_set_maker_fee_recipient -/
def setRecipientCases : List SetRecipientCase := [
  -- valid set by admin
  { sender := "admin", recipient := "fee_recipient", err := none },
  -- invalid set by moderator
  { sender := "moderator", recipient := "fee_recipient", err := (some .unauthorized) },
  -- invalid set by unauthorized user
  { sender := "user", recipient := "fee_recipient", err := (some .unauthorized) },
  -- invalid recipient
  { sender := "admin", recipient := "0", err := (some .invalidMakerFeeRecipient) }
]

/-- the model passes them -/
theorem setRecipientCases_pass : setRecipientCases.all SetRecipientCase.run = true := by decide +kernel

/-- test_orderbook.rs:20-57 test_create_orderbook -/
def createCases : List CreateCase := [
  -- valid_orderbook
  { quote := "quote", base := "base", err := none },
  -- invalid quote denom
  { quote := "notadenom", base := "base", err := (some (.invalidDenom "notadenom")) },
  -- invalid base denom
  { quote := "quote", base := "notadenom", err := (some (.invalidDenom "notadenom")) },
  -- empty denom
  { quote := "quote", base := "", err := (some (.invalidDenom "")) },
  -- duplicate denoms
  { quote := "quote", base := "quote", err := (some .duplicateDenoms) }
]

/-- the model passes them -/
theorem createCases_pass : createCases.all CreateCase.run = true := by decide +kernel

/-- test_instantiate.rs:19-39 test_instantiate -/
def instantiateCases : List CreateCase := [
  -- valid instantiate
  { quote := "quote", base := "base", err := none },
  -- invalid instantiate
  { quote := "quote", base := "quote", err := (some .duplicateDenoms) }
]

/-- the model passes them -/
theorem instantiateCases_pass : instantiateCases.all CreateCase.runInstantiate = true := by decide +kernel


end OB.Conf
