import Verif.Conformance.OrderTests
/- tests/test_order.rs: place, cancel, maker fee, directional liquidity
Generated by /verif/tools/gen_conformance.py from the Rust test sources; do not edit. -/
namespace OB.Conf

/-- test_order.rs:35-195 test_place_limit -/
def placeCases : List PlaceCase := [
  -- valid order with positive tick id
  { tick := 10, quantity := 100, sent := 100, dir := .ask, bounty := none, err := none },
  -- valid order with zero tick id
  { tick := 0, quantity := 34321, sent := 34321, dir := .bid, bounty := none, err := none },
  -- valid order with negative tick id
  { tick := -5, quantity := 100, sent := 100, dir := .bid, bounty := none, err := none },
  -- valid order with large quantity
  { tick := 3, quantity := 34321, sent := 34321, dir := .ask, bounty := none, err := none },
  -- valid order with 0.1% claim bounty
  { tick := 10, quantity := 100, sent := 100, dir := .ask, bounty := (some 1000000000000000), err := none },
  -- valid order with max claim bounty
  { tick := 10, quantity := 100, sent := 100, dir := .ask, bounty := (some 10000000000000000), err := none },
  -- order with claim bounty > 0.01 (invalid)
  { tick := 10, quantity := 100, sent := 100, dir := .ask, bounty := (some 11000000000000000), err := (some (.invalidClaimBounty (some 11000000000000000))) },
  -- invalid tick id (max)
  { tick := 182402824, quantity := 100, sent := 100, dir := .ask, bounty := none, err := (some (.invalidTickId 182402824)) },
  -- invalid tick id (min)
  { tick := -108000001, quantity := 100, sent := 100, dir := .ask, bounty := none, err := (some (.invalidTickId (-108000001))) },
  -- invalid quantity
  { tick := 1, quantity := 0, sent := 1000, dir := .ask, bounty := none, err := (some (.invalidQuantity 0)) },
  -- insufficient funds
  { tick := 1, quantity := 1000, sent := 500, dir := .ask, bounty := none, err := (some (.insufficientFunds 500 1000)) },
  -- excessive funds
  { tick := 1, quantity := 100, sent := 500, dir := .ask, bounty := none, err := (some (.insufficientFunds 500 100)) },
  -- max amount on max tick
  { tick := 182402823, quantity := 340282366920938463463374607431768211455, sent := 340282366920938463463374607431768211455, dir := .bid, bounty := none, err := none },
  -- max amount on min tick
  { tick := -108000000, quantity := 340282366920938463463374607431768211455, sent := 340282366920938463463374607431768211455, dir := .ask, bounty := none, err := none },
  -- zero claim order ASK
  { tick := 1000000, quantity := 1, sent := 1, dir := .ask, bounty := (some 0), err := none },
  -- zero claim order BID
  { tick := -5000000, quantity := 1, sent := 1, dir := .bid, bounty := (some 0), err := none }
]

/-- the model passes them -/
theorem placeCases_pass : placeCases.all PlaceCase.run = true := by decide +kernel

/-- test_order.rs:365-419 test_cancel_limit -/
def cancelCases : List CancelCase := [
  -- valid order cancel
  { tick := 1, id := 0, dir := .ask, quantity := 100, placeOrder := true, err := none, owner := "owner", sender := none, sent := [] },
  -- sent funds accidentally
  { tick := 1, id := 0, dir := .ask, quantity := 100, placeOrder := true, err := (some (.payment .nonPayable)), owner := "owner", sender := none, sent := [⟨"quote", 100⟩] },
  -- unauthorized cancel (not owner)
  { tick := 1, id := 0, dir := .ask, quantity := 100, placeOrder := true, err := (some .unauthorized), owner := "owner", sender := (some "malicious_user"), sent := [] },
  -- order not found
  { tick := 1, id := 0, dir := .ask, quantity := 100, placeOrder := false, err := (some (.orderNotFound 1 0)), owner := "owner", sender := none, sent := [] }
]

/-- the model passes them -/
theorem cancelCases_pass : cancelCases.all CancelCase.run = true := by decide +kernel

/-- test_order.rs:3842-4016 test_directional_liquidity -/
def liquidityCases : List LiquidityCase := [
  -- liquidity increment only
  { ops := [.place 0 .ask "sender" 200 none, .place 0 .bid "sender" 100 none], expected := ((.ask, 200 * D), (.bid, 100 * D)) },
  -- liquidity increment & decrement from cancel
  { ops := [.place 0 .ask "sender" 200 none, .place 0 .bid "sender" 100 none, .cancel 0 0], expected := ((.ask, 0), (.bid, 100 * D)) },
  -- liquidity increment & decrement from partial fill and full fill
  { ops := [.place 0 .ask "sender" 100 none, .place 0 .bid "sender" 200 none, .runMarket ⟨100, .ask, "sender"⟩, .runMarket ⟨100, .bid, "sender"⟩], expected := ((.ask, 0), (.bid, 100 * D)) },
  -- liquidity increment & decrement from partial fill and full fill on large positive tick
  { ops := [.place 1000000 .ask "sender" 100 none, .place 1000000 .bid "sender" 200 none, .runMarket ⟨50, .ask, "sender"⟩, .runMarket ⟨200, .bid, "sender"⟩], expected := ((.ask, 0), (.bid, 100 * D)) },
  -- liquidity increment & decrement from partial fill and full fill on large negative tick
  { ops := [.place (-5000000) .ask "sender" 100 none, .place (-5000000) .bid "sender" 200 none, .runMarket ⟨400, .ask, "sender"⟩, .runMarket ⟨25, .bid, "sender"⟩], expected := ((.ask, 50 * D), (.bid, 0)) }
]

/-- the model passes them -/
theorem liquidityCases_pass : liquidityCases.all LiquidityCase.run = true := by decide +kernel

/-- test_order.rs:4068-4167 test_maker_fee -/
def makerFeeCases : List MakerFeeCase := [
  -- Basic Maker Fee (no bounty)
  { order := ⟨0, 0, .bid, "sender", 100, 0, none, 100, 0⟩, fee := (some 20000000000000000), recipient := (some "maker"), claimer := ("sender", ⟨"base", 98⟩), maker := (some ("maker", ⟨"base", 2⟩)), err := none },
  -- Basic Maker Fee Test w/ bounty
  { order := ⟨0, 0, .bid, "sender", 100, 0, (some 10000000000000000), 100, 0⟩, fee := (some 20000000000000000), recipient := (some "maker"), claimer := ("sender", ⟨"base", 97⟩), maker := (some ("maker", ⟨"base", 2⟩)), err := none },
  -- Basic Maker Fee w/ rounding
  { order := ⟨0, 0, .bid, "sender", 100, 0, none, 100, 0⟩, fee := (some 30303030303030303), recipient := (some "maker"), claimer := ("sender", ⟨"base", 97⟩), maker := (some ("maker", ⟨"base", 3⟩)), err := none },
  -- No maker fee
  { order := ⟨0, 0, .bid, "sender", 100, 0, none, 100, 0⟩, fee := none, recipient := (some "maker"), claimer := ("sender", ⟨"base", 100⟩), maker := none, err := none },
  -- Maker fee zero amount
  { order := ⟨0, 0, .bid, "sender", 100, 0, none, 100, 0⟩, fee := (some 1000000000000000), recipient := (some "maker"), claimer := ("sender", ⟨"base", 100⟩), maker := none, err := none },
  -- No recipient
  { order := ⟨0, 0, .bid, "sender", 100, 0, none, 100, 0⟩, fee := (some 20000000000000000), recipient := none, claimer := ("sender", ⟨"base", 98⟩), maker := (some ("maker", ⟨"base", 2⟩)), err := (some .noMakerFeeRecipient) }
]

/-- the model passes them -/
theorem makerFeeCases_pass : makerFeeCases.all MakerFeeCase.run = true := by decide +kernel


end OB.Conf
