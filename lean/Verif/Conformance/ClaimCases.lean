import Verif.Conformance.OrderTests
/- tests/test_order.rs: claims
Generated by /verif/tools/gen_conformance.py from the Rust test sources; do not edit. -/
namespace OB.Conf

/-- test_order.rs:1597-2819 test_claim_order -/
def claimCases1 : List ClaimCase := [
  -- ASK: valid basic full claim
  { ops := [.place 0 .ask "sender" 10 none, .runMarket ⟨10, .bid, "buyer"⟩], sender := "sender", tick := 0, id := 0, msg := (some ⟨"sender", ⟨"quote", 10⟩, 2⟩), bounty := none, state := none, err := none },
  -- ASK: valid basic full claim
  { ops := [.place 0 .ask "sender" 10 none, .runMarket ⟨10, .bid, "buyer"⟩], sender := "sender", tick := 0, id := 0, msg := (some ⟨"sender", ⟨"quote", 10⟩, 2⟩), bounty := none, state := none, err := none },
  -- ASK: valid basic partial claim
  { ops := [.place 0 .ask "sender" 10 none, .runMarket ⟨5, .bid, "buyer"⟩], sender := "sender", tick := 0, id := 0, msg := (some ⟨"sender", ⟨"quote", 5⟩, 2⟩), bounty := none, state := (some ⟨0, 0, .ask, "sender", 5, 5 * D, none, 10, 0⟩), err := none },
  -- ASK: valid two-step partial claim
  { ops := [.place 0 .ask "sender" 10 none, .runMarket ⟨7, .bid, "buyer"⟩, .claim 0 0, .runMarket ⟨3, .bid, "buyer"⟩], sender := "sender", tick := 0, id := 0, msg := (some ⟨"sender", ⟨"quote", 3⟩, 2⟩), bounty := none, state := none, err := none },
  -- ASK: valid basic full claim with claim bounty
  { ops := [.place 0 .ask "sender" 100 (some 10000000000000000), .runMarket ⟨100, .bid, "buyer"⟩], sender := "claimer", tick := 0, id := 0, msg := (some ⟨"sender", ⟨"quote", 99⟩, 2⟩), bounty := (some ⟨"claimer", ⟨"quote", 1⟩, 3⟩), state := none, err := none },
  -- ASK: valid two-step partial claim with claim bounty
  { ops := [.place 0 .ask "sender" 1000 (some 3500000000000000), .runMarket ⟨700, .bid, "buyer"⟩, .claim 0 0, .runMarket ⟨300, .bid, "buyer"⟩], sender := "claimer", tick := 0, id := 0, msg := (some ⟨"sender", ⟨"quote", 299⟩, 2⟩), bounty := (some ⟨"claimer", ⟨"quote", 1⟩, 3⟩), state := none, err := none },
  -- ASK: valid basic full claim (large positive tick)
  { ops := [.place 1000000 .ask "sender" 10 none, .runMarket ⟨20, .bid, "buyer"⟩], sender := "sender", tick := 1000000, id := 0, msg := (some ⟨"sender", ⟨"quote", 20⟩, 2⟩), bounty := none, state := none, err := none },
  -- ASK: valid basic partial claim (large positive tick)
  { ops := [.place 1000000 .ask "sender" 10 none, .runMarket ⟨8, .bid, "buyer"⟩], sender := "sender", tick := 1000000, id := 0, msg := (some ⟨"sender", ⟨"quote", 8⟩, 2⟩), bounty := none, state := (some ⟨1000000, 0, .ask, "sender", 6, 4 * D, none, 10, 0⟩), err := none }
]

/-- the model passes them -/
theorem claimCases1_pass : claimCases1.all ClaimCase.run = true := by decide +kernel

/-- test_order.rs:1597-2819 test_claim_order -/
def claimCases2 : List ClaimCase := [
  -- ASK: valid two-step partial claim (large positive tick)
  { ops := [.place 1000000 .ask "sender" 10 none, .runMarket ⟨12, .bid, "buyer"⟩, .claim 1000000 0, .runMarket ⟨8, .bid, "buyer"⟩], sender := "sender", tick := 1000000, id := 0, msg := (some ⟨"sender", ⟨"quote", 8⟩, 2⟩), bounty := none, state := none, err := none },
  -- ASK: valid basic full claim (large negative tick)
  { ops := [.place (-5000000) .ask "sender" 100 none, .runMarket ⟨50, .bid, "buyer"⟩], sender := "sender", tick := -5000000, id := 0, msg := (some ⟨"sender", ⟨"quote", 50⟩, 2⟩), bounty := none, state := none, err := none },
  -- ASK: valid basic partial claim (large negative tick)
  { ops := [.place (-5000000) .ask "sender" 100 none, .runMarket ⟨25, .bid, "buyer"⟩], sender := "sender", tick := -5000000, id := 0, msg := (some ⟨"sender", ⟨"quote", 25⟩, 2⟩), bounty := none, state := (some ⟨-5000000, 0, .ask, "sender", 50, 50 * D, none, 100, 0⟩), err := none },
  -- ASK: valid two-step partial claim (large negative tick)
  { ops := [.place (-5000000) .ask "sender" 100 none, .runMarket ⟨25, .bid, "buyer"⟩, .claim (-5000000) 0, .runMarket ⟨25, .bid, "buyer"⟩], sender := "sender", tick := -5000000, id := 0, msg := (some ⟨"sender", ⟨"quote", 25⟩, 2⟩), bounty := none, state := none, err := none },
  -- ASK: full claim with a previous cancellation
  { ops := [.place 0 .ask "sender" 50 none, .place 0 .ask "sender" 100 none, .cancel 0 0, .runMarket ⟨100, .bid, "buyer"⟩], sender := "sender", tick := 0, id := 1, msg := (some ⟨"sender", ⟨"quote", 100⟩, 2⟩), bounty := none, state := none, err := none },
  -- ASK: valid basic partial claim at MIN_TICK
  { ops := [.place (-108000000) .ask "sender" 3000000000000 none, .runMarket ⟨3, .bid, "buyer"⟩], sender := "sender", tick := -108000000, id := 0, msg := (some ⟨"sender", ⟨"quote", 3⟩, 2⟩), bounty := none, state := none, err := none },
  -- BID: valid basic full claim
  { ops := [.place 0 .bid "sender" 10 none, .runMarket ⟨10, .ask, "buyer"⟩], sender := "sender", tick := 0, id := 0, msg := (some ⟨"sender", ⟨"base", 10⟩, 2⟩), bounty := none, state := none, err := none },
  -- BID: valid basic partial claim
  { ops := [.place 0 .bid "sender" 10 none, .runMarket ⟨5, .ask, "buyer"⟩], sender := "sender", tick := 0, id := 0, msg := (some ⟨"sender", ⟨"base", 5⟩, 2⟩), bounty := none, state := (some ⟨0, 0, .bid, "sender", 5, 5 * D, none, 10, 0⟩), err := none }
]

/-- the model passes them -/
theorem claimCases2_pass : claimCases2.all ClaimCase.run = true := by decide +kernel

/-- test_order.rs:1597-2819 test_claim_order -/
def claimCases3 : List ClaimCase := [
  -- BID: valid two-step partial claim
  { ops := [.place 0 .bid "sender" 10 none, .runMarket ⟨7, .ask, "buyer"⟩, .claim 0 0, .runMarket ⟨3, .ask, "buyer"⟩], sender := "sender", tick := 0, id := 0, msg := (some ⟨"sender", ⟨"base", 3⟩, 2⟩), bounty := none, state := none, err := none },
  -- BID: valid basic full claim (large positive tick)
  { ops := [.place 1000000 .bid "sender" 10 none, .runMarket ⟨5, .ask, "buyer"⟩], sender := "sender", tick := 1000000, id := 0, msg := (some ⟨"sender", ⟨"base", 5⟩, 2⟩), bounty := none, state := none, err := none },
  -- BID: valid basic partial claim (large positive tick)
  { ops := [.place 1000000 .bid "sender" 10 none, .runMarket ⟨2, .ask, "buyer"⟩], sender := "sender", tick := 1000000, id := 0, msg := (some ⟨"sender", ⟨"base", 2⟩, 2⟩), bounty := none, state := (some ⟨1000000, 0, .bid, "sender", 6, 4 * D, none, 10, 0⟩), err := none },
  -- BID: valid two-step partial claim (large positive tick)
  { ops := [.place 1000000 .bid "sender" 10 none, .runMarket ⟨2, .ask, "buyer"⟩, .claim 1000000 0, .runMarket ⟨3, .ask, "buyer"⟩], sender := "sender", tick := 1000000, id := 0, msg := (some ⟨"sender", ⟨"base", 3⟩, 2⟩), bounty := none, state := none, err := none },
  -- BID: valid basic full claim (large negative tick)
  { ops := [.place (-5000000) .bid "sender" 100 none, .runMarket ⟨200, .ask, "buyer"⟩], sender := "sender", tick := -5000000, id := 0, msg := (some ⟨"sender", ⟨"base", 200⟩, 2⟩), bounty := none, state := none, err := none },
  -- BID: valid basic partial claim (large negative tick)
  { ops := [.place (-5000000) .bid "sender" 100 none, .runMarket ⟨50, .ask, "buyer"⟩], sender := "sender", tick := -5000000, id := 0, msg := (some ⟨"sender", ⟨"base", 50⟩, 2⟩), bounty := none, state := (some ⟨-5000000, 0, .bid, "sender", 75, 25 * D, none, 100, 0⟩), err := none },
  -- BID: valid two-step partial claim (large negative tick)
  { ops := [.place (-5000000) .bid "sender" 100 none, .runMarket ⟨100, .ask, "buyer"⟩, .claim (-5000000) 0, .runMarket ⟨100, .ask, "buyer"⟩], sender := "sender", tick := -5000000, id := 0, msg := (some ⟨"sender", ⟨"base", 100⟩, 2⟩), bounty := none, state := none, err := none },
  -- BID: full claim with a previous cancellation
  { ops := [.place 0 .bid "sender" 50 none, .place 0 .bid "sender" 100 none, .cancel 0 0, .runMarket ⟨100, .ask, "buyer"⟩], sender := "sender", tick := 0, id := 1, msg := (some ⟨"sender", ⟨"base", 100⟩, 2⟩), bounty := none, state := none, err := none }
]

/-- the model passes them -/
theorem claimCases3_pass : claimCases3.all ClaimCase.run = true := by decide +kernel

/-- test_order.rs:1597-2819 test_claim_order -/
def claimCases4 : List ClaimCase := [
  -- invalid tick id
  { ops := [.place 0 .ask "sender" 10 none, .runMarket ⟨5, .bid, "buyer"⟩], sender := "sender", tick := 1, id := 0, msg := (some ⟨"sender", ⟨"quote", 5⟩, 2⟩), bounty := none, state := none, err := (some (.invalidTickId 1)) },
  -- invalid order id
  { ops := [.place 0 .ask "sender" 10 none, .runMarket ⟨5, .bid, "buyer"⟩], sender := "sender", tick := 0, id := 1, msg := (some ⟨"sender", ⟨"quote", 5⟩, 2⟩), bounty := none, state := none, err := (some (.orderNotFound 0 1)) },
  -- invalid order id (cancelled order)
  { ops := [.place 0 .ask "sender" 10 none, .cancel 0 0], sender := "sender", tick := 0, id := 0, msg := (some ⟨"sender", ⟨"quote", 5⟩, 2⟩), bounty := none, state := none, err := (some (.orderNotFound 0 0)) },
  -- zero claim amount
  { ops := [.place 0 .ask "sender" 10 none], sender := "sender", tick := 0, id := 0, msg := (some ⟨"sender", ⟨"quote", 5⟩, 2⟩), bounty := none, state := none, err := (some .zeroClaim) },
  -- zero claim amount (tick etas < order etas)
  { ops := [.place 0 .ask "sender" 10 none, .place 0 .ask "sender" 10 none], sender := "sender", tick := 0, id := 1, msg := (some ⟨"sender", ⟨"quote", 5⟩, 2⟩), bounty := none, state := none, err := (some .zeroClaim) },
  -- zero claim amount (cancelled order larger etas than order)
  { ops := [.place 0 .ask "sender" 10 none, .place 0 .ask "sender" 100 none, .cancel 0 1], sender := "sender", tick := 0, id := 0, msg := (some ⟨"sender", ⟨"quote", 5⟩, 2⟩), bounty := none, state := none, err := (some .zeroClaim) },
  -- zero claim amount success case
  { ops := [.place (-5000000) .ask "sender" 1 none, .place (-5000000) .ask "sender" 1 none, .runMarket ⟨1, .bid, "sender"⟩], sender := "sender", tick := -5000000, id := 0, msg := none, bounty := none, state := none, err := none }
]

/-- the model passes them -/
theorem claimCases4_pass : claimCases4.all ClaimCase.run = true := by decide +kernel

/-- test_order.rs:2922-3537 test_claim_order_moving_tick -/
def movingClaimCases1 : List MovingClaimCase := [
  -- ASK: single tick movement full claim
  { ops := [.place 0 .bid "sender" 100 none, .runMarket ⟨100, .ask, "sender"⟩, .place 0 .ask "sender" 50 none, .runMarket ⟨50, .bid, "sender"⟩, .claim 0 0], sender := "sender", tick := 0, id := 1, msg := ⟨"sender", ⟨"quote", 50⟩, 2⟩, state := none, err := none },
  -- ASK: single tick movement partial claim
  { ops := [.place 0 .bid "sender" 100 none, .runMarket ⟨100, .ask, "sender"⟩, .place 0 .ask "sender" 50 none, .runMarket ⟨25, .bid, "sender"⟩, .claim 0 0], sender := "sender", tick := 0, id := 1, msg := ⟨"sender", ⟨"quote", 25⟩, 2⟩, state := (some ⟨0, 1, .ask, "sender", 25, 25 * D, none, 50, 0⟩), err := none },
  -- ASK: single tick movement partial claim with cancellation
  { ops := [.place 0 .bid "sender" 100 none, .runMarket ⟨100, .ask, "sender"⟩, .place 0 .ask "sender" 25 none, .place 0 .ask "sender" 50 none, .cancel 0 1, .runMarket ⟨25, .bid, "sender"⟩, .claim 0 0], sender := "sender", tick := 0, id := 2, msg := ⟨"sender", ⟨"quote", 25⟩, 2⟩, state := (some ⟨0, 2, .ask, "sender", 25, 50 * D, none, 50, 0⟩), err := none },
  -- ASK: single tick movement partial claim with cancellation from previous direction
  { ops := [.place 0 .bid "sender" 100 none, .cancel 0 0, .place 0 .ask "sender" 50 none, .runMarket ⟨25, .bid, "sender"⟩], sender := "sender", tick := 0, id := 1, msg := ⟨"sender", ⟨"quote", 25⟩, 2⟩, state := (some ⟨0, 1, .ask, "sender", 25, 25 * D, none, 50, 0⟩), err := none },
  -- ASK: returning tick movement full claim
  { ops := [.place 0 .bid "sender" 100 none, .runMarket ⟨100, .ask, "sender"⟩, .place 0 .ask "sender" 50 none, .runMarket ⟨50, .bid, "sender"⟩, .place 0 .bid "sender" 100 none, .runMarket ⟨100, .ask, "sender"⟩, .claim 0 0, .claim 0 2], sender := "sender", tick := 0, id := 1, msg := ⟨"sender", ⟨"quote", 50⟩, 2⟩, state := none, err := none },
  -- BID: single tick movement full claim
  { ops := [.place 0 .ask "sender" 100 none, .runMarket ⟨100, .bid, "sender"⟩, .place 0 .bid "sender" 50 none, .runMarket ⟨50, .ask, "sender"⟩, .claim 0 0], sender := "sender", tick := 0, id := 1, msg := ⟨"sender", ⟨"base", 50⟩, 2⟩, state := none, err := none },
  -- BID: single tick movement partial claim
  { ops := [.place 0 .ask "sender" 100 none, .runMarket ⟨100, .bid, "sender"⟩, .place 0 .bid "sender" 50 none, .runMarket ⟨25, .ask, "sender"⟩, .claim 0 0], sender := "sender", tick := 0, id := 1, msg := ⟨"sender", ⟨"base", 25⟩, 2⟩, state := (some ⟨0, 1, .bid, "sender", 25, 25 * D, none, 50, 0⟩), err := none },
  -- BID: single tick movement partial claim with cancellation
  { ops := [.place 0 .ask "sender" 100 none, .runMarket ⟨100, .bid, "sender"⟩, .place 0 .bid "sender" 25 none, .place 0 .bid "sender" 50 none, .cancel 0 1, .runMarket ⟨25, .ask, "sender"⟩, .claim 0 0], sender := "sender", tick := 0, id := 2, msg := ⟨"sender", ⟨"base", 25⟩, 2⟩, state := (some ⟨0, 2, .bid, "sender", 25, 50 * D, none, 50, 0⟩), err := none }
]

/-- the model passes them -/
theorem movingClaimCases1_pass : movingClaimCases1.all MovingClaimCase.run = true := by decide +kernel

/-- test_order.rs:2922-3537 test_claim_order_moving_tick -/
def movingClaimCases2 : List MovingClaimCase := [
  -- BID: single tick movement partial claim with cancellation from previous direction
  { ops := [.place 0 .ask "sender" 100 none, .cancel 0 0, .place 0 .bid "sender" 50 none, .runMarket ⟨25, .ask, "sender"⟩], sender := "sender", tick := 0, id := 1, msg := ⟨"sender", ⟨"base", 25⟩, 2⟩, state := (some ⟨0, 1, .bid, "sender", 25, 25 * D, none, 50, 0⟩), err := none },
  -- BID: returning tick movement full claim
  { ops := [.place 0 .ask "sender" 100 none, .runMarket ⟨100, .bid, "sender"⟩, .place 0 .bid "sender" 50 none, .runMarket ⟨50, .ask, "sender"⟩, .place 0 .ask "sender" 100 none, .runMarket ⟨100, .bid, "sender"⟩, .claim 0 0, .claim 0 2], sender := "sender", tick := 0, id := 1, msg := ⟨"sender", ⟨"base", 50⟩, 2⟩, state := none, err := none }
]

/-- the model passes them -/
theorem movingClaimCases2_pass : movingClaimCases2.all MovingClaimCase.run = true := by decide +kernel

/-- test_order.rs:3606-3753 test_batch_claim_order -/
def batchCases : List BatchCase := [
  -- Batch claim orders happy path
  { ops := [.place 0 .bid "owner" 100 (some 10000000000000000), .place 1 .ask "owner" 50 none, .runMarket ⟨100, .ask, "owner"⟩, .runMarket ⟨51, .bid, "owner"⟩], orders := [(0, 0), (1, 1)], msgs := [⟨"owner", ⟨"base", 99⟩, 2⟩, ⟨"sender", ⟨"base", 1⟩, 3⟩, ⟨"owner", ⟨"quote", 50⟩, 2⟩], states := none, err := none },
  -- Batch claim with unfilled order
  { ops := [.place 0 .bid "owner" 100 none, .place 1 .ask "owner" 50 none, .place (-1) .bid "owner" 25 none, .runMarket ⟨100, .ask, "owner"⟩, .runMarket ⟨51, .bid, "owner"⟩], orders := [(0, 0), (1, 1), (-1, 2)], msgs := [⟨"owner", ⟨"base", 100⟩, 2⟩, ⟨"owner", ⟨"quote", 50⟩, 2⟩], states := (some [⟨-1, 2, .bid, "owner", 25, 0, none, 25, 0⟩]), err := none }
]

/-- the model passes them -/
theorem batchCases_pass : batchCases.all BatchCase.run = true := by decide +kernel


end OB.Conf
