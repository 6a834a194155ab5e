import Verif.Conformance.QueryTests
/- tests/test_query.rs: prices, quotes and liquidity
Generated by /verif/tools/gen_conformance.py from the Rust test sources; do not edit. -/
namespace OB.Conf

/-- test_query.rs:36-383 test_query_spot_price -/
def spotCases1 : List SpotCase := [
  -- BID: basic price 1 query
  { ops := [.place 0 .ask "sender" 1 none], base := "quote", quote := "base", price := D, err := none },
  -- BID: multi tick lowest price
  { ops := [.place 0 .ask "sender" 2 none, .place 1 .ask "sender" 2 none, .place 2 .ask "sender" 2 none], base := "quote", quote := "base", price := D, err := none },
  -- BID: multi direction lowest tick
  { ops := [.place 0 .bid "sender" 1 none, .place 0 .ask "sender" 1 none], base := "quote", quote := "base", price := D, err := none },
  -- BID: change in spot price
  { ops := [.place 0 .ask "sender" 1 none, .place 1000000 .ask "sender" 340282366920938463463374607431768211455 none, .runMarket ⟨3, .bid, "sender"⟩], base := "quote", quote := "base", price := 500000000000000000, err := none },
  -- BID: max tick
  { ops := [.place 182402823 .ask "sender" 1 none], base := "quote", quote := "base", price := 0, err := none },
  -- BID: min tick
  { ops := [.place (-108000000) .ask "sender" 1 none], base := "quote", quote := "base", price := 1000000000000 * D, err := none },
  -- ASK: basic price 1 query
  { ops := [.place 0 .bid "sender" 1 none], base := "base", quote := "quote", price := D, err := none },
  -- ASK: multi tick lowest price
  { ops := [.place 0 .bid "sender" 2 none, .place (-1) .bid "sender" 2 none, .place (-2) .bid "sender" 2 none], base := "base", quote := "quote", price := D, err := none }
]

/-- the model passes them -/
theorem spotCases1_pass : spotCases1.all SpotCase.run = true := by decide +kernel

/-- test_query.rs:36-383 test_query_spot_price -/
def spotCases2 : List SpotCase := [
  -- ASK: multi direction lowest tick
  { ops := [.place 0 .bid "sender" 1 none, .place 0 .ask "sender" 1 none], base := "base", quote := "quote", price := D, err := none },
  -- ASK: change in spot price
  { ops := [.place 0 .bid "sender" 1 none, .place (-5000000) .bid "sender" 340282366920938463463374607431768211455 none, .runMarket ⟨3, .ask, "sender"⟩], base := "base", quote := "quote", price := 500000000000000000, err := none },
  -- ASK: large positive tick
  { ops := [.place 1000000 .bid "sender" 340282366920938463463374607431768211455 none, .runMarket ⟨100, .ask, "sender"⟩], base := "base", quote := "quote", price := 2 * D, err := none },
  -- ASK: max tick
  { ops := [.place 182402823 .bid "sender" 340282366920938463463374607431768211455 none], base := "base", quote := "quote", price := 340282300000000000000 * D, err := none },
  -- ASK: min tick
  { ops := [.place (-108000000) .bid "sender" 340282366920938463463374607431768211455 none], base := "base", quote := "quote", price := 1000000, err := none },
  -- invalid: duplicate denom
  { ops := [], base := "base", quote := "base", price := 500000000000000000, err := (some (.invalidPair "base" "base")) },
  -- invalid: incorrect base denom
  { ops := [], base := "notadenom", quote := "quote", price := 500000000000000000, err := (some (.invalidPair "notadenom" "quote")) },
  -- invalid: incorrect quote denom
  { ops := [], base := "base", quote := "notadenom", price := 500000000000000000, err := (some (.invalidPair "base" "notadenom")) }
]

/-- the model passes them -/
theorem spotCases2_pass : spotCases2.all SpotCase.run = true := by decide +kernel

/-- test_query.rs:438-660 test_calc_out_amount_given_in -/
def calcCases1 : List CalcCase := [
  -- BID: simple swap
  { ops := [.place 0 .ask "sender" 100 none], tokenIn := ⟨"quote", 100⟩, out := "base", fee := 0, output := ⟨"base", 100⟩, err := none },
  -- BID: invalid partial fill
  { ops := [.place 0 .ask "sender" 25 none], tokenIn := ⟨"quote", 150⟩, out := "base", fee := 0, output := ⟨"base", 0⟩, err := (some .insufficientLiquidity) },
  -- BID: multi-tick/direction swap
  { ops := [.place 0 .ask "sender" 100 none, .place 1000000 .ask "sender" 100 none, .place 0 .bid "sender" 100 none, .place 1000000 .bid "sender" 100 none], tokenIn := ⟨"quote", 150⟩, out := "base", fee := 0, output := ⟨"base", 125⟩, err := none },
  -- ASK: simple swap
  { ops := [.place 0 .bid "sender" 100 none], tokenIn := ⟨"base", 100⟩, out := "quote", fee := 0, output := ⟨"quote", 100⟩, err := none },
  -- ASK: invalid partial fill
  { ops := [.place 0 .bid "sender" 25 none], tokenIn := ⟨"base", 150⟩, out := "quote", fee := 0, output := ⟨"quote", 0⟩, err := (some .insufficientLiquidity) },
  -- ASK: multi-tick/direction swap
  { ops := [.place 0 .bid "sender" 100 none, .place 1000000 .bid "sender" 100 none, .place 0 .ask "sender" 100 none, .place 1000000 .ask "sender" 25 none], tokenIn := ⟨"base", 150⟩, out := "quote", fee := 0, output := ⟨"quote", 200⟩, err := none },
  -- insufficient liquidity
  { ops := [], tokenIn := ⟨"quote", 100⟩, out := "base", fee := 0, output := ⟨"base", 0⟩, err := (some .insufficientLiquidity) },
  -- invalid duplicate denom
  { ops := [], tokenIn := ⟨"base", 100⟩, out := "base", fee := 0, output := ⟨"base", 0⟩, err := (some (.invalidPair "base" "base")) }
]

/-- the model passes them -/
theorem calcCases1_pass : calcCases1.all CalcCase.run = true := by decide +kernel

/-- test_query.rs:438-660 test_calc_out_amount_given_in -/
def calcCases2 : List CalcCase := [
  -- invalid in denom
  { ops := [], tokenIn := ⟨"notadenom", 100⟩, out := "base", fee := 0, output := ⟨"base", 0⟩, err := (some (.invalidPair "notadenom" "base")) },
  -- invalid out denom
  { ops := [], tokenIn := ⟨"base", 100⟩, out := "notadenom", fee := 0, output := ⟨"base", 0⟩, err := (some (.invalidPair "base" "notadenom")) },
  -- invalid zero amount
  { ops := [], tokenIn := ⟨"base", 0⟩, out := "quote", fee := 0, output := ⟨"base", 0⟩, err := (some (.invalidSwap .zeroInput)) }
]

/-- the model passes them -/
theorem calcCases2_pass : calcCases2.all CalcCase.run = true := by decide +kernel

/-- test_query.rs:719-777 test_total_pool_liquidity -/
def totalCases : List TotalCase := [
  -- simple test
  { ops := [], output := [⟨"base", 0⟩, ⟨"quote", 0⟩], err := none },
  -- basic single tick non-empty query
  { ops := [.place 0 .bid "sender" 100 none, .place 0 .ask "sender" 100 none], output := [⟨"base", 100⟩, ⟨"quote", 100⟩], err := none },
  -- multi-tick test
  { ops := [.placeMulti [-1, -2, -3, -5, -8, -13, -21, -34, -55, -5000000] 100 50 .bid, .placeMulti [1, 2, 3, 5, 8, 13, 21, 34, 55, 1000000] 100 110 .ask], output := [⟨"base", 110000⟩, ⟨"quote", 50000⟩], err := none }
]

/-- the model passes them -/
theorem totalCases_pass : totalCases.all TotalCase.run = true := by decide +kernel


end OB.Conf
