import Verif.Conformance.SudoTests
/- tests/test_sudo.rs
Generated by /verif/tools/gen_conformance.py from the Rust test sources; do not edit. -/
namespace OB.Conf

/-- test_sudo.rs:41-91 test_validate_output_amount -/
def validateCases : List ValidateCase := [
  -- valid output
  { maxIn := 100, minOut := 0, input := ⟨"denoma", 50⟩, output := ⟨"denomb", 50⟩, err := none },
  -- exceed max
  { maxIn := 100, minOut := 0, input := ⟨"denomb", 101⟩, output := ⟨"denoma", 50⟩, err := (some (.invalidSwap (.maxIn 100 101))) },
  -- do not meet min
  { maxIn := 100, minOut := 50, input := ⟨"denoma", 50⟩, output := ⟨"denomb", 41⟩, err := (some (.invalidSwap (.minOut 50 41))) },
  -- duplicate denom
  { maxIn := 100, minOut := 0, input := ⟨"denoma", 50⟩, output := ⟨"denoma", 41⟩, err := (some (.invalidSwap .sameDenoms)) }
]

/-- the model passes them -/
theorem validateCases_pass : validateCases.all ValidateCase.run = true := by decide +kernel

/-- test_sudo.rs:129-350 test_swap_exact_amount_in -/
def swapCases1 : List SwapCase := [
  -- BID: valid basic swap
  { ops := [.place 0 .ask "sender" 100 none], tokenIn := ⟨"quote", 100⟩, out := "base", min := 100, fee := 0, target := none, output := ⟨"base", 100⟩, numMsgs := 1, refund := none, err := none },
  -- BID: min amount not met
  { ops := [.place 0 .ask "sender" 10 none], tokenIn := ⟨"quote", 100⟩, out := "base", min := 100, fee := 0, target := none, output := ⟨"base", 100⟩, numMsgs := 1, refund := none, err := (some .insufficientLiquidity) },
  -- BID: zero liquidity in orderbook
  { ops := [], tokenIn := ⟨"quote", 100⟩, out := "base", min := 100, fee := 0, target := none, output := ⟨"base", 100⟩, numMsgs := 1, refund := none, err := (some .insufficientLiquidity) },
  -- ASK: valid basic swap
  { ops := [.place 0 .bid "sender" 100 none], tokenIn := ⟨"base", 100⟩, out := "quote", min := 100, fee := 0, target := none, output := ⟨"quote", 100⟩, numMsgs := 1, refund := none, err := none },
  -- ASK: min amount not met
  { ops := [.place 0 .bid "sender" 10 none], tokenIn := ⟨"base", 100⟩, out := "quote", min := 100, fee := 0, target := none, output := ⟨"quote", 100⟩, numMsgs := 1, refund := none, err := (some .insufficientLiquidity) },
  -- ASK: zero liquidity in orderbook
  { ops := [], tokenIn := ⟨"base", 100⟩, out := "quote", min := 100, fee := 0, target := none, output := ⟨"quote", 100⟩, numMsgs := 1, refund := none, err := (some .insufficientLiquidity) },
  -- invalid in denom
  { ops := [], tokenIn := ⟨"notadenom", 100⟩, out := "quote", min := 100, fee := 0, target := none, output := ⟨"quote", 100⟩, numMsgs := 1, refund := none, err := (some (.invalidPair "notadenom" "quote")) },
  -- invalid out denom
  { ops := [], tokenIn := ⟨"base", 100⟩, out := "notadenom", min := 100, fee := 0, target := none, output := ⟨"quote", 100⟩, numMsgs := 1, refund := none, err := (some (.invalidPair "base" "notadenom")) }
]

/-- the model passes them -/
theorem swapCases1_pass : swapCases1.all SwapCase.run = true := by decide +kernel

/-- test_sudo.rs:129-350 test_swap_exact_amount_in -/
def swapCases2 : List SwapCase := [
  -- invalid duplicate denom
  { ops := [], tokenIn := ⟨"base", 100⟩, out := "base", min := 100, fee := 0, target := none, output := ⟨"quote", 100⟩, numMsgs := 1, refund := none, err := (some (.invalidSwap .sameDenoms)) },
  -- invalid swap fee
  { ops := [], tokenIn := ⟨"base", 100⟩, out := "notadenom", min := 100, fee := D, target := none, output := ⟨"quote", 100⟩, numMsgs := 1, refund := none, err := (some (.invalidSwap (.fee (1 * D)))) },
  -- BID: valid basic swap to tick
  { ops := [.place 0 .ask "sender" 90 none, .place 10 .ask "sender" 10 none], tokenIn := ⟨"quote", 100⟩, out := "base", min := 90, fee := 0, target := (some 5), output := ⟨"base", 90⟩, numMsgs := 2, refund := (some ⟨"sender", ⟨"quote", 10⟩, 1⟩), err := none }
]

/-- the model passes them -/
theorem swapCases2_pass : swapCases2.all SwapCase.run = true := by decide +kernel

/-- test_sudo.rs:504-521 test_set_active -/
def activeCases : List ActiveCase := [
  -- active: true
  { active := (some true), err := none },
  -- active: None
  { active := none, err := none },
  -- active: false
  { active := (some false), err := (some .inactive) }
]

/-- the model passes them -/
theorem activeCases_pass : activeCases.all ActiveCase.run = true := by decide +kernel

/-- test_sudo.rs:562-621 test_set_active_execute -/
def activeExecCases : List ActiveExecCase := [
  -- active: true, message type: order
  { msg := .placeLimit 0 .ask 100 none, active := (some true), err := none },
  -- active: None, message type: order
  { msg := .placeLimit 0 .ask 100 none, active := none, err := none },
  -- active: false, message type: order
  { msg := .placeLimit 0 .ask 100 none, active := (some false), err := (some .inactive) },
  -- active: true, message type: auth
  { msg := .auth (.transferAdmin "new_admin"), active := (some true), err := none },
  -- active: true, message type: auth
  { msg := .auth (.transferAdmin "new_admin"), active := none, err := none },
  -- active: true, message type: auth
  { msg := .auth (.transferAdmin "new_admin"), active := (some false), err := none }
]

/-- the model passes them -/
theorem activeExecCases_pass : activeExecCases.all ActiveExecCase.run = true := by decide +kernel

/-- test_sudo.rs:673-719 test_set_active_sudo -/
def activeSudoCases : List ActiveSudoCase := [
  -- active book, swap exact in
  { ops := [.place 0 .ask "sender" 100 none], msg := .swapExactAmountIn "sender" ⟨"quote", 100⟩ "base" 100 0, active := (some true), err := none },
  -- inactive, swap exact in
  { ops := [.place 0 .ask "sender" 100 none], msg := .swapExactAmountIn "sender" ⟨"quote", 100⟩ "base" 100 0, active := (some false), err := (some .inactive) }
]

/-- the model passes them -/
theorem activeSudoCases_pass : activeSudoCases.all ActiveSudoCase.run = true := by decide +kernel


end OB.Conf
