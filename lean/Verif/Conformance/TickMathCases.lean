import Verif.Conformance.TickMathTests
/- tests/test_tick_math.rs
Generated by /verif/tools/gen_conformance.py from the Rust test sources; do not edit. -/
namespace OB.Conf

/-- test_tick_math.rs:16-139 test_tick_to_price -/
def tickToPriceCases : List TickToPriceCase := [
  { tick := 182402823, price := 340282300000000000000 * D, err := none },
  { tick := -108000000, price := 1000000, err := none },
  { tick := 40000000, price := 50000 * D, err := none },
  { tick := 4010000, price := 5010000000000000000, err := none },
  { tick := 40000001, price := 50000010000000000000000, err := none },
  { tick := -9999900, price := 90001000000000000, err := none },
  { tick := -2000, price := 999800000000000000, err := none },
  { tick := 40303000, price := 53030 * D, err := none },
  { tick := 182402822, price := 340282200000000000000 * D, err := none },
  { tick := -108000000, price := 1000000, err := none },
  { tick := -107999999, price := 1000001, err := none },
  { tick := -17765433, price := 12345670000000000, err := none },
  { tick := -17765432, price := 12345680000000000, err := none },
  { tick := -107765433, price := 1234567, err := none },
  { tick := -107765432, price := 1234568, err := none },
  { tick := 81234567, price := 1234567000 * D, err := none },
  { tick := 81234567, price := 1234567000 * D, err := none },
  { tick := 81234568, price := 1234568000 * D, err := none },
  { tick := 0, price := D, err := none }
]

/-- test_tick_math.rs:142-167 test_tick_to_price_error_cases -/
def tickToPriceErrCases : List TickToPriceCase := [
  { tick := 182402824, price := 0, err := (some (.tickOutOfBounds 182402824)) },
  { tick := -108000001, price := 0, err := (some (.tickOutOfBounds (-108000001))) }
]

/-- test_tick_math.rs:170-211 test_pow_ten -/
def powTenCases : List PowTenCase := [
  { expo := 0, result := D },
  { expo := 1, result := 10 * D },
  { expo := -1, result := 100000000000000000 },
  { expo := 5, result := 100000 * D },
  { expo := -5, result := 10000000000000 },
  { expo := 10, result := 10000000000 * D },
  { expo := -10, result := 100000000 }
]

/-- test_tick_math.rs:223-275 test_multiply_by_price -/
def multiplyCases : List PriceCase := [
  -- basic price multiplication
  { price := 5 * D, amount := 10, result := 50, err := none, rounding := .down },
  -- basic price multiplication w/ rounding (down)
  { price := 50000000000000000, amount := 3, result := 0, err := none, rounding := .down },
  -- basic price multiplication w/ rounding (up)
  { price := 50000000000000000, amount := 3, result := 1, err := none, rounding := .up },
  -- error overflow
  { price := 115792089237316195423570985008687907853269984665640564039457584007913129639935, amount := 340282366920938463463374607431768211455, result := 1, err := (some .overflow), rounding := .down }
]

/-- test_tick_math.rs:278-326 test_divide_by_price -/
def divideCases : List PriceCase := [
  -- basic price division
  { price := 5 * D, amount := 10, result := 2, err := none, rounding := .down },
  -- basic price division w/ rounding (down)
  { price := 5 * D, amount := 1, result := 0, err := none, rounding := .down },
  -- basic price division w/ rounding (up)
  { price := 5 * D, amount := 1, result := 1, err := none, rounding := .up },
  -- error overflow
  { price := 0, amount := 340282366920938463463374607431768211455, result := 1, err := (some .overflow), rounding := .down }
]

/-- tests/test_tick_math.rs holds of the model -/
theorem tick_math_tests :
    tickToPriceCases.all TickToPriceCase.run = true ∧ tickToPriceErrCases.all TickToPriceCase.run = true ∧
      powTenCases.all PowTenCase.run = true ∧ multiplyCases.all PriceCase.runMultiply = true ∧
      divideCases.all PriceCase.runDivide = true := by
  refine ⟨?_, ?_, ?_, ?_, ?_⟩ <;> decide +kernel

end OB.Conf
