import Verif.Conformance.Harness
/- The loops of tests/test_tick_math.rs -/
namespace OB.Conf

/-- test_tick_math.rs:9-13 -/
structure TickToPriceCase where
  tick : Int
  price : Nat
  err : Option Err

/-- test_tick_math.rs:124-138, 158-166 -/
def TickToPriceCase.run (c : TickToPriceCase) : Bool := expect (tickToPrice c.tick) c.price c.err

/-- test_tick_math.rs:171-174 -/
structure PowTenCase where
  expo : Int
  result : Nat

/-- test_tick_math.rs:207-210 -/
def PowTenCase.run (c : PowTenCase) : Bool := expect (powTen c.expo) c.result none

/-- test_tick_math.rs:213-220 -/
structure PriceCase where
  price : Nat
  amount : Nat
  result : Nat
  err : Option Err
  rounding : Rounding

/-- test_tick_math.rs:267-274 -/
def PriceCase.runMultiply (c : PriceCase) : Bool := expect (multiplyByPrice c.amount c.price c.rounding) c.result c.err
/-- test_tick_math.rs:318-325 -/
def PriceCase.runDivide (c : PriceCase) : Bool := expect (divideByPrice c.amount c.price c.rounding) c.result c.err

end OB.Conf
