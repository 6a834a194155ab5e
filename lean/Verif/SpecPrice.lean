import Verif.Model.Types
import Mathlib.Algebra.Order.Floor.Semiring
import Mathlib.Data.Rat.Floor
import Mathlib.Algebra.Order.Field.Basic
/-
Specification of prices and values, in exact rational arithmetic. Written from the documentation of the tick scheme, not
from the code: every 9,000,000 ticks the price grows by a factor of ten; within such a segment it grows linearly, in
steps of one millionth of the segment's starting price (above price 1), or falls in steps of one ten-millionth (below).
-/
namespace OB.Spec

/-- The price (quote per base) of a tick. -/
def price (t : Int) : ℚ :=
  let k : ℕ := t.natAbs / 9000000
  let n : ℕ := t.natAbs % 9000000
  if 0 ≤ t then 10 ^ k + n * (10 ^ k / 10 ^ 6) else 1 / 10 ^ k - n * (1 / 10 ^ k / 10 ^ 7)

/-- What `amount` deposited units of an order at tick `t` are worth in the other denom: a bid deposits quote and receives
base, an ask deposits base and receives quote. -/
def value (dir : Dir) (amount : Nat) (t : Int) : ℚ :=
  match dir with
  | .bid => amount / price t
  | .ask => amount * price t

/-- The valid ticks. -/
def ValidTick (t : Int) : Prop := -108000000 ≤ t ∧ t ≤ 182402823

end OB.Spec
