import Verif.SpecEcon
import Verif.SpecErr
/- How much a side of the book can take (C106). -/
namespace OB.Spec

/-- What it costs to buy everything on a side, level by level, each rounded up. -/
noncomputable def capacity (side : Dir) (levels : List (Int × Nat)) : Nat := (levels.map fun x => charge side x.2 x.1).sum

/-- The largest market order the project's fuzz tests think the book can take (`get_max_market_amount`): the worth of all levels, each rounded down. -/
noncomputable def maxMarketAmount (side : Dir) (levels : List (Int × Nat)) : Nat := (levels.map fun x => ⌊value side x.2 x.1⌋₊).sum

/-- The side is deep enough for `input`: what exceeds its capacity buys no unit at its worst level. An empty side is enough for nothing only. -/
def Enough (side : Dir) (levels : List (Int × Nat)) (input : Nat) : Prop :=
  match levels.getLast? with
  | none => input = 0
  | some worst => value side.opposite (input - capacity side levels) worst.1 < 1

end OB.Spec
