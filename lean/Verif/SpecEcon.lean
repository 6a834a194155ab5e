import Verif.SpecSwap
import Mathlib.Algebra.BigOperators.Ring.Finset
/- Vocabulary for the economics of swaps. -/
namespace OB.Spec

/-- What it would cost, exactly and without any rounding, to take `x t` units at each tick `t` from `side`. -/
def exactCost (side : Dir) (x : Int → Nat) : ℚ := ∑ t ∈ Finset.Icc (-108000000) 182402823, value side (x t) t

/-- The number of ticks from which something was taken. -/
def ticksTaken (s s' : Store) (side : Dir) : Nat := overTicks fun t => if taken s s' t side = 0 then 0 else 1

/-- What it costs to take `x` units from `levels` (tick, liquidity), emptying one level before touching the next; each level charges its
rounded price. -/
noncomputable def costOf (side : Dir) : List (Int × Nat) → Nat → Nat
  | [], _ => 0
  | (t, liquidity) :: rest, x => charge side (min x liquidity) t + costOf side rest (x - liquidity)

/-- Prices at which the charge is not cut to 18 decimals first: all ask prices, and bid prices up to 10^18. -/
def FinePrices (side : Dir) (levels : List (Int × Nat)) : Prop := side = .ask ∨ ∀ x ∈ levels, price x.1 ≤ 10 ^ 18

/-- No bid is above an ask. -/
def Uncrossed (s : Store) : Prop := ∀ tb ta, tickLiquidity s tb .bid ≠ 0 → tickLiquidity s ta .ask ≠ 0 → tb ≤ ta

end OB.Spec
