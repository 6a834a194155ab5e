import Verif.SpecObs
import Mathlib.Algebra.BigOperators.Group.Finset.Basic
import Mathlib.Data.Int.Interval
/- Vocabulary for the statements about swaps. -/
namespace OB.Spec

/-- A swap request; with a `target` it is swap_to_tick, without it is swap_exact_amount_in. -/
structure SwapReq where
  sender : Addr
  tokenIn : Coin
  outDenom : Denom
  minOut : Nat
  fee : Nat
  target : Option Int

/-- The transaction that carries out the request. -/
def SwapReq.op (r : SwapReq) (time : Nat) : Op :=
  match r.target with
  | none => .sudo time (.swapExactAmountIn r.sender r.tokenIn r.outDenom r.minOut r.fee)
  | some t => .sudo time (.swapToTick r.sender r.tokenIn r.outDenom r.minOut r.fee t)

/-- What left the liquidity of a tick on a side. -/
def taken (s s' : Store) (t : Int) (side : Dir) : Nat := tickLiquidity s t side - tickLiquidity s' t side

/-- For somebody taking from `side`, tick `t` has a strictly better price than `t'`: high bids, low asks. -/
def Better (side : Dir) (t t' : Int) : Prop :=
  match side with
  | .bid => t' < t
  | .ask => t < t'

/-- Sum over all valid ticks. -/
def overTicks (g : Int → Nat) : Nat := ∑ t ∈ Finset.Icc (-108000000) 182402823, g t

/-- What a taker pays, in whole units, for `amount` units taken from `side` at tick `t`: the exact value rounded up. A quotient is
first cut to 18 decimals, which makes a difference only above price 10^18. -/
noncomputable def charge (side : Dir) (amount : Nat) (t : Int) : Nat :=
  match side with
  | .ask => ⌈value .ask amount t⌉₊
  | .bid => ⌈(⌊value .bid amount t * 10 ^ 18⌋₊ : ℚ) / 10 ^ 18⌉₊

/-- The only change of balances is that `sender` paid `paid` of `inDenom` to the contract, got `refund` of it back, and received `out` of
`outDenom`. -/
structure Exchanged (b b' : Bank) (contract sender : Addr) (inDenom : Denom) (paid refund : Nat) (outDenom : Denom) (out : Nat) : Prop where
  senderIn : b' sender inDenom + paid = b sender inDenom + refund
  contractIn : b' contract inDenom + refund = b contract inDenom + paid
  senderOut : b' sender outDenom = b sender outDenom + out
  contractOut : b' contract outDenom + out = b contract outDenom
  other : ∀ a d, (a ≠ sender ∧ a ≠ contract) ∨ (d ≠ inDenom ∧ d ≠ outDenom) → b' a d = b a d

/-- The pair of denoms of a swap that takes from `side`: it pays what the side's orders receive and gets what they deposited. -/
def SwapReq.pair (r : SwapReq) (quote base : Denom) (side : Dir) : Prop :=
  r.tokenIn.denom = denomOut quote base side ∧ r.outDenom = denomIn quote base side

/-- A tick that the request may touch: not beyond its target. -/
def SwapReq.within (r : SwapReq) (side : Dir) (t : Int) : Prop := ∀ target, r.target = some target → ¬ Better side target t

/-- The reference matching engine. `levels` are price levels (tick, liquidity), best price first; `q` is the input. At each level the
engine buys as much as the input can pay for, up to the liquidity, and pays the charge. Result: the fills (tick, amount), the unused
input, and the dust: input that could not buy one unit at the next level. `none`: a level cannot be matched, because its charge would be
zero or the amount does not fit 128 bits. -/
noncomputable def matchLevels (side : Dir) : List (Int × Nat) → Nat → Option (List (Int × Nat) × Nat × Nat)
  | [], q => some ([], q, 0)
  | (t, liquidity) :: rest, q =>
    let want := ⌊value side.opposite q t⌋₊
    if want = 0 then some ([], 0, q)
    else
      let a := min want liquidity
      if charge side a t = 0 ∨ 2 ^ 128 ≤ a then none
      else (matchLevels side rest (q - charge side a t)).map fun x => ((t, a) :: x.1, x.2.1, x.2.2)

/-- The price levels a request can use: all ticks with liquidity on `side` up to its target, best first. -/
def SwapReq.Levels (r : SwapReq) (s : Store) (side : Dir) (levels : List (Int × Nat)) : Prop :=
  levels.Pairwise (fun x y => Better side x.1 y.1) ∧
  ∀ t liquidity, (t, liquidity) ∈ levels ↔ liquidity = tickLiquidity s t side ∧ liquidity ≠ 0 ∧ r.within side t

/-- A request that must be filled completely: it has no target, or its target is the last tick. -/
def SwapReq.mustFill (r : SwapReq) (side : Dir) : Prop :=
  match side with
  | .bid => r.target = none ∨ r.target = some (-108000000)
  | .ask => r.target = none ∨ r.target = some 182402823

/-- The target is a valid tick and not on the wrong side of the best price pointer. -/
def SwapReq.targetOk (r : SwapReq) (ob : Orderbook) (side : Dir) : Prop :=
  ∀ target, r.target = some target → ValidTick target ∧
    match side with
    | .bid => target ≤ ob.nextBidTick
    | .ask => ob.nextAskTick ≤ target

end OB.Spec
