import Verif.SpecEcon
import Verif.SpecRefuse
/- Vocabulary for the wealth of takers. -/
namespace OB.Spec

/-- What the accounts `S` hold together, in quote, with base counted at the price of tick `t`. -/
def holdings (quote base : Denom) (t : Int) (S : Finset Addr) (bank : Bank) : ℚ := ∑ a ∈ S, ((bank a quote : ℚ) + bank a base * price t)

/-- The price of tick `t` lies between the two sides of the book: no bid is above it and no ask below it. -/
def Between (s : Store) (t : Int) : Prop := ∀ t' d, tickLiquidity s t' d ≠ 0 → ¬ Better d t' t

/-- In the history `ops` the accounts `S` only swap and pass coins on: whenever one of them has a part in an operation - as the sender, as
the owner of an order that is claimed, as the recipient of a maker fee or of a transfer - it is a swap, or a transfer that does not bring
in coins from outside `S`. They are not given new coins either. -/
def OnlySwap (ch : Chain) (w : World) (ops : List Op) (S : Finset Addr) : Prop :=
  ∀ pre op post, ops = pre ++ op :: post →
    (∀ a ∈ S, Party (run ch w pre).store op a →
      (∃ r time, op = SwapReq.op r time) ∨ ∃ src dst c, op = .transfer src dst c ∧ (dst ∈ S → src ∈ S)) ∧
    ∀ dst c, op = .mint dst c → dst ∉ S

/-- Whoever places an order in the history `ops` does not bid above or ask below the price of tick `t`. -/
def PlacedAround (ops : List Op) (t : Int) : Prop :=
  ∀ sender funds time tick dir quantity bounty, Op.execute sender funds time (.placeLimit tick dir quantity bounty) ∈ ops → ¬ Better dir tick t

end OB.Spec
