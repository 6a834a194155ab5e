import Verif.SpecWorth
import Verif.SpecSurplus
/- Vocabulary for what a coalition of accounts can gain. -/
namespace OB.Spec

/-- What `n` units of the deposit denom of side `d` are worth in quote, base counted at the price of tick `t0`. -/
def inWorth (t0 : Int) (d : Dir) (n : ℚ) : ℚ :=
  match d with
  | .bid => n
  | .ask => n * price t0

/-- What an order at tick `t` on side `d` is worth to its owner in quote: what is left of the deposit, and what has been filled and not yet
claimed, at the price of the order, without rounding, fees and bounty. Base is counted at the price of tick `t0`. -/
def orderWorth (t0 t : Int) (d : Dir) (x : Entry) : ℚ :=
  inWorth t0 d x.left + inWorth t0 d.opposite (value d (x.filled - x.claimed) t)

/-- What the orders of the accounts `S` in a queue are worth. -/
def queueWorth (S : Finset Addr) (t0 t : Int) (d : Dir) (q : List Entry) : ℚ :=
  (q.map fun x => if x.owner ∈ S then orderWorth t0 t d x else 0).sum

/-- What the accounts `S` own together: their balances and their orders. -/
def wealth (quote base : Denom) (t0 : Int) (S : Finset Addr) (bank : Bank) (b : Book) : ℚ :=
  holdings quote base t0 S bank + overTicksQ fun t => queueWorth S t0 t .bid (b t .bid) + queueWorth S t0 t .ask (b t .ask)

/-- The queues as noted after the history `ops`. -/
def noted (ch : Chain) : World → Book → List Op → Book
  | _, b, [] => b
  | w, b, op :: ops =>
    match step ch w op with
    | .ok (w', resp) => noted ch w' (b.observe op w.store w'.store resp) ops
    | .error _ => noted ch w b ops

/-- The account that swaps. -/
def swapper : Op → Option Addr
  | .sudo _ (.swapExactAmountIn a ..) => some a
  | .sudo _ (.swapToTick a ..) => some a
  | _ => none

/-- What accounts outside `S` give away by swapping: what their holdings lose in these swaps. -/
def outsidersLoss (ch : Chain) (quote base : Denom) (t0 : Int) (S : Finset Addr) : World → List Op → ℚ
  | _, [] => 0
  | w, op :: ops =>
    (match swapper op with
      | some a => if a ∈ S then 0 else holdings quote base t0 {a} w.bank - holdings quote base t0 {a} (apply ch w op).bank
      | none => 0) + outsidersLoss ch quote base t0 S (apply ch w op) ops

/-- An operation is fair to the accounts outside `S`, on the book `s`: outsiders do not bid above or ask below the price of tick `t0`; `S` has no
share in the claims of outsiders' orders (neither as claimer nor as fee recipient), is not given coins by outsiders, and
nobody bids above a price of 10^18. -/
def FairOp (s : Store) (S : Finset Addr) (t0 : Int) : Op → Prop
  | .execute sender _ _ (.placeLimit tick dir _ _) => (sender ∉ S → ¬ Better dir tick t0) ∧ (dir = .bid → price tick ≤ 10 ^ 18)
  | .execute sender _ _ (.claimLimit tick id) =>
    ∀ o, s.orders.get? (tick, id) = some o → o.owner ∉ S → sender ∉ S ∧ ∀ a, s.makerFeeRecipient = some a → a ∉ S
  | .execute sender _ _ (.batchClaim l) =>
    ∀ k ∈ l, ∀ o, s.orders.get? k = some o → o.owner ∉ S → sender ∉ S ∧ ∀ a, s.makerFeeRecipient = some a → a ∉ S
  | .transfer src dst _ => dst ∈ S → src ∈ S
  | .mint dst _ => dst ∉ S
  | _ => True

/-- Every operation of the history is fair when it happens. -/
def Fair (ch : Chain) (w : World) (ops : List Op) (S : Finset Addr) (t0 : Int) : Prop :=
  ∀ pre op post, ops = pre ++ op :: post → FairOp (run ch w pre).store S t0 op

/-- The open orders of accounts outside `S` do not bid above or ask below the price of tick `t0`. -/
def OutsidersAround (b : Book) (S : Finset Addr) (t0 : Int) : Prop :=
  ∀ t d, ∀ x ∈ b t d, x.owner ∉ S → x.left ≠ 0 → ¬ Better d t t0

/-- No open bid is above a price of 10^18. -/
def FineBids (s : Store) : Prop := ∀ t, tickLiquidity s t .bid ≠ 0 → price t ≤ 10 ^ 18

end OB.Spec
