import Verif.SpecFlow
import Verif.SpecSwap
/- Vocabulary for the account of the contract's own money. -/
namespace OB.Spec

/-- Sum of fractions over all valid ticks. -/
def overTicksQ (g : Int → ℚ) : ℚ := ∑ t ∈ Finset.Icc (-108000000) 182402823, g t

/-- The exact value of the unclaimed fills of the orders of a queue. -/
def exactOwed (d : Dir) (t : Int) (q : List Entry) : ℚ := (q.map fun x => value d (x.filled - x.claimed) t).sum

/-- What the contract holds, of the denom that orders of side `d` deposit, beyond the unfilled rests of these orders and the exact value of the
unclaimed fills of the orders of the other side. -/
def surplus (ch : Chain) (bank : Bank) (quote base : Denom) (b : Book) (d : Dir) : ℚ :=
  bank ch.contract (denomIn quote base d) - overTicks (fun t => openTotal (b t d)) - overTicksQ fun t => exactOwed d.opposite t (b t d.opposite)

/-- What a swap that pays `c` leaves with the contract of the denom that orders of side `d` deposit: what it pays, less what it is sent back and
the exact value of what it takes. -/
def swapGain (denom : Denom) (d : Dir) (c : Coin) (s s' : Store) (resp : Response) : ℚ :=
  if c.denom = denom then c.amount - spent denom resp.msgs - overTicksQ fun t => value d.opposite (taken s s' t d.opposite) t else 0

/-- What an accepted operation leaves with the contract, apart from the fractions that claims round off: funds attached to
configuration messages; maker fees, should the contract be its own fee recipient; what a swap pays beyond the exact value of what it takes;
and gifts. -/
def gain (ch : Chain) (quote base : Denom) (d : Dir) (op : Op) (s s' : Store) (resp : Response) : ℚ :=
  match op with
  | .execute _ funds _ (.auth _) => amountOf (denomIn quote base d) funds
  | .execute _ _ _ _ => received ch.contract (denomIn quote base d) resp.msgs
  | .sudo _ (.swapExactAmountIn _ c _ _ _) => swapGain (denomIn quote base d) d c s s' resp
  | .sudo _ (.swapToTick _ c _ _ _ _) => swapGain (denomIn quote base d) d c s s' resp
  | .transfer _ dst c => if dst = ch.contract then amountOf (denomIn quote base d) [c] else 0
  | .mint dst c => if dst = ch.contract then amountOf (denomIn quote base d) [c] else 0
  | _ => 0

/-- The gains of the accepted operations of a history. -/
def gains (ch : Chain) (quote base : Denom) (d : Dir) : World → List Op → ℚ
  | _, [] => 0
  | w, op :: ops =>
    match step ch w op with
    | .ok (w', resp) => gain ch quote base d op w.store w'.store resp + gains ch quote base d w' ops
    | .error _ => gains ch quote base d w ops

/-- The number of claims among the events. -/
def claimsIn (es : List Event) : Nat := es.countP fun e => match e with | .limitClaimed .. => true | _ => false

end OB.Spec
