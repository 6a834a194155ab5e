import Verif.SpecBook
/- Vocabulary for the winding-down of a book. -/
namespace OB.Spec

/-- `l` lists the live orders of the book, each once, in any order. -/
structure LiveOrders (b : Book) (l : List (Int × Dir × Entry)) : Prop where
  once : l.Nodup
  all : ∀ t d x, (t, d, x) ∈ l ↔ x ∈ b t d ∧ x.Live

/-- The owner of each order claims it and then cancels it. -/
def exits (time : Nat) (l : List (Int × Dir × Entry)) : List Op :=
  l.flatMap fun e => [.execute e.2.2.owner [] time (.claimLimit e.1 e.2.2.id), .execute e.2.2.owner [] time (.cancelLimit e.1 e.2.2.id)]

/-- What the order is worth in denom `d` to its owner: the unfilled part of the deposit, and the tick-price value of the unclaimed fill
minus the maker fee. -/
noncomputable def worth (quote base : Denom) (fee : Nat) (d : Denom) (e : Int × Dir × Entry) : Nat :=
  (if denomIn quote base e.2.1 = d then e.2.2.placed - e.2.2.filled else 0) +
  (if denomOut quote base e.2.1 = d then
    payout e.2.1 (e.2.2.filled - e.2.2.claimed) e.1 - payout e.2.1 (e.2.2.filled - e.2.2.claimed) e.1 * fee / 10 ^ 18 else 0)

/-- What all orders of `a` in the list are worth in denom `d`. -/
noncomputable def worthTo (quote base : Denom) (fee : Nat) (a : Addr) (d : Denom) (l : List (Int × Dir × Entry)) : Nat :=
  ((l.filter fun e => decide (e.2.2.owner = a)).map (worth quote base fee d)).sum

end OB.Spec
