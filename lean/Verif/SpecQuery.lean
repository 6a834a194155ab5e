import Verif.SpecBook
/- Vocabulary for the statements about queries. -/
namespace OB.Spec

/-- How the queries show a live order `x` of tick `tick`: `before` is the quantity placed on its side before it. -/
def shown (tick : Int) (dir : Dir) (before : Nat) (x : Entry) : LimitOrder :=
  { tickId := tick, orderId := x.id, dir := dir, owner := x.owner, quantity := x.placed - x.claimed,
    etas := 10 ^ 18 * (before + x.claimed), claimBounty := x.bounty, placedQuantity := x.placed, placedAt := x.placedAt }

/-- `o` shows a live order of the book. -/
def Listed (b : Book) (o : LimitOrder) : Prop :=
  ∃ tick dir p x q, b tick dir = p ++ x :: q ∧ x.Live ∧ o = shown tick dir (placedTotal p) x

/-- Ascending by tick, then by id. -/
def Asc (o o' : LimitOrder) : Prop := o.tickId < o'.tickId ∨ (o.tickId = o'.tickId ∧ o.orderId < o'.orderId)

/-- `all` is the list of the listed orders that satisfy `P`, ascending by (tick, id): complete, without duplicates. -/
def ListOf (b : Book) (P : LimitOrder → Prop) (all : List LimitOrder) : Prop :=
  all.Pairwise Asc ∧ ∀ o, o ∈ all ↔ Listed b o ∧ P o

/-- (tick, id) is at least `k`. -/
def atLeast (k : Int × Nat) (o : LimitOrder) : Bool := decide (k.1 < o.tickId ∨ (k.1 = o.tickId ∧ k.2 ≤ o.orderId))

/-- (tick, id) is at most `k`. -/
def atMost (k : Int × Nat) (o : LimitOrder) : Bool := decide (o.tickId < k.1 ∨ (o.tickId = k.1 ∧ o.orderId ≤ k.2))

/-- Inclusive optional bounds. -/
def within (lo hi : Option (Int × Nat)) (o : LimitOrder) : Bool := (lo.all fun k => atLeast k o) && (hi.all fun k => atMost k o)

/-- Inclusive optional bounds on ids. -/
def withinIds (lo hi : Option Nat) (o : LimitOrder) : Bool := (lo.all fun k => decide (k ≤ o.orderId)) && (hi.all fun k => decide (o.orderId ≤ k))

/-- A client that reads page after page, at most `n` pages: each page starts right after the last element of the one before. -/
def crawl {α κ : Type} (fetch : Option κ → List α) (next : α → κ) : Nat → Option κ → List α
  | 0, _ => []
  | n + 1, start =>
    match (fetch start).getLast? with
    | none => []
    | some x => fetch start ++ crawl fetch next n (some (next x))

end OB.Spec

namespace OB.Spec

/-- The answer of a query, if it does not fail. -/
def answer (s : Store) (m : QueryMsg) : Option Answer :=
  match query m s with
  | .ok a _ => some a
  | .err _ _ => none

/-- The orders in an answer. -/
def ordersIn : Option Answer → List LimitOrder
  | some (.orders _ l) => l
  | _ => []

/-- The ticks in an answer. -/
def ticksIn : Option Answer → List (Int × TickState)
  | some (.ticks l) => l
  | _ => []

/-- A tick on which an order was ever placed. -/
def Used (b : Book) (t : Int) : Prop := ∃ d, b t d ≠ []

/-- Total of the cancelled amounts whose turn in the queue has come: nothing is left for sale before them. -/
def dueTotal : List Entry → Nat
  | [] => 0
  | x :: q => if x.left = 0 then (if x.cancelled then x.placed - x.filled else 0) + dueTotal q else 0

end OB.Spec
