import Verif.Model.World
/-
The specification: for each tick and side a FIFO queue of all orders ever placed there. It knows nothing of ETAS,
cumulative totals or sumtrees. It is driven only by what a user can observe: the accepted messages, the events of their
responses, and (for swaps) how much each tick's liquidity went down.
-/
namespace OB

/-- An order that was placed, with the amounts (in units of its deposit denom) a bookkeeper would note for it. -/
structure Entry where
  id : Nat
  owner : Addr
  bounty : Option Nat
  placedAt : Nat
  placed : Nat
  filled : Nat
  claimed : Nat
  cancelled : Bool
  deriving DecidableEq, Repr

/-- What swaps can still take from the order. -/
def Entry.left (x : Entry) : Nat := if x.cancelled then 0 else x.placed - x.filled

/-- The order is still on the book: not cancelled and not completely claimed. -/
def Entry.Live (x : Entry) : Prop := x.cancelled = false ∧ x.claimed < x.placed

instance (x : Entry) : Decidable x.Live := inferInstanceAs (Decidable (_ ∧ _))

/-- Time priority: an amount taken from a side fills the oldest orders first. -/
def fillQ : Nat → List Entry → List Entry
  | _, [] => []
  | f, x :: q => { x with filled := x.filled + min f x.left } :: fillQ (f - min f x.left) q

/-- Update the entry with the given id. -/
def updQ (id : Nat) (g : Entry → Entry) (q : List Entry) : List Entry := q.map fun x => if x.id = id then g x else x

/-- All queues, oldest order first. -/
abbrev Book := Int → Dir → List Entry

def Book.empty : Book := fun _ _ => []

/-- Replace one queue. -/
def Book.set (b : Book) (tick : Int) (dir : Dir) (q : List Entry) : Book :=
  fun t d => if t = tick ∧ d = dir then q else b t d

/-- Liquidity (in whole units) that a tick offers on a side, as reported by the tick queries. -/
def tickLiquidity (s : Store) (tick : Int) (dir : Dir) : Nat :=
  toUintFloor (((s.ticks.get? tick).getD .default).getValues dir).tal

/-- Bookkeeping for one event of a response; `op` is the message, `s`/`s'` the book before/after (used for swaps only:
how much liquidity each tick lost). -/
def Book.note (op : Op) (s s' : Store) (b : Book) : Event → Book
  | .placeLimit owner tick id dir quantity _ _ =>
    match op with
    | .execute _ _ time (.placeLimit _ _ _ bounty) =>
      b.set tick dir (b tick dir ++ [⟨id, owner, bounty, time, quantity, 0, 0, false⟩])
    | _ => b
  | .cancelLimit _ tick id _ dir _ _ _ => b.set tick dir (updQ id (fun x => { x with cancelled := true }) (b tick dir))
  | .limitClaimed _ tick id _ _ dir _ _ _ _ _ =>
    b.set tick dir (updQ id (fun x => { x with claimed := x.filled }) (b tick dir))
  | .swapExactAmountIn .. =>
    fun t d => fillQ (tickLiquidity s t d - tickLiquidity s' t d) (b t d)
  | .method _ _ => b

/-- Bookkeeping for a successful operation. -/
def Book.observe (b : Book) (op : Op) (s s' : Store) (resp : Response) : Book :=
  resp.events.foldl (Book.note op s s') b

/-- The contract's 64-bit counters are not used up: fewer than 10^17 orders have ever been placed, and on each tick the counter
that numbers the nodes of the cancellation trees is below 10^19 (2^64 is about 1.8 * 10^19). This is a condition on a state, not
on how many operations led to it: any number of swaps, claims, cancellations and failed messages may have happened. -/
def World.HasRoom (w : World) : Prop :=
  w.store.orderId.getD 0 < 10 ^ 17 ∧ ∀ t, (w.store.trees.counter t).getD 0 < 10 ^ 19

/-- `Traced ch n w b`: some history of `n` operations (failed ones included) leads from an instantiation to `w`, and the
bookkeeper watching it has noted `b`. -/
inductive Traced (ch : Chain) : Nat → World → Book → Prop
  | init {w} : Initial ch w → Traced ch 0 w Book.empty
  | ok {n w b op w' resp} : Traced ch n w b → step ch w op = .ok (w', resp) →
      Traced ch (n + 1) w' (b.observe op w.store w'.store resp)
  | failed {n w b op e} : Traced ch n w b → step ch w op = .error e → Traced ch (n + 1) w b

end OB
