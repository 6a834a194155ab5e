import Verif.SpecObs
import Verif.SpecQuery
/- A client that never looks at the contract's state, only at the events of accepted transactions. -/
namespace OB.Spec

/-- What an indexer remembers about a live order: owner, direction, quantity placed, quantity not yet claimed. -/
structure Line where
  owner : Addr
  dir : Dir
  placed : Nat
  unclaimed : Nat
  deriving DecidableEq

/-- The indexer's table: (tick, order id) to the live order there. -/
abbrev Ledger := Int × Nat → Option Line

/-- Reading one event. -/
def Ledger.note (l : Ledger) : Event → Ledger
  | .placeLimit owner tick id dir q _ _ => fun k => if k = (tick, id) then some ⟨owner, dir, q, q⟩ else l k
  | .cancelLimit _ tick id _ _ _ _ _ => fun k => if k = (tick, id) then none else l k
  | .limitClaimed _ tick id remaining owner dir _ placed full _ _ =>
    fun k => if k = (tick, id) then (if full then none else some ⟨owner, dir, placed, remaining⟩) else l k
  | _ => l

/-- Reading a log from the start. -/
def replay (es : List Event) : Ledger := es.foldl Ledger.note fun _ => none

/-- The line that describes an order of a query answer. -/
def lineOf (o : LimitOrder) : Line := ⟨o.owner, o.dir, o.placedQuantity, o.quantity⟩

end OB.Spec
