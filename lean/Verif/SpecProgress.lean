import Verif.SpecSync
/- Vocabulary for what a front end computes from query answers. -/
namespace OB.Spec

/-- `o` is in some answer of one of the order queries. -/
def Answered (s : Store) (o : LimitOrder) : Prop :=
  (∃ t lo hi limit, o ∈ ordersIn (answer s (.ordersByTick t lo hi limit))) ∨
    ∃ a lo hi limit, o ∈ ordersIn (answer s (.ordersByOwner a lo hi limit))

/-- What a front end takes for the claimable quantity of the order `o`, when the tick query shows `etas` and the unrealized-cancels query
shows `unrealized` for its side: as far as the two together go beyond the order's own mark, and at most the order's quantity. -/
def claimable (o : LimitOrder) (etas unrealized : Nat) : Nat := min o.quantity ((etas + unrealized - o.etas) / 10 ^ 18)

/-- What a front end takes for the quantity queued before the order `o`. -/
def queued (o : LimitOrder) (etas unrealized : Nat) : Nat := (o.etas - (etas + unrealized)) / 10 ^ 18

/-- The answers that a front end uses: the state of the tick of `o` and the unrealized cancels of its side. -/
def Shown (s : Store) (o : LimitOrder) (etas unrealized : Nat) : Prop :=
  ∃ (ts : TickState) (u : Dir → Nat), answer s (.ticksById [o.tickId]) = some (.ticks [(o.tickId, ts)]) ∧ (ts.getValues o.dir).etas = etas ∧
    answer s (.getUnrealizedCancels [o.tickId]) = some (.unrealized [(o.tickId, u .ask, u .bid)]) ∧ u o.dir = unrealized

end OB.Spec
