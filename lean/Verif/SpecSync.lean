import Verif.SpecQuery
/- Vocabulary for the statements about syncing ticks. -/
namespace OB.Spec

/-- What a sync makes of the accumulators of a side with queue `q`: nothing if the side has not moved since the last sync, otherwise
the realized cancels become those whose turn has come, and the effective total amount swapped grows by what is newly realized. -/
def syncedValues (q : List Entry) (v : TickValues) : TickValues :=
  if v.lastSync = v.etas then v
  else { v with etas := v.etas + (10 ^ 18 * dueTotal q - v.crc), crc := 10 ^ 18 * dueTotal q, lastSync := v.etas }

/-- The call with which claims and cancels sync a tick: up to the present totals of both sides. -/
def syncNow (s : Store) (t : Int) : Res Store Unit := syncTick t (tickValues s t .bid).etas (tickValues s t .ask).etas s

end OB.Spec
