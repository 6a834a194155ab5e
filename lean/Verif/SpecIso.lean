import Verif.SpecTree
/- Vocabulary for the statements about isolation: what an operation is about, and what it means for a tick side to be left alone. -/
namespace OB.Spec

/-- The operation is about side `d` of tick `t`: it places an order there, it cancels or claims an order of that queue, or it is a swap
paying the denom which that side's orders receive (that is, a swap taking from that side). -/
def Concerns (quote base : Denom) (b : Book) (t : Int) (d : Dir) : Op → Prop
  | .execute _ _ _ (.placeLimit t' d' _ _) => t' = t ∧ d' = d
  | .execute _ _ _ (.cancelLimit t' id) => t' = t ∧ ∃ x ∈ b t d, x.id = id
  | .execute _ _ _ (.claimLimit t' id) => t' = t ∧ ∃ x ∈ b t d, x.id = id
  | .execute _ _ _ (.batchClaim l) => ∃ x ∈ b t d, (t, x.id) ∈ l
  | .sudo _ (.swapExactAmountIn _ c _ _ _) => c.denom = denomOut quote base d
  | .sudo _ (.swapToTick _ c _ _ _ _) => c.denom = denomOut quote base d
  | _ => False

/-- The operation names tick `t`, or is a swap. -/
def Mentions (t : Int) : Op → Prop
  | .execute _ _ _ (.placeLimit t' _ _ _) => t' = t
  | .execute _ _ _ (.cancelLimit t' _) => t' = t
  | .execute _ _ _ (.claimLimit t' _) => t' = t
  | .execute _ _ _ (.batchClaim l) => ∃ id, (t, id) ∈ l
  | .sudo _ (.swapExactAmountIn ..) => True
  | .sudo _ (.swapToTick ..) => True
  | _ => False

/-- From store `s` with queues `b` to store `s'` with queues `b'`, side `d` of tick `t` is left alone: same queue with the same fills,
same liquidity, same total placed, same fill position (effective total net of realized cancels), same stored orders, and the same tree, on
the same nodes. (What may change is how many of its cancellations are realized so far.) -/
structure SideKept (s s' : Store) (b b' : Book) (t : Int) (d : Dir) : Prop where
  queue : b' t d = b t d
  liquidity : (tickValues s' t d).tal = (tickValues s t d).tal
  placed : (tickValues s' t d).ctv = (tickValues s t d).ctv
  position : (tickValues s' t d).etas + (tickValues s t d).crc = (tickValues s t d).etas + (tickValues s' t d).crc
  orders : ∀ id o, o.dir = d → (s'.orders.get? (t, id) = some o ↔ s.orders.get? (t, id) = some o)
  tree : ∀ h L ks, ValidOn s'.trees t d h L ks ↔ ValidOn s.trees t d h L ks

/-- From store `s` with queues `b` to store `s'` with queues `b'`, tick `t` is exactly as before: its state, its queues, its stored orders
and everything stored for its trees. -/
structure TickKept (s s' : Store) (b b' : Book) (t : Int) : Prop where
  queues : b' t = b t
  state : s'.ticks.get? t = s.ticks.get? t
  orders : ∀ id, s'.orders.get? (t, id) = s.orders.get? (t, id)
  nodes : s'.trees.nodes t = s.trees.nodes t
  roots : s'.trees.roots t = s.trees.roots t
  counter : s'.trees.counter t = s.trees.counter t

end OB.Spec
