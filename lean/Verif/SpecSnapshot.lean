import Verif.SpecAns
/- Vocabulary for the statement that what the queries show decides the future. -/
namespace OB.Spec

/-- Two books of which the queries show the same: the pair and the best-tick pointers, the switch, the fee, the roles, all ticks, and the
live orders of each tick. -/
structure SameSnapshot (s s' : Store) : Prop where
  book : answer s .orderbookState = answer s' .orderbookState
  active : answer s .isActive = answer s' .isActive
  fee : answer s .getMakerFee = answer s' .getMakerFee
  auth : ∀ a, answer s (.auth a) = answer s' (.auth a)
  ticks : answer s (.allTicks none none none) = answer s' (.allTicks none none none)
  orders : ∀ t, answer s (.ordersByTick t none none none) = answer s' (.ordersByTick t none none none)

/-- What no query shows: the id of the next order and the recipient of the maker fee. -/
structure SameHidden (s s' : Store) : Prop where
  nextId : s.orderId.getD 0 = s'.orderId.getD 0
  recipient : s.makerFeeRecipient = s'.makerFeeRecipient

end OB.Spec
