import Verif.SpecRef
/- Vocabulary for exchanging operations. -/
namespace OB.Spec

/-- The orders (tick, id) that a cancel or a claim refers to. -/
def orderKeys : Op → Option (List (Int × Nat))
  | .execute _ _ _ (.cancelLimit tick id) => some [(tick, id)]
  | .execute _ _ _ (.claimLimit tick id) => some [(tick, id)]
  | .execute _ _ _ (.batchClaim l) => some l
  | _ => none

/-- The side of a new order. -/
def newSide : Op → Option Dir
  | .execute _ _ _ (.placeLimit _ dir _ _) => some dir
  | _ => none

/-- The side a swap takes from: whoever pays base takes bids. -/
def swapSide (base : Denom) : Op → Option Dir
  | .sudo _ (.swapExactAmountIn _ c _ _ _) => some (if c.denom = base then .bid else .ask)
  | .sudo _ (.swapToTick _ c _ _ _ _) => some (if c.denom = base then .bid else .ask)
  | _ => none

/-- Operations that do not concern the book. -/
def outside : Op → Bool
  | .transfer .. | .mint .. | .migrate => true
  | _ => false

/-- Messages that only change who may configure the book. -/
def rolesOnly : Op → Bool
  | .execute _ _ _ (.auth (.setActive _)) | .execute _ _ _ (.auth (.setMakerFee _)) | .execute _ _ _ (.auth (.setMakerFeeRecipient _)) => false
  | .execute _ _ _ (.auth _) => true
  | .sudo _ (.transferAdmin _) | .sudo _ .removeAdmin => true
  | _ => false

/-- Messages that only change the maker fee or its recipient. -/
def feeOnly : Op → Bool
  | .execute _ _ _ (.auth (.setMakerFee _)) | .execute _ _ _ (.auth (.setMakerFeeRecipient _)) => true
  | _ => false

/-- Claims, single or in a batch. -/
def isClaim : Op → Bool
  | .execute _ _ _ (.claimLimit ..) | .execute _ _ _ (.batchClaim _) => true
  | _ => false

/-- Operations on the book that do not get into each other's way, given the live orders `orders` and the id `next` of the next order. -/
inductive Independent (base : Denom) (orders : Int × Nat → Option LimitOrder) (next : Nat) : Op → Op → Prop
  /-- cancels and claims of different orders -/
  | orders {op op' k k'} : orderKeys op = some k → orderKeys op' = some k' → (∀ x ∈ k, x ∉ k') → Independent base orders next op op'
  /-- a new order, and cancels or claims of others -/
  | new {op op' d k} : newSide op = some d → orderKeys op' = some k → (∀ x ∈ k, x.2 ≠ next) → Independent base orders next op op'
  /-- a swap, and cancels or claims of orders of the side it does not take from -/
  | swapOrders {op op' side k} : swapSide base op = some side → orderKeys op' = some k →
      (∀ x ∈ k, ∀ o, orders x = some o → o.dir ≠ side) → Independent base orders next op op'
  /-- a swap, and a new order on the side it does not take from -/
  | swapNew {op op' side d} : swapSide base op = some side → newSide op' = some d → d ≠ side → Independent base orders next op op'
  /-- swaps in opposite directions -/
  | swaps {op op' side side'} : swapSide base op = some side → swapSide base op' = some side' → side ≠ side' → Independent base orders next op op'
  /-- transfers between accounts, and anything -/
  | outside {op op'} : outside op = true → Independent base orders next op op'
  /-- changes of the admin or moderator, and anything but configuration -/
  | roles {op op'} : rolesOnly op = true → (orderKeys op' ≠ none ∨ newSide op' ≠ none ∨ swapSide base op' ≠ none) →
      Independent base orders next op op'
  /-- changes of the maker fee, and anything but configuration and claims -/
  | fee {op op'} : feeOnly op = true → isClaim op' = false → (orderKeys op' ≠ none ∨ newSide op' ≠ none ∨ swapSide base op' ≠ none) →
      Independent base orders next op op'
  | symm {op op'} : Independent base orders next op op' → Independent base orders next op' op

end OB.Spec
