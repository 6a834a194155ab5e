import Verif.SpecCost
import Verif.Model.Reenter
/- Which storage cells a query depends on (C111). -/
namespace OB.Spec

/-- The query looks at no storage cells but those in `S`: whatever the others contain, it returns the same answer or the same error. -/
def LooksAt (s : Store) (q : QueryMsg) (S : Cell → Prop) : Prop :=
  ∀ s2 : Store, Proper s2 → (∀ c, S c → s2.cell none c = s.cell none c) → queryResult s2 q = queryResult s q

/-- Between two bounds, either optional. -/
def Within {K : Type} [Key K] (lo hi : Option K) (k : K) : Prop := (∀ l ∈ lo, Key.lt k l = false) ∧ ∀ h ∈ hi, Key.lt h k = false

/-- The cells that a query is about. The orders of an account are those that its index entries name. -/
def Subject (s : Store) : QueryMsg → Cell → Prop
  | .spotPrice .., c | .orderbookState, c | .denoms, c => c = .orderbook
  | .calcOutAmountGivenIn .., c | .calcOutAmtGivenIn .., c => c = .orderbook ∨ ∃ t, c = .tick t
  | .getTotalPoolLiquidity, c => c = .orderbook ∨ ∃ d, c = .dirLiq d
  | .calcInAmtGivenOut, _ | .getSwapFee, _ => False
  | .allTicks lo hi _, c => ∃ t, Within lo hi t ∧ c = .tick t
  | .isActive, c => c = .isActive
  | .ordersByOwner owner .., c => ∃ k, c = .ownerIdx owner k ∨ (c = .order k ∧ s.cell none (.ownerIdx owner k) ≠ none)
  | .ticksById ids, c => ∃ t ∈ ids, c = .tick t
  | .ordersByTick t lo hi _, c => ∃ id, (∀ l ∈ lo, l ≤ id) ∧ (∀ h ∈ hi, id ≤ h) ∧ c = .order (t, id)
  | .getMakerFee, c => c = .makerFee
  | .getUnrealizedCancels ids, c => ∃ t ∈ ids, c = .tick t ∨ c = .counter t ∨ (∃ d, c = .root t d) ∨ ∃ id, c = .node t id
  | .auth .admin, c => c = .admin
  | .auth .adminOffer, c => c = .adminOffer
  | .auth .moderator, c => c = .moderator
  | .auth .moderatorOffer, c => c = .moderatorOffer

end OB.Spec
