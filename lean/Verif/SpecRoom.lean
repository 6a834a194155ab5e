import Verif.Spec
/- What uses up the contract's 64-bit counters. -/
namespace OB.Spec

/-- Is it a placement? -/
def places : Op → Nat
  | .execute _ _ _ (.placeLimit ..) => 1
  | _ => 0

/-- The order placements of a history that are accepted. -/
def placements (ch : Chain) : World → List Op → Nat
  | _, [] => 0
  | w, op :: ops =>
    (match OB.step ch w op with
      | .ok _ => places op
      | .error _ => 0) + placements ch (apply ch w op) ops

/-- How often an operation names the tick in a claim or cancel (each entry of a batch counts). -/
def names (t : Int) : Op → Nat
  | .execute _ _ _ (.claimLimit tick _) => if tick = t then 1 else 0
  | .execute _ _ _ (.cancelLimit tick _) => if tick = t then 1 else 0
  | .execute _ _ _ (.batchClaim l) => (l.filter fun k => k.1 = t).length
  | _ => 0

/-- How often the accepted operations of a history do so. -/
def mentions (ch : Chain) (t : Int) : World → List Op → Nat
  | _, [] => 0
  | w, op :: ops =>
    (match OB.step ch w op with
      | .ok _ => names t op
      | .error _ => 0) + mentions ch t (apply ch w op) ops

end OB.Spec
