/-
Key-sorted association lists: the model of the `cw_storage_plus::Map`s that the contract iterates
(`TICK_STATE`, `orders()`); iteration order of the real map is the order of the encoded keys, which for `i64`
and `(i64, u64)` keys is the numeric / lexicographic order.
-/
namespace OB

/-- A key type with the storage iteration order (`PrimaryKey` of cw_storage_plus; the keys of state.rs:14, 37). -/
class Key (K : Type) where
  lt : K → K → Bool
  irrefl : ∀ a, lt a a = false
  trans : ∀ a b c, lt a b = true → lt b c = true → lt a c = true
  tri : ∀ a b, lt a b = false → lt b a = false → a = b

/-- Ticks (`i64`) as keys of `TICK_STATE`, state.rs:14. -/
instance : Key Int where
  lt a b := decide (a < b)
  irrefl a := by simp
  trans a b c := by simp; omega
  tri a b := by simp; omega

/-- `(tick_id, order_id)` as keys of `orders()`, state.rs:36-37. -/
instance : Key (Int × Nat) where
  lt a b := decide (a.1 < b.1) || (decide (a.1 = b.1) && decide (a.2 < b.2))
  irrefl a := by simp
  trans a b c := by
    simp only [Bool.or_eq_true, Bool.and_eq_true, decide_eq_true_eq]; omega
  tri a b := by
    intro h1 h2
    simp only [Bool.or_eq_false_iff, Bool.and_eq_false_iff, decide_eq_false_iff_not] at h1 h2
    ext <;> omega

/-- `cw_storage_plus::Map` / `IndexedMap` (state.rs:14, 37): an association list, sorted by key (see `SMap.Sorted`). -/
abbrev SMap (K V : Type) := List (K × V)

namespace SMap
variable {K V : Type} [Key K] [DecidableEq K]

/-- `Map::may_load` (cw_storage_plus; e.g. order.rs:149, 628, query.rs:245). -/
def get? : SMap K V → K → Option V
  | [], _ => none
  | (k, v) :: m, x => if x = k then some v else get? m x

/-- `Map::save` (cw_storage_plus; e.g. order.rs:110, 121). -/
def insert : SMap K V → K → V → SMap K V
  | [], x, y => [(x, y)]
  | (k, v) :: m, x, y =>
    if x = k then (x, y) :: m
    else if Key.lt x k then (x, y) :: (k, v) :: m
    else (k, v) :: insert m x y

/-- `Map::remove` (cw_storage_plus; e.g. order.rs:213, 678). -/
def erase (m : SMap K V) (x : K) : SMap K V := m.filter (fun p => !decide (p.1 = x))

/-- Keys in iteration order (`Map::keys`, `Map::range`, ascending; order.rs:486-498, query.rs:150-160). -/
def keys (m : SMap K V) : List K := m.map Prod.fst

/-- Strictly increasing keys (an invariant of every store the model reaches; no code of its own). -/
def Sorted (m : SMap K V) : Prop := m.Pairwise (fun a b => Key.lt a.1 b.1 = true)

end SMap
end OB
