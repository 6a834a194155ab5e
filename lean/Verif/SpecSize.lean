import Verif.SpecCost
import Verif.SpecStore
import Verif.SpecRoom
/- How much the contract stores (C93). -/
namespace OB.Spec

/-- The orders ever cancelled on one side of a tick. -/
def cancelledAt (b : Book) (t : Int) (d : Dir) : Nat := ((b t d).filter Entry.cancelled).length

/-- The nodes of a tree that remembers `c` cancelled orders: nothing for none; a root and its only leaf for one; and `c` leaves under `c - 1`
inner nodes for more. -/
def treeNodes : Nat → Nat
  | 0 => 0
  | 1 => 2
  | c + 2 => 2 * c + 3

/-- `S` lists storage records that hold something, none twice. -/
def Records (s : Store) (S : List Cell) : Prop := S.Nodup ∧ ∀ c ∈ S, s.cell none c ≠ none

end OB.Spec
