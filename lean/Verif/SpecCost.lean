import Verif.Model.Storage
import Verif.Spec
/- Vocabulary for the storage cells an operation depends on. -/
namespace OB.Spec

/-- Two outcomes of the same operation, in the worlds `w` and `w2`, are the same as far as the cells in `S` go: the same error; or the same
response and the same transfers, the cells in `S` end up the same, and no other cell was written. -/
def SameDoing (S : Cell → Prop) (w w2 : World) : Except Err (World × Response) → Except Err (World × Response) → Prop
  | .ok (w', r), .ok (w2', r2) => r2 = r ∧ w2'.bank = w'.bank ∧ (∀ c, S c → w2'.store.cell none c = w'.store.cell none c) ∧
      ∀ c, ¬ S c → w'.store.cell none c = w.store.cell none c ∧ w2'.store.cell none c = w2.store.cell none c
  | .error e, .error e2 => e2 = e
  | _, _ => False

/-- The maps of a store are listed in the order of their keys. (The model stores maps as lists; only such lists stand for a map.) -/
def Proper (s : Store) : Prop := SMap.Sorted s.ticks ∧ SMap.Sorted s.orders

/-- In the world `w` the operation reads and writes no storage cells but those in `S`: whatever the others contain, it does the same. -/
def Touches (ch : Chain) (w : World) (op : Op) (S : Cell → Prop) : Prop :=
  ∀ w2 : World, Proper w2.store → w2.bank = w.bank → (∀ c, S c → w2.store.cell none c = w.store.cell none c) → SameDoing S w w2 (step ch w op) (step ch w2 op)

/-- The operation touches at most `k` storage cells. -/
def TouchesAtMost (ch : Chain) (w : World) (op : Op) (k : Nat) : Prop := ∃ S : List Cell, S.length ≤ k ∧ Touches ch w op (· ∈ S)

/-- The number of orders ever cancelled on a tick. -/
def cancelledOn (b : Book) (t : Int) : Nat := ((b t .bid).filter Entry.cancelled).length + ((b t .ask).filter Entry.cancelled).length

/-- The switch, the prices and denoms, the two totals, and the price levels: the cells that have to do with neither orders nor trees nor the
configuration. -/
def swapCells : Cell → Prop
  | .isActive | .orderbook | .dirLiq _ | .tick _ => True
  | _ => False

end OB.Spec
