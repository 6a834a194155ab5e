import Verif.SpecBook
/- Vocabulary for the statements about the sumtree in storage: what a valid tree of storage nodes is, which list of leaves it holds, and
what realizing cancellations one at a time means. -/
namespace OB.Spec

/-- Total of the values of a list of leaves (position, value). -/
def totalOf (L : List (Nat × Nat)) : Nat := (L.map Prod.snd).sum

/-- `mn` is the least position and `mx` the greatest end of the leaves. -/
def RangeOf (L : List (Nat × Nat)) (mn mx : Nat) : Prop :=
  (∃ x ∈ L, x.1 = mn) ∧ (∃ x ∈ L, x.1 + x.2 = mx) ∧ ∀ x ∈ L, mn ≤ x.1 ∧ x.1 + x.2 ≤ mx

/-- `Subtree st tick dir par k h L ks`: in the node storage of `tick`, under id `k` and with parent pointer `par`, there is a balanced
search tree of side `dir` of height `h` whose leaves are, from left to right, `L` (position, value), and whose nodes have the ids `ks`. Every
node knows its own id, tick and side, its parent, and (an internal node) the sum, the range and the height of its subtree. -/
inductive Subtree (st : TreeSt) (tick : Int) (dir : Dir) : Option Nat → Nat → Nat → List (Nat × Nat) → List Nat → Prop
  | leaf {par : Option Nat} {k e v : Nat} :
      st.nodes tick k = some { key := k, tickId := tick, dir := dir, left := none, right := none, parent := par, ntype := .leaf v e } →
      0 < v → Subtree st tick dir par k 1 [(e, v)] [k]
  | node {par : Option Nat} {k l r hl hr mn mx : Nat} {Ll Lr : List (Nat × Nat)} {kl kr : List Nat} :
      st.nodes tick k = some { key := k, tickId := tick, dir := dir, left := some l, right := some r, parent := par, ntype := .internal (totalOf (Ll ++ Lr)) mn mx (max hl hr + 1) } →
      RangeOf (Ll ++ Lr) mn mx →
      Subtree st tick dir (some k) l hl Ll kl → Subtree st tick dir (some k) r hr Lr kr →
      (∀ x ∈ Ll, ∀ y ∈ Lr, x.1 + x.2 ≤ y.1) → hl ≤ hr + 1 → hr ≤ hl + 1 →
      Subtree st tick dir par k (max hl hr + 1) (Ll ++ Lr) (k :: (kl ++ kr))

/-- The registered tree of side `dir` of `tick`: either nothing is stored under the registered root (if any), or the root has a single
leaf as left child, or it is the root of a balanced search tree. -/
inductive TreeOf (st : TreeSt) (tick : Int) (dir : Dir) : Nat → List (Nat × Nat) → List Nat → Prop
  | empty : (∀ k, st.roots tick dir = some k → st.nodes tick k = none ∧ k ≤ (st.counter tick).getD 0) → TreeOf st tick dir 0 [] []
  | single {k l e v : Nat} : st.roots tick dir = some k →
      st.nodes tick k = some { key := k, tickId := tick, dir := dir, left := some l, right := none, parent := none, ntype := .internal v e (v + e) 2 } →
      st.nodes tick l = some { key := l, tickId := tick, dir := dir, left := none, right := none, parent := some k, ntype := .leaf v e } →
      0 < v → TreeOf st tick dir 2 [(e, v)] [k, l]
  | tree {k h : Nat} {L : List (Nat × Nat)} {ks : List Nat} : st.roots tick dir = some k → 2 ≤ h → Subtree st tick dir none k h L ks →
      TreeOf st tick dir h L ks

/-- A valid tree of height `h` with leaves `L` on the nodes `ks`: no node occurs twice (no sharing, no cycle), and all the ids were
generated before. -/
structure ValidOn (st : TreeSt) (tick : Int) (dir : Dir) (h : Nat) (L : List (Nat × Nat)) (ks : List Nat) : Prop where
  tree : TreeOf st tick dir h L ks
  nodup : ks.Nodup
  known : ∀ k ∈ ks, k ≤ (st.counter tick).getD 0

/-- A valid tree of height `h` with leaves `L`. -/
def ValidTree (st : TreeSt) (tick : Int) (dir : Dir) (h : Nat) (L : List (Nat × Nat)) : Prop := ∃ ks, ValidOn st tick dir h L ks

/-- The cancelled orders of a queue in queue order, as leaves in 18-decimal fixed point: an order that had `P` units placed before it on its
side and was cancelled when `f` of it was filled occupies the positions from `P + f` on, with what was left of it. -/
def cancelledLeaves : Nat → List Entry → List (Nat × Nat)
  | _, [] => []
  | P, x :: q =>
    (if x.cancelled then [(10 ^ 18 * (P + x.filled), 10 ^ 18 * (x.placed - x.filled))] else []) ++ cancelledLeaves (P + x.placed) q

/-- Realize cancellations one at a time, in order: each one is skipped over (moving the position by its value) once the position has
reached it; the first one not reached stops the process. Result: the total realized. -/
def realize : Nat → List (Nat × Nat) → Nat
  | _, [] => 0
  | x, (e, v) :: L => if e ≤ x then v + realize (x + v) L else 0

/-- The interval [e, e+v) meets none of the leaves. -/
def Apart (e v : Nat) (L : List (Nat × Nat)) : Prop := ∀ x ∈ L, x.1 + x.2 ≤ e ∨ e + v ≤ x.1

/-- What `cancel_limit` does with the tree of an order's side (order.rs, after the checks): load or create the root, generate an id,
insert the leaf, save the node that `insert` left in `tree`. -/
def insertCancel (tick : Int) (dir : Dir) (e v : Nat) (fuel : Nat) : TM Unit := do
  let root ← getOrInitRootNode tick dir
  let id ← generateNodeId tick
  let n ← TreeNode.insert fuel root (TreeNode.mk' tick dir id (.leaf v e))
  n.save

/-- No node is stored under an id that was not generated yet. -/
def Unspoiled (st : TreeSt) (tick : Int) : Prop := ∀ k, (st.counter tick).getD 0 < k → st.nodes tick k = none

end OB.Spec
