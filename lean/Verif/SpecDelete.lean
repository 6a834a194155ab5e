import Verif.SpecTree
/- Vocabulary for the statements about deleting nodes of a sumtree: trees that need not be balanced and whose internal nodes may have a single
child (on either side). -/
namespace OB.Spec

/-- `Bough st tick dir par k h L ks`: in the node storage of `tick`, under id `k` and with parent pointer `par`, there is a binary tree of side
`dir` of height `h` whose leaves are, from left to right, `L` (position, value), and whose nodes have the ids `ks`. Every node knows its own id,
tick and side, its parent, and (an internal node, with one or two children) the sum, the range and the height of its subtree. -/
inductive Bough (st : TreeSt) (tick : Int) (dir : Dir) : Option Nat → Nat → Nat → List (Nat × Nat) → List Nat → Prop
  | leaf {par : Option Nat} {k e v : Nat} :
      st.nodes tick k = some { key := k, tickId := tick, dir := dir, left := none, right := none, parent := par, ntype := .leaf v e } →
      Bough st tick dir par k 1 [(e, v)] [k]
  | left {par : Option Nat} {k l h mn mx : Nat} {L : List (Nat × Nat)} {ks : List Nat} :
      st.nodes tick k = some { key := k, tickId := tick, dir := dir, left := some l, right := none, parent := par, ntype := .internal (totalOf L) mn mx (h + 1) } →
      RangeOf L mn mx → Bough st tick dir (some k) l h L ks → Bough st tick dir par k (h + 1) L (k :: ks)
  | right {par : Option Nat} {k r h mn mx : Nat} {L : List (Nat × Nat)} {ks : List Nat} :
      st.nodes tick k = some { key := k, tickId := tick, dir := dir, left := none, right := some r, parent := par, ntype := .internal (totalOf L) mn mx (h + 1) } →
      RangeOf L mn mx → Bough st tick dir (some k) r h L ks → Bough st tick dir par k (h + 1) L (k :: ks)
  | both {par : Option Nat} {k l r hl hr mn mx : Nat} {Ll Lr : List (Nat × Nat)} {kl kr : List Nat} :
      st.nodes tick k = some { key := k, tickId := tick, dir := dir, left := some l, right := some r, parent := par, ntype := .internal (totalOf (Ll ++ Lr)) mn mx (max hl hr + 1) } →
      RangeOf (Ll ++ Lr) mn mx → Bough st tick dir (some k) l hl Ll kl → Bough st tick dir (some k) r hr Lr kr →
      Bough st tick dir par k (max hl hr + 1) (Ll ++ Lr) (k :: (kl ++ kr))

/-- The registered tree of side `dir` of `tick` has the leaves `L` (positive values, in order, not overlapping) on the nodes `ks` (no sharing,
no cycle): either nothing is stored under the registered root (if any) and there are no leaves, or the root is the inner node of a tree. -/
structure LooseTree (st : TreeSt) (tick : Int) (dir : Dir) (L : List (Nat × Nat)) (ks : List Nat) : Prop where
  tree : (L = [] ∧ ks = [] ∧ ∀ k, st.roots tick dir = some k → st.nodes tick k = none) ∨
    ∃ k h, st.roots tick dir = some k ∧ 2 ≤ h ∧ Bough st tick dir none k h L ks
  nodup : ks.Nodup
  positive : ∀ x ∈ L, 0 < x.2
  ordered : L.Pairwise fun a b => a.1 + a.2 ≤ b.1

end OB.Spec
