import Verif.Model.SumTree
/- sumtree/node.rs: `delete` and `sync_range_and_value_up`. No entry point of the contract calls them (a cancelled order's leaf is never
removed); they are public operations of the tree. -/
namespace OB.TreeNode

/-- node.rs:290-296 `sync_range_and_value_up` (the recursion goes along parent pointers; `fuel` cuts it off with `.diverge`) -/
def syncRangeAndValueUp : Nat → TreeNode → TM TreeNode
  | 0, _ => EM.fail .diverge
  | fuel + 1, self => do
    let self ← self.syncRangeAndValue
    let st ← EM.get
    match self.getParent st with
    | none => pure self
    | some parent => do
      let _ ← syncRangeAndValueUp fuel parent
      pure self

/-- node.rs:620 `NODES.remove(storage, &(tick, key))` -/
def remove (n : TreeNode) : TM Unit :=
  EM.modify fun st =>
    { st with nodes := fun t k => if t = n.tickId ∧ k = n.key then none else st.nodes t k }

/-- node.rs:604-608: the parent's reference to the deleted node, cleared in memory -/
def dropChild (parent : TreeNode) (key : Nat) : TreeNode :=
  if parent.left = some key then { parent with left := none }
  else if parent.right = some key then { parent with right := none }
  else parent

/-- node.rs:601-623 `delete` -/
def delete : Nat → TreeNode → TM Unit
  | 0, _ => EM.fail .diverge
  | fuel + 1, self => do
    let st ← EM.get
    match self.getParent st with
    | none => pure ()
    | some parent => do
      let parent := parent.dropChild self.key
      if !parent.hasChild then delete fuel parent
      else do
        let _ ← syncRangeAndValueUp fuel parent
        pure ()
    self.remove

end OB.TreeNode
