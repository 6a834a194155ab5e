import Verif.Proofs.Delete
import Verif.Props.Tree
/- C66: deleting nodes of a sumtree. -/
namespace OB
open Spec

/-- C66: deleting any node of a stored tree succeeds (at every recursion cut-off of at least the number of nodes). The leaves `M` below the node
leave the tree and all other leaves `A`, `B` stay, in order; the sums, ranges, heights and pointers of the remaining nodes are right again;
inner nodes that became childless are gone from storage. Below a deleted inner node the nodes `gone` stay in storage, unreachable. Roots, id
counters, and all nodes not of this tree are untouched. -/
theorem C66_delete_node {st : TreeSt} {tick : Int} {dir : Dir} {L : List (Nat × Nat)} {ks : List Nat} (hv : LooseTree st tick dir L ks)
    (hle : ∀ x ∈ L, x.1 + x.2 < 2 ^ 256) (hlen : ks.length < 2 ^ 64) {k : Nat} (hk : k ∈ ks) {n : TreeNode} (hn : st.nodes tick k = some n) :
    ∃ st' A M B gone ks' h, L = A ++ M ++ B ∧ Bough st tick dir n.parent k h M gone ∧
      (∀ fuel, ks.length ≤ fuel → n.delete fuel st = .ok () st') ∧
      LooseTree st' tick dir (A ++ B) ks' ∧ (∀ j ∈ ks', j ∈ ks ∧ j ∉ gone) ∧
      st'.nodes tick k = none ∧ (∀ j ∈ gone, j ≠ k → st'.nodes tick j = st.nodes tick j) ∧
      (∀ j ∈ ks, j ∉ ks' → j ∉ gone → st'.nodes tick j = none) ∧
      (∀ t j, (t = tick → j ∉ ks) → st'.nodes t j = st.nodes t j) ∧ st'.roots = st.roots ∧ st'.counter = st.counter := by
  rcases hv.tree with ⟨-, rfl, -⟩ | ⟨rk, h0, hroot, h2, hb⟩
  · simp at hk
  obtain ⟨par, A, B, cs, h, M, gone, hc, hm, hL, hperm⟩ := hb.locate .top hk
  simp only [List.nil_append, List.append_nil] at hL hperm
  obtain ⟨n', e1, e2, e3, e4⟩ := hm.node
  rw [hn] at e1
  obtain rfl := Option.some.inj e1
  subst e4
  have hnd := hperm.nodup_iff.2 hv.nodup
  obtain ⟨d1, d2, d3⟩ := List.nodup_append.1 hnd
  have hkg := hm.key_mem
  have hkc : k ∉ cs := fun hc => d3 k hkg k hc rfl
  have hsub : (A ++ B).Sublist L := by
    rw [hL, List.append_assoc]
    exact (List.Sublist.refl A).append (List.sublist_append_right M B)
  have hord := hv.ordered.sublist hsub
  have hle' : ∀ x ∈ A ++ B, x.1 + x.2 < 2 ^ 256 := fun x hx => hle x (hsub.subset hx)
  have hlk : cs.length + 1 ≤ ks.length := by
    have := hperm.length_eq
    have := List.length_pos_of_mem hkg
    rw [List.length_append] at *
    omega
  obtain ⟨st', ks', f1, f2, f3, f4, f5, f6⟩ := hc.delete e2 e3 rfl (List.nodup_cons.2 ⟨hkc, d2⟩) hle' (totalOf_lt hord hle') (by omega)
  refine ⟨st', A, M, B, gone, ks', h, hL, hm, fun fuel hf => f1 fuel (by omega), ⟨?_, f4, fun x hx => hv.positive x (hsub.subset hx), hord⟩, ?_, ?_, ?_, ?_, ?_,
    f2.roots, f2.counter⟩
  · rcases f6 with ⟨f6, f7⟩ | ⟨h', f6, f7⟩
    · refine .inl ⟨f6, f7, fun r hr => ?_⟩
      rw [f2.roots, hroot] at hr
      obtain rfl := Option.some.inj hr
      exact f5 _ hc.root_mem (by simp [f7])
    · exact .inr ⟨rk, h', by rw [f2.roots]; exact hroot, f6, f7⟩
  · intro j hj
    exact ⟨hperm.mem_iff.1 (by simp [f3 hj]), fun hg => d3 j hg j (f3 hj) rfl⟩
  · exact f5 k (by simp) (fun hc => hkc (f3 hc))
  · intro j hj hne
    refine f2.nodes _ _ fun _ hm => ?_
    rcases List.mem_cons.1 hm with rfl | hm
    · exact hne rfl
    · exact d3 j hj j hm rfl
  · intro j hj hj' hg
    have : j ∈ cs := by
      rcases List.mem_append.1 (hperm.mem_iff.2 hj) with h | h
      · exact absurd h hg
      · exact h
    exact f5 j (by simp [this]) hj'
  · intro t j hj
    refine f2.nodes _ _ fun ht hm => hj ht (hperm.mem_iff.1 ?_)
    rcases List.mem_cons.1 hm with rfl | hm
    · simp [hkg]
    · simp [hm]

/-- C66: deleting a leaf takes exactly this leaf out of the tree, and storage keeps nothing but the nodes of the tree that remains. -/
theorem C66_delete_leaf {st : TreeSt} {tick : Int} {dir : Dir} {L : List (Nat × Nat)} {ks : List Nat} (hv : LooseTree st tick dir L ks)
    (hle : ∀ x ∈ L, x.1 + x.2 < 2 ^ 256) (hlen : ks.length < 2 ^ 64) {k : Nat} (hk : k ∈ ks) {n : TreeNode} (hn : st.nodes tick k = some n)
    {e v : Nat} (hl : n.ntype = .leaf v e) :
    ∃ st' A B ks', L = A ++ (e, v) :: B ∧ (∀ fuel, ks.length ≤ fuel → n.delete fuel st = .ok () st') ∧ LooseTree st' tick dir (A ++ B) ks' ∧
      (∀ j ∈ ks', j ∈ ks) ∧ (∀ j ∈ ks, j ∉ ks' → st'.nodes tick j = none) ∧ (∀ t j, (t = tick → j ∉ ks) → st'.nodes t j = st.nodes t j) ∧
      st'.roots = st.roots ∧ st'.counter = st.counter := by
  obtain ⟨st', A, M, B, gone, ks', h, h1, h2, h3, h4, h5, h6, h7, h8, h9, h10, h11⟩ := C66_delete_node hv hle hlen hk hn
  have hM : M = [(e, v)] ∧ gone = [k] := by
    cases h2 with
    | leaf g => rw [hn] at g; rw [Option.some.inj g] at hl; simp only [NodeType.leaf.injEq] at hl; obtain ⟨rfl, rfl⟩ := hl; exact ⟨rfl, rfl⟩
    | left g => rw [hn] at g; rw [Option.some.inj g] at hl; simp at hl
    | right g => rw [hn] at g; rw [Option.some.inj g] at hl; simp at hl
    | both g => rw [hn] at g; rw [Option.some.inj g] at hl; simp at hl
  obtain ⟨rfl, rfl⟩ := hM
  refine ⟨st', A, B, ks', by rw [h1]; simp, h3, h4, fun j hj => (h5 j hj).1, ?_, h9, h10, h11⟩
  intro j hj hj'
  by_cases he : j = k
  · subst he; exact h6
  · exact h8 j hj hj' (by simpa using he)

/-- C66: so it is for the tree of every side of every tick in every reachable state that has room. -/
theorem C66_delete_reachable {ch : Chain} {n : Nat} {w : World} {b : Book} (h : Traced ch n w b) (hn : w.HasRoom) (tick : Int) (dir : Dir) :
    ∃ ks, LooseTree w.store.trees tick dir (cancelledLeaves 0 (b tick dir)) ks ∧ ks.length < 2 ^ 64 ∧
      ∀ x ∈ cancelledLeaves 0 (b tick dir), x.1 + x.2 < 2 ^ 256 := by
  obtain ⟨height, ks, hv⟩ := (C31_stored_trees_valid h tick).1 dir
  refine ⟨ks, hv.loose, ?_, ?_⟩
  · have := nodup_le_length hv.nodup hv.known
    have g := hn.room.cnt_lt tick
    unfold TreeSt.cnt U64 at g
    omega
  · obtain ⟨r, rt, a1, a2, a3⟩ := h.rel.sides tick dir
    have hbound := a1.bound
    rw [a1.ctv] at hbound
    intro y hy
    rw [cancelledLeaves_eq a1.ok] at hy
    simp only [scale, List.mem_map] at hy
    obtain ⟨z, hz, rfl⟩ := hy
    have := (leavesOf_bounds a1.ok z hz).2.2
    simp only
    rw [← Nat.mul_add]
    have e : U256 = 2 ^ 256 := rfl
    rw [← e]
    exact lt_of_le_of_lt (Nat.mul_le_mul_left _ (by omega)) hbound

/-- C66 (limitation): deletion does not restore what insertion expects. When the root of a side is left with only a right child, every further
cancellation on this side of the tick fails. -/
theorem C66_insert_after_delete_fails {st : TreeSt} {tick : Int} {dir : Dir} {k r : Nat} {root right : TreeNode} (hr : st.roots tick dir = some k)
    (hn : st.nodes tick k = some root) (ht : root.tickId = tick) (hl : root.left = none) (hright : root.right = some r) (hrn : st.nodes tick r = some right)
    (hi : root.isInternal = true) (hc : (st.counter tick).getD 0 + 1 < 2 ^ 64) (e v fuel : Nat) :
    ∃ st', insertCancel tick dir e v (fuel + 1) st = .err .invalidSumtree st' := by
  have h1 : getRootNode st tick dir = .ok root := by unfold getRootNode; rw [hr]; simp only; rw [hn]
  have h2 : getOrInitRootNode tick dir st = .ok root st := by
    unfold getOrInitRootNode
    rw [EM.get_bind]; simp only [h1]; rfl
  have h3 := TreeNode.generateNodeId_spec (st := st) (tick := tick) rfl (by unfold U64; omega)
  unfold insertCancel
  rw [EM.bind_ok_of h2, EM.bind_ok_of h3]
  generalize hst : st.setCounter tick _ = st1
  have hrn' : st1.nodes tick r = some right := by rw [← hst]; exact hrn
  have h4 : TreeNode.insert (fuel + 1) root (TreeNode.mk' tick dir ((st.counter tick).getD 0 + 1) (.leaf v e)) st1 = .err .invalidSumtree st1 := by
    have hni : (TreeNode.mk' tick dir ((st.counter tick).getD 0 + 1) (.leaf v e)).isInternal = false := rfl
    rw [TreeNode.insert.eq_def]
    simp only [hi, hni, Bool.not_false, EM.ensure_true_bind, EM.get_bind, TreeNode.getLeft, TreeNode.getRight, hl, hright, ht, hrn', Option.isNone_none, Option.isSome_some,
      Bool.and_self, Bool.not_true, EM.ensure_false_bind]
  exact ⟨st1, EM.bind_err_of h4⟩

/-! ### Non-vacuity -/

namespace Demo

/-- Delete the stored node `k` of tick 0. -/
def deleteAt (st : TreeSt) (k : Nat) : Option TreeSt :=
  (st.nodes 0 k).bind fun n => match n.delete 19 st with
    | .ok _ st' => some st'
    | .err _ _ => none

/-- Two cancelled bids at tick 0. -/
def twoCancels : List Op :=
  [place "alice" 0 .bid 100 none, place "alice" 0 .bid 100 none, place "alice" 0 .bid 100 none, cancel "alice" 0 0, cancel "alice" 0 1]

end Demo

/-- The hypotheses of the theorems hold for every node of the tree of nine cancelled orders. -/
example : ∃ ks, LooseTree (Demo.trace Demo.manyCancels).1.store.trees 0 .bid
      ((List.range 9).map fun i => (i * 100 * 10 ^ 18, 100 * 10 ^ 18)) ks ∧ ks.length < 2 ^ 64 := by
  obtain ⟨ks, h1, h2, -⟩ := C66_delete_reachable (Demo.traced Demo.manyCancels) (Demo.room _ (by decide +kernel)) 0 .bid
  have e : cancelledLeaves 0 ((Demo.trace Demo.manyCancels).2 0 .bid) = (List.range 9).map fun i => (i * 100 * 10 ^ 18, 100 * 10 ^ 18) := by decide +kernel
  rw [e] at h1
  exact ⟨ks, h1, h2⟩

/-- Deleting the leaves 6 and 8 (the third and fourth cancelled order): their parent 9 goes too, its parent 7 keeps one child, and the sums up to
the root 11 are those of the seven leaves left. -/
example : let st := (Demo.deleteAt (Demo.trace Demo.manyCancels).1.store.trees 6).bind fun st => Demo.deleteAt st 8
    (st.map fun st => [6, 8, 9].map fun k => (st.nodes 0 k).isSome) = some [false, false, false] ∧
    (st.map fun st => [7, 11].map fun k => (st.nodes 0 k).map fun n => [n.left.getD 0, n.right.getD 0, n.getValue, n.getWeight]) =
      some [some [3, 0, 200 * 10 ^ 18, 3], some [7, 15, 700 * 10 ^ 18, 5]] := by decide +kernel

/-- After deleting the older of two cancelled orders the root has only a right child, and no further cancellation of a bid at this tick works. -/
example : ((Demo.deleteAt (Demo.trace Demo.twoCancels).1.store.trees 2).map fun st =>
      ((st.nodes 0 1).map fun n => (n.left, n.right), match insertCancel 0 .bid (200 * 10 ^ 18) (100 * 10 ^ 18) 10 st with | .ok _ _ => none | .err e _ => some e)) =
    some (some (none, some 3), some .invalidSumtree) := by decide +kernel

end OB
