import Verif.SpecTree
import Verif.Proofs.SyncObs
import Verif.Proofs.TreeFuel
/- The abstract trees of the proofs against the specification's valid trees. -/
namespace OB
open Spec

theorem totalOf_eq (L : List (Nat × Nat)) : totalOf L = sumv L := rfl

theorem T.range (t : T) : RangeOf t.leaves t.lo t.hi :=
  ⟨T.exists_lo t, T.exists_hi t, fun _ hx => ⟨T.lo_le_leaf hx, T.leaf_le_hi hx⟩⟩

theorem RangeOf.unique {L : List (Nat × Nat)} {a b c d : Nat} (h : RangeOf L a b) (g : RangeOf L c d) : a = c ∧ b = d := by
  obtain ⟨⟨x, hx, ex⟩, ⟨y, hy, ey⟩, h3⟩ := h
  obtain ⟨⟨z, hz, ez⟩, ⟨u, hu, eu⟩, g3⟩ := g
  have := g3 x hx; have := g3 y hy; have := h3 z hz; have := h3 u hu
  omega

theorem T.subtree {st : TreeSt} {tick : Int} {dir : Dir} {t : T} {par : Option Nat} (hr : t.Rep (st.nodes tick) tick dir par)
    (ho : t.Ord) (ha : t.AVL) : Subtree st tick dir par t.key t.wt t.leaves t.keys := by
  induction t generalizing par with
  | leaf k e v => exact .leaf hr ho
  | node k l r ihl ihr =>
    obtain ⟨h1, h2, h3⟩ := hr
    refine .node (mn := (T.node k l r).lo) (mx := (T.node k l r).hi) ?_ (T.range (.node k l r)) (ihl h2 ho.1 ha.1) (ihr h3 ho.2.1 ha.2.1) ?_ ha.2.2.1 ha.2.2.2
    · rw [T.key_node, h1]
      have : totalOf (l.leaves ++ r.leaves) = (T.node k l r).val := by rw [totalOf_eq, val_eq_sumv]; rfl
      rw [this]; rfl
    · intro x hx y hy
      exact (T.leaf_le_hi hx).trans (ho.2.2.trans (T.lo_le_leaf hy))

theorem Subtree.toT {st : TreeSt} {tick : Int} {dir : Dir} {par : Option Nat} {k h : Nat} {L : List (Nat × Nat)} {ks : List Nat}
    (hs : Subtree st tick dir par k h L ks) :
    ∃ t : T, t.key = k ∧ t.wt = h ∧ t.leaves = L ∧ t.keys = ks ∧ t.Rep (st.nodes tick) tick dir par ∧ t.Ord ∧ t.AVL := by
  induction hs with
  | @leaf par k e v h1 h2 => exact ⟨.leaf k e v, rfl, rfl, rfl, rfl, h1, h2, trivial⟩
  | @node par k l r hl hr mn mx Ll Lr kl kr h1 h2 h3 h4 h5 h6 h7 ihl ihr =>
    obtain ⟨tl, rfl, rfl, rfl, rfl, a5, a6, a7⟩ := ihl
    obtain ⟨tr, rfl, rfl, rfl, rfl, c5, c6, c7⟩ := ihr
    have ho : tl.hi ≤ tr.lo := by
      obtain ⟨x, hx, ex⟩ := T.exists_hi tl
      obtain ⟨y, hy, ey⟩ := T.exists_lo tr
      rw [← ex, ← ey]; exact h5 x hx y hy
    obtain ⟨rfl, rfl⟩ := RangeOf.unique h2 (T.range (.node k tl tr))
    refine ⟨.node k tl tr, rfl, rfl, rfl, rfl, ⟨?_, a5, c5⟩, ⟨a6, c6, ho⟩, ⟨a7, c7, h6, h7⟩⟩
    rw [h1]
    have : totalOf (tl.leaves ++ tr.leaves) = (T.node k tl tr).val := by rw [totalOf_eq, val_eq_sumv]; rfl
    rw [this]; rfl

theorem T.wt_two {t : T} (h : t.isNode = true) : 2 ≤ t.wt := by
  cases t with
  | leaf => simp at h
  | node k l r => have := l.wt_pos; simp only [T.wt]; omega

theorem RootRep.validOn {st : TreeSt} {tick : Int} {dir : Dir} {rt : RT} (h : RootRep st tick dir rt) :
    ValidOn st tick dir rt.height rt.leaves rt.ids := by
  cases rt with
  | empty => exact ⟨.empty fun k hk => ⟨(h k hk).2, (h k hk).1⟩, by simp [RT.ids], by simp [RT.ids]⟩
  | one k lk e v =>
    obtain ⟨h1, h2, h3, h4, h5, h6, h7⟩ := h
    refine ⟨.single h1 h2 h3 h7, by simp [RT.ids, h4], ?_⟩
    intro q hq
    simp only [RT.ids, List.mem_cons, List.not_mem_nil, or_false] at hq
    rcases hq with rfl | rfl
    · exact h5
    · exact h6
  | full t =>
    obtain ⟨h1, h2, h3, h4, h5, h6, h7⟩ := h
    exact ⟨.tree h1 (T.wt_two h3) (T.subtree h2 h7 h6), h4, h5⟩

theorem RootRep.valid {st : TreeSt} {tick : Int} {dir : Dir} {rt : RT} (h : RootRep st tick dir rt) :
    ValidTree st tick dir rt.height rt.leaves := ⟨_, h.validOn⟩

theorem ValidOn.rootRep {st : TreeSt} {tick : Int} {dir : Dir} {h : Nat} {L : List (Nat × Nat)} {ks : List Nat}
    (hv : ValidOn st tick dir h L ks) : ∃ rt, RootRep st tick dir rt ∧ rt.height = h ∧ rt.leaves = L ∧ rt.ids = ks := by
  obtain ⟨ht, hnd, hle⟩ := hv
  cases ht with
  | empty h1 => exact ⟨.empty, fun k hk => ⟨(h1 k hk).2, (h1 k hk).1⟩, rfl, rfl, rfl⟩
  | @single k l e v h1 h2 h3 h4 =>
    refine ⟨.one k l e v, ⟨h1, h2, h3, by simpa using hnd, hle k (by simp), hle l (by simp), h4⟩, rfl, rfl, rfl⟩
  | @tree k h _ _ h1 h2 h3 =>
    obtain ⟨t, rfl, rfl, rfl, rfl, a5, a6, a7⟩ := Subtree.toT h3
    refine ⟨.full t, ⟨h1, a5, ?_, hnd, hle, a7, a6⟩, rfl, rfl, rfl⟩
    cases t with
    | leaf => simp [T.wt] at h2
    | node => rfl

theorem ValidTree.rootRep {st : TreeSt} {tick : Int} {dir : Dir} {h : Nat} {L : List (Nat × Nat)} (hv : ValidTree st tick dir h L) :
    ∃ rt, RootRep st tick dir rt ∧ rt.height = h ∧ rt.leaves = L := by
  obtain ⟨ks, hv⟩ := hv
  obtain ⟨rt, h1, h2, h3, -⟩ := ValidOn.rootRep hv
  exact ⟨rt, h1, h2, h3⟩

/-- If every representation carries over, so does every valid tree. -/
theorem validOn_of_keep {st st' : TreeSt} {t : Int} {d : Dir} (hk : ∀ rt, RootRep st t d rt → RootRep st' t d rt) {h : Nat}
    {L : List (Nat × Nat)} {ks : List Nat} (hv : ValidOn st t d h L ks) : ValidOn st' t d h L ks := by
  obtain ⟨rt, h1, rfl, rfl, rfl⟩ := ValidOn.rootRep hv
  exact (hk rt h1).validOn

theorem cancelledLeaves_eq {P : Nat} {q : List Entry} (hok : ∀ x ∈ q, EntryOk x) : cancelledLeaves P q = scale (leavesOf P q) := by
  induction q generalizing P with
  | nil => rfl
  | cons x q ih =>
    have ih := ih (P := P + x.placed) fun y hy => hok y (by simp [hy])
    unfold cancelledLeaves leavesOf
    rw [ih]
    cases hc : x.cancelled with
    | false => simp
    | true =>
      have := ((hok x (by simp)).canc hc).1
      rw [this, ← D_lit]; rfl

/-- The stored tree of a side holds exactly the cancelled orders. -/
theorem SideOk.valid {s : Store} {tick : Int} {dir : Dir} {q : List Entry} (h : SideOk s tick dir q) :
    ∃ n, ValidTree s.trees tick dir n (cancelledLeaves 0 q) := by
  obtain ⟨r, rt, h1, h2, h3⟩ := h
  rw [cancelledLeaves_eq h1.ok, ← h3]
  exact ⟨_, h2.valid⟩

/-! ### The walk as sequential realization -/

theorem walkSpec_zero {x : Nat} {L : List (Nat × Nat)} (h : ∀ y ∈ L, 0 < y.2) : walkSpec x 0 L = realize x L := by
  induction L generalizing x with
  | nil => rfl
  | cons y L ih =>
    obtain ⟨e, v⟩ := y
    have hv : 0 < v := h (e, v) (by simp)
    have ih := fun x => ih (x := x) fun y hy => h y (by simp [hy])
    unfold walkSpec realize
    rw [if_neg (by omega), ih]

theorem walkSpec_done {x : Nat} {d L : List (Nat × Nat)} (h : ∀ y ∈ d ++ L, 0 < y.2) :
    walkSpec x (sumv d) (d ++ L) = sumv d + realize x L := by
  induction d with
  | nil => simpa using walkSpec_zero h
  | cons y d ih =>
    obtain ⟨e, v⟩ := y
    have ih := ih fun z hz => h z (by simp only [List.cons_append, List.mem_cons]; exact Or.inr hz)
    simp only [List.cons_append, walkSpec, sumv_cons]
    rw [if_pos (by omega), Nat.add_sub_cancel_left, ih]; omega

theorem doneOk_done {x : Nat} {d L : List (Nat × Nat)} (h : ∀ y ∈ d ++ L, 0 < y.2) (hd : ∀ y ∈ d, y.1 + y.2 ≤ x) :
    DoneOk x (sumv d) (d ++ L) := by
  induction d with
  | nil => simpa using doneOk_zero h
  | cons y d ih =>
    obtain ⟨e, v⟩ := y
    have ih := ih (fun z hz => h z (by simp only [List.cons_append, List.mem_cons]; exact Or.inr hz)) fun z hz => hd z (by simp [hz])
    simp only [List.cons_append, DoneOk, sumv_cons]
    rw [if_pos (by omega), Nat.add_sub_cancel_left]
    exact ⟨hd (e, v) (by simp), ih⟩

/-! ### Insertion -/

theorem insL_perm (e v : Nat) (L : List (Nat × Nat)) : (T.insL e v L).Perm ((e, v) :: L) := by
  induction L with
  | nil => exact List.Perm.refl _
  | cons x L ih =>
    unfold T.insL
    split
    · exact List.Perm.refl _
    · exact (ih.cons x).trans (List.Perm.swap _ _ _)

theorem insertCancel_spec {st : TreeSt} {tick : Int} {dir : Dir} {h : Nat} {L : List (Nat × Nat)} (hv : ValidTree st tick dir h L)
    (hu : Unspoiled st tick) (hc : (st.counter tick).getD 0 + 2 < U64) {e v : Nat} (hpos : 0 < v) (hd : Apart e v L)
    (hle : ∀ y ∈ L, y.1 + y.2 < U256) (hh : e + v < U256) (hs : totalOf L + v < U256) :
    ∃ st' h' L', L'.Perm ((e, v) :: L) ∧ ValidTree st' tick dir h' L' ∧ Unspoiled st' tick ∧ SideFrame st st' tick dir ∧
      (st'.counter tick).getD 0 ≤ (st.counter tick).getD 0 + 2 ∧
      ∀ fuel, 1 ≤ fuel → h ≤ fuel + 1 → insertCancel tick dir e v fuel st = .ok () st' := by
  obtain ⟨rt, h1, rfl, rfl⟩ := ValidTree.rootRep hv
  have hneed : rt.need ≤ 2 := by cases rt <;> simp [RT.need]
  have h64 : st.cnt tick + rt.need < U64 := by unfold TreeSt.cnt; omega
  obtain ⟨root, st1, nk, st2, n, st3, rt', g1, g2, g3, g4, g5, g6, g7, g8, g9, -, -⟩ :=
    cancelTree_spec h1 hu h64 hpos hd hle (by omega) hs
  refine ⟨st3, rt'.height, rt'.leaves, ?_, g5.valid, g8, g7, g9, ?_⟩
  · rw [g6]; exact insL_perm _ _ _
  · intro fuel k1 k2
    unfold insertCancel
    rw [EM.bind_ok_of g1, EM.bind_ok_of g2, EM.bind_ok_of (cancelTree_fuel h1 h64 hpos hd hle (by omega) hs g1 g2 g3 k1 k2)]
    exact g4

/-! ### Height -/

theorem ValidTree.height_le {st : TreeSt} {tick : Int} {dir : Dir} {h : Nat} {L : List (Nat × Nat)} (hv : ValidTree st tick dir h L) :
    h ≤ 2 * Nat.log2 L.length + 2 := by
  obtain ⟨rt, h1, rfl, rfl⟩ := ValidTree.rootRep hv
  cases rt with
  | empty => simp [RT.height]
  | one => simp [RT.height]
  | full t =>
    obtain ⟨-, -, -, -, -, h6, -⟩ := h1
    have h7 := T.height_leaves h6
    simp only [RT.height, RT.leaves]
    have h8 : t.leaves.length ≠ 0 := by
      have : 0 < 2 ^ (t.wt / 2) := Nat.pow_pos (by omega)
      omega
    have := (Nat.le_log2 h8).2 h7
    omega

/-! ### Uniqueness, ids -/

theorem Subtree.unique {st : TreeSt} {tick : Int} {dir : Dir} {par par' : Option Nat} {k h h' : Nat} {L L' : List (Nat × Nat)}
    {ks ks' : List Nat} (hs : Subtree st tick dir par k h L ks) (hs' : Subtree st tick dir par' k h' L' ks') :
    h = h' ∧ L = L' ∧ ks = ks' := by
  induction hs generalizing par' h' L' ks' with
  | leaf h1 h2 =>
    cases hs' with
    | leaf g1 g2 => rw [h1] at g1; simp at g1; simp [g1.2.1, g1.2.2]
    | node g1 => rw [h1] at g1; simp at g1
  | node h1 h2 h3 h4 h5 h6 h7 ihl ihr =>
    cases hs' with
    | leaf g1 g2 => rw [h1] at g1; simp at g1
    | node g1 g2 g3 g4 =>
      rw [h1] at g1
      have := Option.some.inj g1
      simp only [TreeNode.mk.injEq, Option.some.injEq, true_and] at this
      obtain ⟨rfl, rfl, -⟩ := this
      obtain ⟨rfl, rfl, rfl⟩ := ihl g3
      obtain ⟨rfl, rfl, rfl⟩ := ihr g4
      exact ⟨rfl, rfl, rfl⟩

theorem Subtree.root_some {st : TreeSt} {tick : Int} {dir : Dir} {par : Option Nat} {k h : Nat} {L : List (Nat × Nat)} {ks : List Nat}
    (hs : Subtree st tick dir par k h L ks) (h2 : 2 ≤ h) : ∃ n l r, st.nodes tick k = some n ∧ n.left = some l ∧ n.right = some r := by
  cases hs with
  | leaf => omega
  | node h1 => exact ⟨_, _, _, h1, rfl, rfl⟩

theorem ValidOn.unique {st : TreeSt} {tick : Int} {dir : Dir} {h h' : Nat} {L L' : List (Nat × Nat)} {ks ks' : List Nat}
    (hv : ValidOn st tick dir h L ks) (hv' : ValidOn st tick dir h' L' ks') : h = h' ∧ L = L' ∧ ks = ks' := by
  obtain ⟨ht, -, -⟩ := hv
  obtain ⟨ht', -, -⟩ := hv'
  cases ht with
  | empty h1 =>
    cases ht' with
    | empty => exact ⟨rfl, rfl, rfl⟩
    | single g1 g2 => have := (h1 _ g1).1; rw [this] at g2; simp at g2
    | tree g1 g2 g3 => obtain ⟨n, l, r, g4, -⟩ := Subtree.root_some g3 g2; have := (h1 _ g1).1; rw [this] at g4; simp at g4
  | single h1 h2 h3 =>
    cases ht' with
    | empty g1 => have := (g1 _ h1).1; rw [this] at h2; simp at h2
    | single g1 g2 =>
      rw [h1] at g1
      obtain rfl := Option.some.inj g1
      rw [h2] at g2
      have := Option.some.inj g2
      simp only [TreeNode.mk.injEq, Option.some.injEq, NodeType.internal.injEq, true_and] at this
      obtain ⟨rfl, rfl, rfl, -⟩ := this
      exact ⟨rfl, rfl, rfl⟩
    | tree g1 g2 g3 =>
      obtain ⟨n, l, r, g4, -, g5⟩ := Subtree.root_some g3 g2
      rw [h1] at g1
      obtain rfl := Option.some.inj g1
      rw [h2] at g4
      obtain rfl := Option.some.inj g4
      simp at g5
  | tree h1 h2 h3 =>
    cases ht' with
    | empty g1 => obtain ⟨n, l, r, g4, -⟩ := Subtree.root_some h3 h2; have := (g1 _ h1).1; rw [this] at g4; simp at g4
    | single g1 g2 =>
      obtain ⟨n, l, r, g4, -, g5⟩ := Subtree.root_some h3 h2
      rw [h1] at g1
      obtain rfl := Option.some.inj g1
      rw [g2] at g4
      obtain rfl := Option.some.inj g4
      simp at g5
    | tree g1 g2 g3 =>
      rw [h1] at g1
      obtain rfl := Option.some.inj g1
      exact Subtree.unique h3 g3

theorem Subtree.dir {st : TreeSt} {tick : Int} {dir : Dir} {par : Option Nat} {k h : Nat} {L : List (Nat × Nat)} {ks : List Nat}
    (hs : Subtree st tick dir par k h L ks) : ∀ q ∈ ks, ∃ n, st.nodes tick q = some n ∧ n.dir = dir := by
  induction hs with
  | leaf h1 h2 => intro q hq; simp at hq; subst hq; exact ⟨_, h1, rfl⟩
  | node h1 h2 h3 h4 h5 h6 h7 ihl ihr =>
    intro q hq
    simp only [List.mem_cons, List.mem_append] at hq
    rcases hq with rfl | hq | hq
    · exact ⟨_, h1, rfl⟩
    · exact ihl q hq
    · exact ihr q hq

theorem ValidOn.dir {st : TreeSt} {tick : Int} {dir : Dir} {h : Nat} {L : List (Nat × Nat)} {ks : List Nat}
    (hv : ValidOn st tick dir h L ks) : ∀ q ∈ ks, ∃ n, st.nodes tick q = some n ∧ n.dir = dir := by
  obtain ⟨ht, -, -⟩ := hv
  cases ht with
  | empty => simp
  | single h1 h2 h3 =>
    intro q hq
    simp at hq
    rcases hq with rfl | rfl
    · exact ⟨_, h2, rfl⟩
    · exact ⟨_, h3, rfl⟩
  | tree h1 h2 h3 => exact Subtree.dir h3

theorem cancelledLeaves_length (P : Nat) (q : List Entry) : (cancelledLeaves P q).length = (q.filter Entry.cancelled).length := by
  induction q generalizing P with
  | nil => rfl
  | cons x q ih =>
    unfold cancelledLeaves
    rw [List.length_append, ih]
    cases hc : x.cancelled <;> simp [hc]; omega

end OB
