import Verif.Proofs.Tree.Walk
/- Trees at the level of a tick side: root pointer, initialization, prefix sums, insertion of a cancelled order. -/
namespace OB
open T TreeNode

/-- Shape of a tick side's sumtree: none yet, one leaf under the root, or a full tree. -/
inductive RT where
  | empty
  | one (k lk e v : Nat)
  | full (t : T)

def RT.leaves : RT → List (Nat × Nat)
  | .empty => []
  | .one _ _ e v => [(e, v)]
  | .full t => t.leaves

/-- Ids of a represented tree. -/
def RT.ids : RT → List Nat
  | .empty => []
  | .one k lk _ _ => [k, lk]
  | .full t => t.keys

/-- Node ids consumed by an insertion. -/
def RT.need : RT → Nat
  | .one .. => 1
  | _ => 2

/-- Number of node ids generated for a tick. -/
def TreeSt.cnt (st : TreeSt) (tick : Int) : Nat := (st.counter tick).getD 0

/-- Ids beyond the counter are unused. -/
def TreeSt.Fresh (st : TreeSt) (tick : Int) : Prop := ∀ q, st.cnt tick < q → st.nodes tick q = none

def oneRoot (tick : Int) (dir : Dir) (k lk e v : Nat) : TreeNode :=
  ⟨k, tick, dir, some lk, none, none, .internal v e (v + e) 2⟩

/-- The sumtree of side `dir` of `tick` in storage is `rt`. -/
def RootRep (st : TreeSt) (tick : Int) (dir : Dir) : RT → Prop
  | .empty => ∀ k, st.roots tick dir = some k → k ≤ st.cnt tick ∧ st.nodes tick k = none
  | .one k lk e v =>
    st.roots tick dir = some k ∧ st.nodes tick k = some (oneRoot tick dir k lk e v) ∧
    st.nodes tick lk = some ((leaf lk e v).toNode tick dir (some k)) ∧ k ≠ lk ∧ k ≤ st.cnt tick ∧ lk ≤ st.cnt tick ∧ 0 < v
  | .full t =>
    st.roots tick dir = some t.key ∧ Rep (st.nodes tick) tick dir none t ∧ t.isNode = true ∧ t.keys.Nodup ∧
    (∀ k ∈ t.keys, k ≤ st.cnt tick) ∧ t.AVL ∧ t.Ord

theorem RootRep.sorted {st : TreeSt} {tick : Int} {dir : Dir} {rt : RT} (h : RootRep st tick dir rt) :
    SortedL rt.leaves := by
  cases rt with
  | empty => simp [RT.leaves, SortedL]
  | one k lk e v => simp [RT.leaves, SortedL]; exact h.2.2.2.2.2.2
  | full t => exact (Ord_iff_sorted t).1 h.2.2.2.2.2.2

/-- Effect of an operation on the sumtree of one tick side. -/
structure SideFrame (st st' : TreeSt) (tick : Int) (dir : Dir) : Prop where
  nodes : ∀ t, t ≠ tick → ∀ q, st'.nodes t q = st.nodes t q
  counter : ∀ t, t ≠ tick → st'.counter t = st.counter t
  roots : ∀ t d, (t ≠ tick ∨ d ≠ dir) → st'.roots t d = st.roots t d
  cnt : st.cnt tick ≤ st'.cnt tick
  other : ∀ q, q ≤ st.cnt tick → (∀ n, st.nodes tick q = some n → n.dir ≠ dir) → st'.nodes tick q = st.nodes tick q

theorem SideFrame.refl (st : TreeSt) (tick : Int) (dir : Dir) : SideFrame st st tick dir :=
  ⟨fun _ _ _ => rfl, fun _ _ => rfl, fun _ _ _ => rfl, le_refl _, fun _ _ _ => rfl⟩

theorem SideFrame.trans {st st1 st2 : TreeSt} {tick : Int} {dir : Dir} (f : SideFrame st st1 tick dir)
    (g : SideFrame st1 st2 tick dir) : SideFrame st st2 tick dir where
  nodes t ht q := by rw [g.nodes t ht, f.nodes t ht]
  counter t ht := by rw [g.counter t ht, f.counter t ht]
  roots t d h := by rw [g.roots t d h, f.roots t d h]
  cnt := f.cnt.trans g.cnt
  other q hq h := by
    have h1 := f.other q hq h
    rw [← h1]
    exact g.other q (hq.trans f.cnt) (by rw [h1]; exact h)

/-- A representation on another side or tick is not affected. -/
theorem RootRep.frame {st st' : TreeSt} {tick t : Int} {dir d : Dir} {rt : RT} (h : RootRep st t d rt)
    (f : SideFrame st st' tick dir) (hne : t ≠ tick ∨ d ≠ dir) : RootRep st' t d rt := by
  have hroots := f.roots t d hne
  have hcnt : st.cnt t ≤ st'.cnt t := by
    by_cases ht : t = tick
    · subst ht; exact f.cnt
    · unfold TreeSt.cnt; rw [f.counter t ht]
  have hnodes : ∀ q, q ≤ st.cnt t → (∀ n, st.nodes t q = some n → n.dir = d) → st'.nodes t q = st.nodes t q := by
    intro q hq hn
    by_cases ht : t = tick
    · subst ht
      refine f.other q hq (fun n h => ?_)
      rw [hn n h]
      rcases hne with h | h
      · exact absurd rfl h
      · exact h
    · exact f.nodes t ht q
  cases rt with
  | empty =>
    intro k hk
    rw [hroots] at hk
    obtain ⟨h1, h2⟩ := h k hk
    exact ⟨h1.trans hcnt, by rw [hnodes k h1 (by simp [h2]), h2]⟩
  | one k lk e v =>
    obtain ⟨h1, h2, h3, h4, h5, h6, h7⟩ := h
    refine ⟨by rw [hroots, h1], ?_, ?_, h4, h5.trans hcnt, h6.trans hcnt, h7⟩
    · rw [hnodes k h5 (by rw [h2]; rintro n ⟨⟩; rfl), h2]
    · rw [hnodes lk h6 (by rw [h3]; rintro n ⟨⟩; rfl), h3]
  | full tr =>
    obtain ⟨h1, h2, h3, h4, h5, h6, h7⟩ := h
    refine ⟨by rw [hroots, h1], ?_, h3, h4, fun k hk => (h5 k hk).trans hcnt, h6, h7⟩
    refine h2.congr (fun k hk => hnodes k (h5 k hk) ?_)
    obtain ⟨n, hn, hd⟩ := h2.mem_some hk
    rw [hn]; rintro _ ⟨⟩; exact hd

/-! ### Root lookup and prefix sums -/

theorem RootRep.getRoot_empty {st : TreeSt} {tick : Int} {dir : Dir} (h : RootRep st tick dir .empty) :
    getRootNode st tick dir = .error .std := by
  unfold getRootNode
  cases hr : st.roots tick dir with
  | none => rfl
  | some k => simp [(h k hr).2]

/-- What the prefix sum of a root must satisfy. -/
def PrefixOk (st : TreeSt) (root : TreeNode) (L : List (Nat × Nat)) : Prop :=
  ∀ x R, DoneOk x R L → (∀ y ∈ L, y.1 + y.2 < U256) → x + (sumv L - R) < U256 →
    getPrefixSum st root x R = .ok (walkSpec x R L)

theorem nodup_le_length {c : Nat} {ks : List Nat} (hnd : ks.Nodup) (h : ∀ k ∈ ks, k ≤ c) : ks.length ≤ c + 1 := by
  have hsub : ks ⊆ List.range (c + 1) := by
    intro k hk
    have := h k hk
    simp; omega
  have := (List.subperm_of_subset hnd hsub).length_le
  simpa using this

theorem wt_le_cnt {st : TreeSt} {tick : Int} {t : T} (hnd : t.keys.Nodup) (h : ∀ k ∈ t.keys, k ≤ st.cnt tick) :
    t.wt ≤ treeFuel st tick := by
  have h1 := nodup_le_length hnd h
  have h2 := t.wt_le_keys
  unfold treeFuel
  unfold TreeSt.cnt at h1
  omega

theorem T.height_leaves {t : T} (h : t.AVL) : 2 ^ (t.wt / 2) ≤ t.leaves.length := by
  have key : ∀ n, ∀ t : T, t.AVL → n ≤ t.wt → 2 ^ (n / 2) ≤ t.leaves.length := by
    intro n
    induction n using Nat.strong_induction_on with
    | _ n ih =>
      intro t ha hn
      cases t with
      | leaf k e v =>
        simp only [T.wt] at hn
        have : n / 2 = 0 := by omega
        simp [this, T.leaves]
      | node k l r =>
        have hl1 := l.wt_pos
        have hr1 := r.wt_pos
        simp only [T.wt] at hn
        obtain ⟨a1, a2, a3, a4⟩ := ha
        simp only [T.leaves, List.length_append]
        by_cases h2 : n < 2
        · obtain ⟨y, hy, -⟩ := T.exists_hi l
          have hz := List.length_pos_of_mem hy
          rw [show n / 2 = 0 by omega]
          omega
        · have e1 := ih (n - 2) (by omega) l a1 (by omega)
          have e2 := ih (n - 2) (by omega) r a2 (by omega)
          have : n / 2 = (n - 2) / 2 + 1 := by omega
          rw [this, Nat.pow_succ]
          omega
  exact key _ t h (le_refl _)

theorem T.leaves_le_keys (t : T) : t.leaves.length ≤ t.keys.length := by
  induction t with
  | leaf => simp [T.leaves, T.keys]
  | node k l r ihl ihr => simp only [T.leaves, T.keys, List.length_append, List.length_cons]; omega

/-- Heights of stored trees are far below the range of `i32`. -/
theorem T.wt_small {t : T} {c : Nat} (ha : t.AVL) (hnd : t.keys.Nodup) (h : ∀ k ∈ t.keys, k ≤ c) (hc : c < U64) :
    t.wt + 4 < 2147483648 := by
  have h1 := nodup_le_length hnd h
  have h2 := T.height_leaves ha
  have h3 := t.leaves_le_keys
  by_contra hn
  have h4 : 2 ^ 65 ≤ 2 ^ (t.wt / 2) := Nat.pow_le_pow_right (by omega) (by omega)
  unfold U64 at hc
  omega

theorem RootRep.getRoot {st : TreeSt} {tick : Int} {dir : Dir} {rt : RT} (h : RootRep st tick dir rt)
    (hne : rt.leaves ≠ []) :
    ∃ root, getRootNode st tick dir = .ok root ∧ root.tickId = tick ∧ PrefixOk st root rt.leaves := by
  have hsorted := h.sorted
  cases rt with
  | empty => simp [RT.leaves] at hne
  | one k lk e v =>
    obtain ⟨h1, h2, h3, h4, h5, h6, h7⟩ := h
    refine ⟨oneRoot tick dir k lk e v, by simp [getRootNode, h1, h2], rfl, ?_⟩
    intro x R hd hh hov
    simp only [RT.leaves] at *
    have hhi := hh (e, v) (by simp)
    simp only at hhi
    have hl : (oneRoot tick dir k lk e v).getLeft st = some ((leaf lk e v).toNode tick dir (some k)) := h3
    have hr : (oneRoot tick dir k lk e v).getRight st = none := rfl
    have hlh : (leaf lk e v).hi < U256 := by simp only [hi]; omega
    have hmin : (oneRoot tick dir k lk e v).getMinRange = e := rfl
    have hmax : (oneRoot tick dir k lk e v).getMaxRange = .ok (v + e) := rfl
    have hint : (oneRoot tick dir k lk e v).isInternal = true := rfl
    have hval : (oneRoot tick dir k lk e v).getValue = v := rfl
    have hws : walkSpec x R [(e, v)] = if e ≤ x then v else 0 := by
      simp only [walkSpec, DoneOk] at *
      split at hd
      · rw [if_pos ‹_›, if_pos (by omega)]; rfl
      · rw [if_neg ‹_›]; rfl
    rw [hws]
    unfold getPrefixSum treeFuel
    rw [show (oneRoot tick dir k lk e v).tickId = tick from rfl]
    unfold prefixSumWalk
    by_cases hx : x < e
    · simp only [hmin, if_pos hx, if_neg (not_le.mpr hx), Except.pure_eq']
    · simp only [hmin, if_neg hx, if_pos (not_lt.mp hx), hmax, Except.ok_bind', Except.pure_eq', hl, hr, hint, hval]
      by_cases hx2 : x ≥ v + e
      · rw [if_pos hx2]
      · rw [if_neg hx2]
        simp only [Bool.not_true, Bool.false_eq_true, if_false, toNode_getMinRange, T.lo, if_neg hx,
          toNode_getMaxRange hlh, T.hi, Except.ok_bind', if_pos (not_le.mp hx2), Option.map_none, Option.getD_none,
          checkedSub_ok (Nat.zero_le v), Nat.sub_zero]
        unfold prefixSumWalk
        simp only [toNode_getMinRange, T.lo, if_neg hx, toNode_getMaxRange hlh, T.hi, Except.ok_bind', if_neg hx2,
          toNode_isInternal, isNode_leaf, Bool.not_false, if_true, Except.pure_eq']
  | full t =>
    obtain ⟨h1, h2, h3, h4, h5, h6, h7⟩ := h
    have hroot := h2.root
    refine ⟨t.toNode tick dir none, by simp [getRootNode, h1, hroot], rfl, ?_⟩
    intro x R hd hh hov
    simp only [RT.leaves] at *
    have hhi : t.hi < U256 := by
      obtain ⟨y, hy, ey⟩ := exists_hi t
      rw [← ey]; exact hh y hy
    unfold getPrefixSum
    have hf := wt_le_cnt h4 h5
    rw [toNode_tickId, toNode_getValue]
    by_cases hx : t.lo ≤ x
    · have := prefixSumWalk_spec t (B := 0) (x := x) (R := R) h2 h7 hhi hf hx (by simpa using hd)
        (by rw [val_eq_sumv]; simpa using hov)
      simpa using this
    · rw [walkSpec_of_lt hsorted (fun y hy => by have := lo_le_leaf hy; omega) hd]
      cases hfu : treeFuel st tick with
      | zero => simp [treeFuel] at hfu
      | succ n =>
        unfold prefixSumWalk
        simp only [toNode_getMinRange, if_pos (not_le.mp hx), Except.pure_eq']

theorem prefixOk_fresh (st : TreeSt) (tick : Int) (dir : Dir) (k : Nat) :
    PrefixOk st (mk' tick dir k .default) [] := by
  intro x R _ _ _
  unfold getPrefixSum treeFuel
  rw [show (mk' tick dir k .default).tickId = tick from rfl]
  unfold prefixSumWalk
  have hmin : (mk' tick dir k .default).getMinRange = decMax := rfl
  have hmax : (mk' tick dir k .default).getMaxRange = .ok 0 := rfl
  have hval : (mk' tick dir k .default).getValue = 0 := rfl
  by_cases h : x < decMax
  · simp only [hmin, if_pos h, Except.pure_eq', walkSpec]
  · simp only [hmin, if_neg h, hmax, hval, Except.ok_bind', if_pos (Nat.zero_le x), Except.pure_eq', walkSpec, ge_iff_le]

theorem setRoot_setCounter_frame {st : TreeSt} {tick : Int} {dir : Dir} {c k : Nat} (hc : st.cnt tick ≤ c) :
    SideFrame st ((st.setCounter tick c).setRoot tick dir k) tick dir where
  nodes _ _ _ := rfl
  counter t ht := by simp [TreeSt.setCounter, ht]
  roots t d h := by
    rw [TreeSt.setRoot_roots, if_neg]
    · rfl
    · rintro ⟨rfl, rfl⟩; simp at h
  cnt := by simp [TreeSt.cnt]; exact hc
  other _ _ _ := rfl

theorem getOrInit_fresh {st : TreeSt} {tick : Int} {dir : Dir} (h : RootRep st tick dir .empty)
    (h64 : st.cnt tick + 1 < U64) :
    getOrInitRootNode tick dir st = .ok (mk' tick dir (st.cnt tick + 1) .default)
      ((st.setCounter tick (st.cnt tick + 1)).setRoot tick dir (st.cnt tick + 1)) := by
  unfold getOrInitRootNode
  simp only [EM.get_bind, h.getRoot_empty]
  rw [EM.bind_ok_of (generateNodeId_spec rfl h64)]
  rfl

theorem getOrInit_exhausted {st : TreeSt} {tick : Int} {dir : Dir} (h : RootRep st tick dir .empty)
    (h64 : ¬ st.cnt tick + 1 < U64) : getOrInitRootNode tick dir st = .err .panic st := by
  unfold getOrInitRootNode
  simp only [EM.get_bind, h.getRoot_empty]
  refine EM.bind_err_of ?_
  unfold generateNodeId
  simp only [EM.get_bind]
  refine EM.bind_err_of ?_
  have : u64Succ ((st.counter tick).getD 0) = .error .panic := by
    unfold u64Succ; rw [if_neg]; exact h64
  rw [this]; rfl

/-- `get_or_init_root_node`: succeeds unless the ids are exhausted. -/
theorem getOrInit_spec {st : TreeSt} {tick : Int} {dir : Dir} {rt : RT} (h : RootRep st tick dir rt)
    (hf : st.Fresh tick) (h64 : rt = .empty → st.cnt tick + 1 < U64) :
    ∃ root st1, getOrInitRootNode tick dir st = .ok root st1 ∧ RootRep st1 tick dir rt ∧ SideFrame st st1 tick dir ∧
      PrefixOk st1 root rt.leaves ∧ st1.cnt tick ≤ st.cnt tick + 1 ∧ st1.Fresh tick := by
  by_cases hne : rt.leaves = []
  · cases rt with
    | empty =>
      refine ⟨_, _, getOrInit_fresh h (h64 rfl), ?_, setRoot_setCounter_frame (Nat.le_succ _), prefixOk_fresh _ _ _ _, ?_, ?_⟩
      · intro k hk
        rw [TreeSt.setRoot_roots, if_pos ⟨rfl, rfl⟩] at hk
        cases hk
        simp only [TreeSt.cnt, TreeSt.setRoot_counter, TreeSt.setCounter_self, Option.getD_some, le_refl,
          TreeSt.setRoot_nodes, TreeSt.setCounter_nodes, true_and]
        exact hf _ (Nat.lt_succ_self _)
      · simp [TreeSt.cnt]
      · intro q hq
        simp only [TreeSt.cnt, TreeSt.setRoot_counter, TreeSt.setCounter_self, Option.getD_some] at hq
        exact hf q (by simp only [TreeSt.cnt]; omega)
    | one => simp [RT.leaves] at hne
    | full t =>
      obtain ⟨y, hy, _⟩ := exists_lo t
      simp only [RT.leaves] at hne
      rw [hne] at hy; simp at hy
  · obtain ⟨root, e, ht, hp⟩ := h.getRoot hne
    refine ⟨root, st, ?_, h, SideFrame.refl .., hp, Nat.le_succ _, hf⟩
    unfold getOrInitRootNode
    simp only [EM.get_bind, e]
    rfl

/-- `generate_node_id`, and the frame of setting the counter. -/
theorem setCounter_frame {st : TreeSt} {tick : Int} {dir : Dir} {c : Nat} (hc : st.cnt tick ≤ c) :
    SideFrame st (st.setCounter tick c) tick dir where
  nodes _ _ _ := rfl
  counter t ht := by simp [TreeSt.setCounter, ht]
  roots _ _ _ := rfl
  cnt := by simp [TreeSt.cnt]; exact hc
  other _ _ _ := rfl

/-! ### Insertion at the root -/

theorem rebalance_one {st : TreeSt} {tick : Int} {dir : Dir} {k nk e v a b c d : Nat} {l r p : Option Nat} {nt : NodeType}
    (hk : st.nodes tick k = some ⟨k, tick, dir, some nk, none, none, .internal a b c d⟩)
    (hn : st.nodes tick nk = some ((leaf nk e v).toNode tick dir (some k))) (hh : v + e < U256) :
    rebalance ⟨k, tick, dir, l, r, p, nt⟩ st = .ok (oneRoot tick dir k nk e v) (st.setNode tick k (oneRoot tick dir k nk e v)) := by
  have hlh : (leaf nk e v).hi < U256 := hh
  have hgl : getLeft ⟨k, tick, dir, some nk, none, none, .internal a b c d⟩ st = some ((leaf nk e v).toNode tick dir (some k)) := hn
  have hgr : getRight ⟨k, tick, dir, some nk, none, none, .internal a b c d⟩ st = none := rfl
  unfold rebalance
  rw [EM.bind_ok_of (sync_spec (n := ⟨k, tick, dir, l, r, p, nt⟩) hk)]
  have h1 : isInternal ⟨k, tick, dir, some nk, none, none, .internal a b c d⟩ = true := rfl
  have h2 : hasChild ⟨k, tick, dir, some nk, none, none, .internal a b c d⟩ = true := rfl
  have hb : balanceFactor ⟨k, tick, dir, some nk, none, none, .internal a b c d⟩ st = .ok (-1) := by
    simp only [balanceFactor, hgl, hgr, Option.map_none, Option.map_some, Option.getD_none, Option.getD_some, toNode_getWeight, wt,
      asI32_small (show 0 < 2147483648 by omega), asI32_small (show 1 < 2147483648 by omega)]
    exact i32Checked_small (by omega) (by omega)
  have hab : i32Checked (((-1 : Int).natAbs : Nat) : Int) = .ok 1 := i32Checked_small (by omega) (by omega)
  simp only [h1, h2, EM.ensure_true_bind, EM.get_bind, hb, EM.lift_ok_bind, hab, le_refl, if_true]
  unfold syncRangeAndValue
  simp only [h1, h2, EM.ensure_true_bind, EM.get_bind, hgl, hgr, Bool.not_true, Bool.false_eq_true, if_false,
    toNode_getMaxRange hlh, Except.ok_bind', Except.pure_eq', EM.lift_ok_bind, setMinRange, setMaxRange, setValue, setWeight,
    Option.map_none, Option.map_some, Option.getD_none, Option.getD_some, toNode_getValue, toNode_getWeight, val,
    checkedAdd_ok (show v + 0 < U256 by omega), save_bind, wt, u64Succ_ok (small_u64 (show max 1 0 + 1 < 2147483648 by omega)), toNode_getMinRange, T.lo, T.hi]
  rfl

/-- Insertion of the first leaf (node.rs case 7). -/
theorem insert_first {st : TreeSt} {tick : Int} {dir : Dir} {k nk e v fuel : Nat} (hkn : k ≠ nk) (hv : 0 < v)
    (hh : v + e < U256) :
    insert (fuel + 1) (mk' tick dir k .default) (mk' tick dir nk (.leaf v e)) st =
      .ok (oneRoot tick dir k nk e v)
        (((st.setNode tick nk ((leaf nk e v).toNode tick dir (some k))).setNode tick k
          ⟨k, tick, dir, some nk, none, none, .default⟩).setNode tick k (oneRoot tick dir k nk e v)) := by
  unfold TreeNode.insert
  have h1 : (mk' tick dir k .default).isInternal = true := rfl
  have h2 : (mk' tick dir nk (.leaf v e)).isInternal = false := rfl
  have h3 : (mk' tick dir k .default).getLeft st = none := rfl
  have h4 : (mk' tick dir k .default).getRight st = none := rfl
  simp only [h1, h2, h3, h4, EM.ensure_true_bind, EM.get_bind, Bool.not_false, Option.isNone_none, Option.isSome_none,
    Bool.and_false, EM.lift_ok_bind, Option.map_none, Option.getD_none, Bool.false_and, Bool.false_eq_true, if_false,
    if_true, save_bind]
  have h := rebalance_one (st := (st.setNode tick nk ((leaf nk e v).toNode tick dir (some k))).setNode tick k
          ⟨k, tick, dir, some nk, none, none, .default⟩) (l := some nk) (r := none) (p := none) (nt := .default)
    (dir := dir) (TreeSt.setNode_self ..) (by rw [TreeSt.setNode_ne _ _ _ _ _ (Ne.symm hkn), TreeSt.setNode_self]) hh
  exact h

theorem finish_second {st : TreeSt} {tick : Int} {dir : Dir} {k lk le lv rk re rv nk : Nat} {self n0 : TreeNode} {nt : NodeType}
    {a b c d : Nat} (hnt : nt = .internal a b c d) (hst : self.tickId = tick) (hsk : self.key = k)
    (hl : (st.setNode tick nk n0).nodes tick lk = some ((leaf lk le lv).toNode tick dir (some k)))
    (hr : (st.setNode tick nk n0).nodes tick rk = some ((leaf rk re rv).toNode tick dir (some k)))
    (hn : nk = lk ∨ nk = rk) (hne : k ≠ lk ∧ k ≠ rk ∧ lk ≠ rk)
    (hlh : lv + le < U256) (hrh : rv + re < U256) (hv : lv + rv < U256) :
    ∃ n st', rebalance self ((st.setNode tick nk n0).setNode tick k ⟨k, tick, dir, some lk, some rk, none, nt⟩) = .ok n st' ∧
      Rep (st'.nodes tick) tick dir none (node k (leaf lk le lv) (leaf rk re rv)) ∧
      (∀ t, t ≠ tick → ∀ q, st'.nodes t q = st.nodes t q) ∧
      (∀ q, q ≠ k → q ≠ lk → q ≠ rk → st'.nodes tick q = st.nodes tick q) ∧
      st'.roots = st.roots ∧ st'.counter = st.counter ∧ n.tickId = tick ∧ st'.nodes tick n.key = some n := by
  obtain ⟨n1, n2, n3⟩ := hne
  obtain ⟨n, st', h1, h2, h3, h4, h5, h6⟩ := rebalance_spec (st := (st.setNode tick nk n0).setNode tick k
      ⟨k, tick, dir, some lk, some rk, none, nt⟩) (par := none) (l := leaf lk le lv) (r := leaf rk re rv) (dir := dir)
    hnt hst hsk (TreeSt.setNode_self ..)
    (by simp only [Rep]; rw [TreeSt.setNode_ne _ _ _ _ _ (Ne.symm n1), hl])
    (by simp only [Rep]; rw [TreeSt.setNode_ne _ _ _ _ _ (Ne.symm n2), hr])
    (by simp [keys, n1, n2, n3]) (by intro pk h; cases h) hlh hrh hv (by simp only [wt]; omega)
  have hreb : rebal k (leaf lk le lv) (leaf rk re rv) = node k (leaf lk le lv) (leaf rk re rv) := by
    unfold rebal; rw [if_pos]; simp [wt]
  rw [hreb] at h2 h3
  refine ⟨n, st', h1, h2, ?_, ?_, ?_, ?_, h5, h6⟩
  · intro t ht q
    rw [h3.ticks t ht, TreeSt.setNode_tick _ _ _ _ _ _ ht, TreeSt.setNode_tick _ _ _ _ _ _ ht]
  · intro q q1 q2 q3
    rw [h3.nodes q (by simp [keys, q1, q2, q3]) (by simp), TreeSt.setNode_ne _ _ _ _ _ q1, TreeSt.setNode_ne]
    rintro rfl
    rcases hn with h | h
    · exact q2 h
    · exact q3 h
  · funext t d'
    rw [h3.roots]; simp
  · rw [h4]; rfl

/-- Insertion of the second leaf (node.rs cases 6 and 8). -/
theorem insert_second {st : TreeSt} {tick : Int} {dir : Dir} {k lk le lv nk e v fuel : Nat}
    (hk : st.nodes tick k = some (oneRoot tick dir k lk le lv))
    (hl : st.nodes tick lk = some ((leaf lk le lv).toNode tick dir (some k)))
    (hne : k ≠ lk ∧ k ≠ nk ∧ lk ≠ nk) (hlv : 0 < lv) (hd : le + lv ≤ e ∨ e + v ≤ le) (hh : v + e < U256) (hlh : lv + le < U256)
    (hv : lv + v < U256) :
    ∃ n st', insert (fuel + 1) (oneRoot tick dir k lk le lv) (mk' tick dir nk (.leaf v e)) st = .ok n st' ∧
      Rep (st'.nodes tick) tick dir none (split2 k (leaf lk le lv) nk e v) ∧
      (∀ t, t ≠ tick → ∀ q, st'.nodes t q = st.nodes t q) ∧
      (∀ q, q ≠ k → q ≠ lk → q ≠ nk → st'.nodes tick q = st.nodes tick q) ∧
      st'.roots = st.roots ∧ st'.counter = st.counter ∧ n.tickId = tick ∧ st'.nodes tick n.key = some n := by
  obtain ⟨n1, n2, n3⟩ := hne
  unfold TreeNode.insert
  have h1 : (oneRoot tick dir k lk le lv).isInternal = true := rfl
  have h2 : (mk' tick dir nk (.leaf v e)).isInternal = false := rfl
  have h3 : (oneRoot tick dir k lk le lv).getLeft st = some ((leaf lk le lv).toNode tick dir (some k)) := hl
  have h4 : (oneRoot tick dir k lk le lv).getRight st = none := rfl
  have hlh' : (leaf lk le lv).hi < U256 := hlh
  have e1 : inOrBelowRange (mk' tick dir nk (.leaf v e)) ((leaf lk le lv).toNode tick dir (some k)) = .ok (decide (e < lv + le)) := by
    simp only [inOrBelowRange, toNode_getMaxRange hlh', Except.ok_bind', Except.pure_eq']; rfl
  have e3 : belowRange (mk' tick dir nk (.leaf v e)) ((leaf lk le lv).toNode tick dir (some k)) = .ok (decide (v + e ≤ le)) := by
    have : (mk' tick dir nk (.leaf v e)).getMaxRange = .ok (v + e) := by
      simp [getMaxRange, mk', checkedAdd_ok hh]
    simp only [belowRange, this, Except.ok_bind', Except.pure_eq', toNode_getMinRange, T.lo]
  simp only [h1, h2, h3, h4, EM.ensure_true_bind, EM.get_bind, Bool.not_false, Option.isNone_none, Option.isSome_none,
    Option.isNone_some, Option.isSome_some, e1, e3, toNode_isInternal, isNode_leaf, Option.map_some, Option.getD_some,
    Bool.and_false, EM.lift_ok_bind, Option.map_none, Option.getD_none, Bool.false_and, Bool.false_eq_true, if_false,
    if_true, save_bind, Bool.and_true, Bool.true_and]
  by_cases hlt : v + e ≤ le
  · simp only [hlt, decide_true, if_true]
    have hsplit : split2 k (leaf lk le lv) nk e v = node k (leaf nk e v) (leaf lk le lv) := by
      unfold split2; rw [if_neg]; simp only [T.hi]; omega
    rw [hsplit]
    obtain ⟨n, st', h⟩ := finish_second (st := st) (k := k) (lk := nk) (le := e) (lv := v) (rk := lk) (re := le) (rv := lv)
      (nk := nk) (n0 := (leaf nk e v).toNode tick dir (some k)) (nt := .internal lv le (lv + le) 2) (dir := dir)
      (self := ⟨k, tick, dir, some nk, some lk, none, .internal lv le (lv + le) 2⟩) rfl rfl rfl
      (TreeSt.setNode_self ..) (by rw [TreeSt.setNode_ne _ _ _ _ _ n3, hl]) (Or.inl rfl) ⟨n2, n1, Ne.symm n3⟩ hh hlh (by omega)
    exact ⟨n, st', h.1, h.2.1, h.2.2.1, fun q q1 q2 q3 => h.2.2.2.1 q q1 q3 q2, h.2.2.2.2⟩
  · simp only [hlt, decide_false, Bool.false_eq_true, if_false]
    have hsplit : split2 k (leaf lk le lv) nk e v = node k (leaf lk le lv) (leaf nk e v) := by
      unfold split2; rw [if_pos]; simp only [T.hi]; omega
    rw [hsplit]
    obtain ⟨n, st', h⟩ := finish_second (st := st) (k := k) (lk := lk) (le := le) (lv := lv) (rk := nk) (re := e) (rv := v)
      (nk := nk) (n0 := (leaf nk e v).toNode tick dir (some k)) (nt := .internal lv le (lv + le) 2) (dir := dir)
      (self := ⟨k, tick, dir, some lk, some nk, none, .internal lv le (lv + le) 2⟩) rfl rfl rfl
      (by rw [TreeSt.setNode_ne _ _ _ _ _ n3, hl]) (TreeSt.setNode_self ..) (Or.inr rfl) ⟨n1, n2, n3⟩ hlh hh hv
    exact ⟨n, st', h.1, h.2.1, h.2.2.1, fun q q1 q2 q3 => h.2.2.2.1 q q1 q2 q3, h.2.2.2.2⟩

/-- The storage operations of a cancellation (`get_or_init_root_node`, `generate_node_id`, `insert`, `save`). -/
theorem cancelTree_spec {st : TreeSt} {tick : Int} {dir : Dir} {rt : RT} {e v : Nat} (h : RootRep st tick dir rt)
    (hf : st.Fresh tick) (h64 : st.cnt tick + rt.need < U64) (hv : 0 < v) (hd : Disj e v rt.leaves)
    (hle : ∀ y ∈ rt.leaves, y.1 + y.2 < U256) (hh : v + e < U256) (hs : sumv rt.leaves + v < U256) :
    ∃ root st1 nk st2 n st3 rt', getOrInitRootNode tick dir st = .ok root st1 ∧
      generateNodeId tick st1 = .ok nk st2 ∧
      insert (treeFuel st2 tick) root (mk' tick dir nk (.leaf v e)) st2 = .ok n st3 ∧
      n.save st3 = .ok () st3 ∧
      RootRep st3 tick dir rt' ∧ rt'.leaves = insL e v rt.leaves ∧ SideFrame st st3 tick dir ∧ st3.Fresh tick ∧
      st3.cnt tick ≤ st.cnt tick + 2 ∧ (∀ q ∈ rt.ids, q ∈ rt'.ids) ∧ ∀ q, q ∉ rt'.ids → st3.nodes tick q = st.nodes tick q := by
  have hsave : ∀ {n : TreeNode} {st3 : TreeSt}, n.tickId = tick → st3.nodes tick n.key = some n → n.save st3 = .ok () st3 := by
    intro n st3 h1 h2
    rw [save_apply, h1, TreeSt.setNode_eq_self h2]
  cases rt with
  | empty =>
    simp only [RT.need] at h64
    set c := st.cnt tick with hc
    set st1 := (st.setCounter tick (c + 1)).setRoot tick dir (c + 1) with hst1
    have hc1 : st1.cnt tick = c + 1 := by simp [hst1, TreeSt.cnt]
    refine ⟨_, st1, _, _, _, _, .one (c + 1) (c + 2) e v, getOrInit_fresh h (by omega),
      generateNodeId_spec hc1 (by omega), insert_first (by omega) hv hh, ?_, ?_, ?_, ?_, ?_, ?_, by simp [RT.ids], ?_⟩
    · exact hsave rfl (TreeSt.setNode_self ..)
    · refine ⟨?_, TreeSt.setNode_self .., ?_, by omega, ?_, ?_, hv⟩
      · simp [hst1, TreeSt.setRoot_roots]
      · rw [TreeSt.setNode_ne _ _ _ _ _ (by omega), TreeSt.setNode_ne _ _ _ _ _ (by omega)]
        exact TreeSt.setNode_self ..
      · simp [TreeSt.cnt]
      · simp [TreeSt.cnt]
    · simp [RT.leaves, insL]
    · refine ⟨?_, ?_, ?_, ?_, ?_⟩
      · intro t ht q
        simp only [TreeSt.setNode_tick _ _ _ _ _ _ ht]; rfl
      · intro t ht
        simp [TreeSt.setCounter, ht, hst1]
      · intro t d hne
        simp only [TreeSt.setNode_roots, TreeSt.setCounter_roots, hst1, TreeSt.setRoot_roots]
        rw [if_neg]
        rintro ⟨rfl, rfl⟩; simp at hne
      · simp [TreeSt.cnt] at hc ⊢; omega
      · intro q hq _
        rw [TreeSt.setNode_ne _ _ _ _ _ (by omega), TreeSt.setNode_ne _ _ _ _ _ (by omega),
          TreeSt.setNode_ne _ _ _ _ _ (by omega)]
        rfl
    · intro q hq
      simp [TreeSt.cnt] at hq
      rw [TreeSt.setNode_ne _ _ _ _ _ (by omega), TreeSt.setNode_ne _ _ _ _ _ (by omega),
          TreeSt.setNode_ne _ _ _ _ _ (by omega)]
      exact hf q (by omega)
    · simp [TreeSt.cnt]
    · intro q hq
      simp only [RT.ids, List.mem_cons, List.not_mem_nil, or_false, not_or] at hq
      rw [TreeSt.setNode_ne _ _ _ _ _ (by omega), TreeSt.setNode_ne _ _ _ _ _ (by omega),
          TreeSt.setNode_ne _ _ _ _ _ (by omega)]
      rfl
  | one k lk le lv =>
    have hroot := h
    simp only [RT.need] at h64
    obtain ⟨h1, h2, h3, h4, h5, h6, h7⟩ := h
    have hgo : getOrInitRootNode tick dir st = .ok (oneRoot tick dir k lk le lv) st := by
      unfold getOrInitRootNode
      simp only [EM.get_bind, getRootNode, h1, h2]; rfl
    set c := st.cnt tick with hc
    have hd' := hd (le, lv) (by simp [RT.leaves])
    have hl' := hle (le, lv) (by simp [RT.leaves])
    simp only [RT.leaves, sumv_cons, sumv_nil] at hs hd' hl'
    obtain ⟨n, st3, x1, x2, x3, x4, x5, x6, x7, x8⟩ := insert_second (st := st.setCounter tick (c + 1)) (fuel := c + 2)
      (e := e) (v := v) (nk := c + 1) h2 h3 ⟨h4, by omega, by omega⟩ h7 hd' hh (by omega) (by omega)
    have hcnt3 : st3.cnt tick = c + 1 := by simp [TreeSt.cnt, x6]
    have hkey : (split2 k (leaf lk le lv) (c + 1) e v).key = k := by unfold split2; split <;> rfl
    have hleaves : (split2 k (leaf lk le lv) (c + 1) e v).leaves = insL e v [(le, lv)] := by
      by_cases he : lv + le ≤ e
      · have : split2 k (leaf lk le lv) (c + 1) e v = node k (leaf lk le lv) (leaf (c + 1) e v) := if_pos he
        rw [this]; simp only [insL]; rw [if_neg (by omega)]; rfl
      · have : split2 k (leaf lk le lv) (c + 1) e v = node k (leaf (c + 1) e v) (leaf lk le lv) := if_neg he
        rw [this]; simp only [insL]; rw [if_pos (by omega)]; rfl
    refine ⟨_, st, c + 1, _, n, st3, .full (split2 k (leaf lk le lv) (c + 1) e v), hgo, generateNodeId_spec rfl (by omega), ?_,
      hsave x7 x8, ?_, ?_, ?_, ?_, ?_, ?_, ?_⟩
    · have : treeFuel (st.setCounter tick (c + 1)) tick = c + 2 + 1 := by simp [treeFuel]
      rw [this]; exact x1
    · refine ⟨by rw [x5, hkey]; exact h1, x2, ?_, ?_, ?_, ?_, ?_⟩
      · unfold split2; split <;> rfl
      · unfold split2; split <;> simp [keys] <;> omega
      · rw [hcnt3]; unfold split2; split <;> simp [keys] <;> omega
      · unfold split2; split <;> simp [AVL, wt]
      · rw [Ord_iff_sorted, hleaves]; exact insL_sorted hroot.sorted hv hd
    · exact hleaves
    · refine ⟨fun t ht q => by rw [x3 t ht]; rfl, fun t ht => by rw [x6]; simp [TreeSt.setCounter, ht],
        fun t d _ => by rw [x5]; rfl, by omega, ?_⟩
      intro q hq hn
      refine x4 q ?_ ?_ (by omega)
      · rintro rfl; exact hn _ h2 rfl
      · rintro rfl; exact hn _ h3 rfl
    · intro q hq
      rw [x4 q (by omega) (by omega) (by omega)]
      exact hf q (by omega)
    · omega
    · intro q hq
      simp only [RT.ids, List.mem_cons, List.not_mem_nil, or_false] at hq
      rcases hq with rfl | rfl
      · unfold split2; split <;> simp [RT.ids, keys]
      · unfold split2; split <;> simp [RT.ids, keys]
    · intro q hq
      have hq' : q ≠ k ∧ q ≠ lk ∧ q ≠ c + 1 := by
        unfold split2 at hq
        split at hq <;> simp [RT.ids, keys] at hq <;> tauto
      rw [x4 q hq'.1 hq'.2.1 hq'.2.2]
      rfl
  | full t =>
    have hroot := h
    simp only [RT.need] at h64
    obtain ⟨h1, h2, h3, h4, h5, h6, h7⟩ := h
    have hgo : getOrInitRootNode tick dir st = .ok (t.toNode tick dir none) st := by
      unfold getOrInitRootNode
      simp only [EM.get_bind, getRootNode, h1, h2.root]; rfl
    set c := st.cnt tick with hc
    have hf1 : (c + 1) ∉ t.keys := fun hm => by have := h5 _ hm; omega
    have hf2 : (c + 2) ∉ t.keys := fun hm => by have := h5 _ hm; omega
    have hhi : t.hi < U256 := by
      obtain ⟨y, hy, ey⟩ := exists_hi t
      rw [← ey]; exact hle y hy
    have hfu : t.wt ≤ treeFuel (st.setCounter tick (c + 1)) tick + 1 := by
      have := nodup_le_length h4 h5
      have := t.wt_le_keys
      simp [treeFuel]; omega
    have hpar : ParOk (st.setCounter tick (c + 1)) tick none t.key ((c + 1 + 1) :: (c + 1) :: t.keys) := by
      intro pk h; cases h
    obtain ⟨n, st3, x1, x2, x3, x4⟩ := insert_spec t (st := st.setCounter tick (c + 1)) (dir := dir) (par := none) (c := c + 1)
      (nk := c + 1) (e := e) (v := v) h3 h2 (by simp [h4, hf1, hf2]) hpar (by simp) (by omega) h7 hv hd hhi hh
      (by rw [val_eq_sumv]; exact hs) h6 (wt_small h6 h4 h5 (by omega)) hfu
    have hcnt3 : st3.cnt tick = c + 2 := by simp [TreeSt.cnt, x2.counter]
    have hperm := ins_keys (c + 1 + 1) (c + 1) e v t
    refine ⟨_, st, c + 1, _, n, st3, .full (ins (c + 1 + 1) (c + 1) e v t), hgo, generateNodeId_spec rfl (by omega), x1,
      hsave x3 x4, ?_, ?_, ?_, ?_, ?_, ?_, ?_⟩
    · refine ⟨?_, x2.rep, ins_isNode .., ?_, ?_, (ins_AVL h6).1, ins_Ord h7 hv hd⟩
      · rw [x2.frame.roots]
        simp only [true_and]
        split
        · rfl
        · rename_i hk
          rw [TreeSt.setCounter_roots, h1]
          rw [ne_eq, not_not] at hk
          rw [hk]
      · rw [hperm.nodup_iff]; simp [h4, hf1, hf2]
      · intro q hq
        have := (hperm.mem_iff).1 hq
        simp only [List.mem_cons] at this
        rcases this with rfl | rfl | hq
        · omega
        · omega
        · have := h5 q hq; omega
    · exact ins_leaves h7 hv hd
    · refine ⟨fun t ht q => by rw [x2.frame.ticks t ht]; rfl, fun t ht => by rw [x2.counter]; simp [TreeSt.setCounter, ht], ?_,
        by omega, ?_⟩
      · intro t' d' hne
        rw [x2.frame.roots, if_neg]
        · rfl
        · rintro ⟨rfl, rfl, _⟩; simp at hne
      · intro q hq hn
        rw [x2.frame.nodes q ?_ (by simp)]
        · rfl
        · simp only [List.mem_cons, not_or]
          refine ⟨by omega, by omega, fun hm => ?_⟩
          obtain ⟨m, hm1, hm2⟩ := h2.mem_some hm
          exact hn m hm1 hm2
    · intro q hq
      rw [x2.frame.nodes q ?_ (by simp)]
      · exact hf q (by omega)
      · simp only [List.mem_cons, not_or]
        refine ⟨by omega, by omega, fun hm => ?_⟩
        have := h5 q hm; omega
    · omega
    · intro q hq
      exact hperm.mem_iff.2 (by simp only [RT.ids] at hq; simp [hq])
    · intro q hq
      have hq' : q ∉ (c + 1 + 1) :: (c + 1) :: t.keys := fun hm => hq (hperm.mem_iff.2 hm)
      rw [x2.frame.nodes q hq' (by simp)]
      rfl

theorem generateNodeId_exhausted {st : TreeSt} {tick : Int} (h64 : ¬ st.cnt tick + 1 < U64) :
    generateNodeId tick st = .err .panic st := by
  unfold generateNodeId
  simp only [EM.get_bind]
  refine EM.bind_err_of ?_
  have : u64Succ ((st.counter tick).getD 0) = .error .panic := by
    unfold u64Succ; rw [if_neg]; exact h64
  rw [this]; rfl

theorem insert_exhausted : ∀ (t : T) {st : TreeSt} {tick : Int} {dir : Dir} {par : Option Nat} {nk e v fuel : Nat},
    t.isNode = true → Rep (st.nodes tick) tick dir par t → ¬ st.cnt tick + 1 < U64 →
    t.Ord → Disj e v t.leaves → t.hi < U256 → v + e < U256 → t.wt ≤ fuel + 1 →
    ∃ st', insert fuel (t.toNode tick dir par) (mk' tick dir nk (.leaf v e)) st = .err .panic st' := by
  intro t
  induction t with
  | leaf => intro _ _ _ _ _ _ _ _ h; simp at h
  | node k l r ihl ihr =>
    intro st tick dir par nk e v fuel _ hrep h64 ho hd hhi hnhi hfuel
    obtain ⟨hk, hl, hr⟩ := hrep
    have hl1 := hl.root
    have hr1 := hr.root
    obtain ⟨ho1, ho2, ho3⟩ := ho
    simp only [T.hi] at hhi
    simp only [wt] at hfuel
    have hlw := l.wt_pos
    have hrw := r.wt_pos
    cases fuel with
    | zero => omega
    | succ fuel =>
    unfold TreeNode.insert
    have hgl : getLeft ((node k l r).toNode tick dir par) st = some (l.toNode tick dir (some k)) := hl1
    have hgr : getRight ((node k l r).toNode tick dir par) st = some (r.toNode tick dir (some k)) := hr1
    have hni : (mk' tick dir nk (.leaf v e)).isInternal = false := rfl
    have e1 : inOrBelowRange (mk' tick dir nk (.leaf v e)) (l.toNode tick dir (some k)) = .ok (decide (e < l.hi)) := by
      have hlh : l.hi < U256 := by omega
      simp only [inOrBelowRange, toNode_getMaxRange hlh, Except.ok_bind', Except.pure_eq']; rfl
    have e2 : inOrAboveRange (mk' tick dir nk (.leaf v e)) (r.toNode tick dir (some k)) = decide (r.lo ≤ e) := by
      simp only [inOrAboveRange, toNode_getMinRange]; rfl
    have e3 : belowRange (mk' tick dir nk (.leaf v e)) (l.toNode tick dir (some k)) = .ok (decide (v + e ≤ l.lo)) := by
      have : (mk' tick dir nk (.leaf v e)).getMaxRange = .ok (v + e) := by
        simp [getMaxRange, mk', checkedAdd_ok hnhi]
      simp only [belowRange, this, Except.ok_bind', Except.pure_eq', toNode_getMinRange]
    simp only [toNode_isInternal, isNode_node, hni, EM.ensure_true_bind, Bool.not_false, EM.get_bind, hgl, hgr,
      Option.isNone_some, Option.isSome_some, Bool.and_true, Bool.false_and, Option.map_some, Option.getD_some, e1, e2, e3,
      EM.lift_ok_bind, Bool.true_and, Bool.and_false, save_bind, toNode_tickId, toNode_key, key_node,
      TreeSt.setNode_eq_self hk, Bool.false_eq_true, if_false, Option.isNone_none, Bool.not_true]
    have hsave : ((node k l r).toNode tick dir par).save st = .ok () st := by
      rw [save_apply]; exact congrArg _ (TreeSt.setNode_eq_self hk)
    have splitE : ∀ x : T, x.isNode = false →
        split (x.toNode tick dir (some k)) (mk' tick dir nk (.leaf v e)) st = .err .panic st := by
      intro x hx
      unfold split
      simp only [toNode_isInternal, hx, Bool.not_false, EM.ensure_true_bind, toNode_tickId]
      exact EM.bind_err_of (generateNodeId_exhausted h64)
    have recL : l.isNode = true → ∃ st1, insert fuel (l.toNode tick dir (some k)) (mk' tick dir nk (.leaf v e)) st = .err .panic st1 :=
      fun h => ihl h hl h64 ho1 hd.left (by omega) hnhi (by omega)
    have recR : r.isNode = true → ∃ st1, insert fuel (r.toNode tick dir (some k)) (mk' tick dir nk (.leaf v e)) st = .err .panic st1 :=
      fun h => ihr h hr h64 ho2 hd.right (by omega) hnhi (by omega)
    have hdl : e < l.hi ∨ l.hi ≤ e := by omega
    split
    · rename_i hc
      obtain ⟨st1, x⟩ := recL (by simp at hc; exact hc.1)
      exact ⟨st1, by rw [EM.bind_ok_of hsave, EM.bind_err_of x]⟩
    · split
      · rename_i hc
        obtain ⟨st1, x⟩ := recR (by simp at hc; exact hc.1)
        exact ⟨st1, by rw [EM.bind_ok_of hsave, EM.bind_err_of x]⟩
      · split
        · rename_i hc
          obtain ⟨st1, x⟩ := recL (by simp at hc; exact hc.2)
          exact ⟨st1, by rw [EM.bind_ok_of hsave, EM.bind_err_of x]⟩
        · split
          · rename_i hc
            exact ⟨st, EM.bind_err_of (splitE l (by simp at hc; exact hc.1))⟩
          · split
            · rename_i hc
              exact ⟨st, EM.bind_err_of (splitE r (by simp at hc; exact hc.1))⟩
            · rename_i c1 c2 c3 c4 c5
              exfalso
              simp only [Bool.and_eq_true, decide_eq_true_eq, Bool.not_eq_true', decide_eq_false_iff_not] at c1 c2 c3 c4 c5
              cases hln : l.isNode <;> cases hrn : r.isNode <;> simp [hln, hrn] at c1 c2 c3 c4 c5 <;> omega

/-- If the node ids are exhausted, one of the storage operations of a cancellation panics. -/
theorem cancelTree_exhausted {st : TreeSt} {tick : Int} {dir : Dir} {rt : RT} {e v : Nat} (h : RootRep st tick dir rt)
    (h64 : ¬ st.cnt tick + rt.need < U64) (hd : Disj e v rt.leaves)
    (hle : ∀ y ∈ rt.leaves, y.1 + y.2 < U256) (hh : v + e < U256) :
    (∃ st1, getOrInitRootNode tick dir st = .err .panic st1) ∨
    (∃ root st1 st2, getOrInitRootNode tick dir st = .ok root st1 ∧ generateNodeId tick st1 = .err .panic st2) ∨
    (∃ root st1 nk st2 st3, getOrInitRootNode tick dir st = .ok root st1 ∧ generateNodeId tick st1 = .ok nk st2 ∧
      insert (treeFuel st2 tick) root (mk' tick dir nk (.leaf v e)) st2 = .err .panic st3) := by
  cases rt with
  | empty =>
    simp only [RT.need] at h64
    by_cases h1 : st.cnt tick + 1 < U64
    · refine Or.inr (Or.inl ⟨_, _, _, getOrInit_fresh h h1, generateNodeId_exhausted ?_⟩)
      simp [TreeSt.cnt] at h64 ⊢; omega
    · exact Or.inl ⟨_, getOrInit_exhausted h h1⟩
  | one k lk le lv =>
    obtain ⟨h1, h2, h3, h4, h5, h6, h7⟩ := h
    have hgo : getOrInitRootNode tick dir st = .ok (oneRoot tick dir k lk le lv) st := by
      unfold getOrInitRootNode
      simp only [EM.get_bind, getRootNode, h1, h2]; rfl
    exact Or.inr (Or.inl ⟨_, _, _, hgo, generateNodeId_exhausted h64⟩)
  | full t =>
    simp only [RT.need] at h64
    obtain ⟨h1, h2, h3, h4, h5, h6, h7⟩ := h
    have hgo : getOrInitRootNode tick dir st = .ok (t.toNode tick dir none) st := by
      unfold getOrInitRootNode
      simp only [EM.get_bind, getRootNode, h1, h2.root]; rfl
    by_cases hc : st.cnt tick + 1 < U64
    · have hfu : t.wt ≤ treeFuel (st.setCounter tick (st.cnt tick + 1)) tick + 1 := by
        have := nodup_le_length h4 h5
        have := t.wt_le_keys
        simp [treeFuel]; omega
      have hhi : t.hi < U256 := by
        obtain ⟨y, hy, ey⟩ := exists_hi t
        rw [← ey]; exact hle y hy
      obtain ⟨st3, x⟩ := insert_exhausted t (st := st.setCounter tick (st.cnt tick + 1)) (dir := dir) (par := none)
        (nk := st.cnt tick + 1) (e := e) (v := v) h3 h2 (by simp [TreeSt.cnt] at h64 ⊢; omega) h7 hd hhi hh hfu
      exact Or.inr (Or.inr ⟨_, _, _, _, st3, hgo, generateNodeId_spec rfl hc, x⟩)
    · exact Or.inr (Or.inl ⟨_, _, _, hgo, generateNodeId_exhausted hc⟩)

end OB
