import Verif.Proofs.Tree.Pure
/- The stored insertion implements the pure one. -/
namespace OB
open T

theorem TreeSt.setNode_eq_self {st : TreeSt} {tick : Int} {k : Nat} {n : TreeNode} (h : st.nodes tick k = some n) :
    st.setNode tick k n = st := by
  unfold TreeSt.setNode
  congr 1
  funext t q
  split
  · rename_i h'; rw [h'.1, h'.2, h]
  · rfl

namespace TreeNode

theorem generateNodeId_spec {st : TreeSt} {tick : Int} {c : Nat} (hc : (st.counter tick).getD 0 = c)
    (h : c + 1 < U64) : generateNodeId tick st = .ok (c + 1) (st.setCounter tick (c + 1)) := by
  unfold generateNodeId
  simp only [EM.get_bind, hc, u64Succ_ok h, EM.lift_ok_bind, EM.modify_bind, EM.pure_apply]
  rfl

/-- State after `split` of the stored leaf `(lk, le, lv)` under parent `k` by the new leaf `(nk, e, v)`. -/
theorem split_spec {st : TreeSt} {tick : Int} {dir : Dir} {par : Option Nat} {c lk le lv nk e v : Nat}
    (hc : (st.counter tick).getD 0 = c) (h64 : c + 1 < U64)
    (hd : lv + le ≤ e ∨ v + e ≤ le) (h1 : lv + le < U256) (h2 : v + e < U256) (hv : lv + v < U256) :
    split ((leaf lk le lv).toNode tick dir par) (mk' tick dir nk (.leaf v e)) st =
      .ok (c + 1) ((((st.setCounter tick (c + 1)).setNode tick (c + 1)
        ((split2 (c + 1) (leaf lk le lv) nk e v).toNode tick dir par)).setNode tick lk
        ((leaf lk le lv).toNode tick dir (some (c + 1)))).setNode tick nk
        ((leaf nk e v).toNode tick dir (some (c + 1)))) := by
  unfold split
  have e0 : ((leaf lk le lv).toNode tick dir par).isInternal = false := rfl
  have e1 : ((leaf lk le lv).toNode tick dir par).getValue = lv := rfl
  have e2 : (mk' tick dir nk (.leaf v e)).getValue = v := rfl
  have e3 : ((leaf lk le lv).toNode tick dir par).getMaxRange = .ok (lv + le) := toNode_getMaxRange (t := leaf lk le lv) h1
  have e4 : (mk' tick dir nk (.leaf v e)).getMaxRange = .ok (v + e) := by
    simp [getMaxRange, mk', checkedAdd_ok h2]
  have e5 : (mk' tick dir nk (.leaf v e)).getMinRange = e := rfl
  have e6 : ((leaf lk le lv).toNode tick dir par).getMinRange = le := rfl
  rw [e0]
  simp only [Bool.not_false, EM.ensure_true_bind, toNode_tickId]
  rw [EM.bind_ok_of (generateNodeId_spec hc h64)]
  simp only [e1, e2, checkedAdd_ok hv, EM.lift_ok_bind, belowRange, aboveRange, e3, e4, e5, e6, Except.ok_bind',
    Except.pure_eq', toNode_key, key_leaf]
  by_cases hb : lv + le ≤ e
  · simp only [hb, decide_true, if_true]
    simp only [setWeight, mk', EM.lift_ok_bind, save_bind, EM.pure_bind', EM.pure_apply]
    have hs : split2 (c + 1) (leaf lk le lv) nk e v = node (c + 1) (leaf lk le lv) (leaf nk e v) := by
      unfold split2; rw [if_pos (show (leaf lk le lv).hi ≤ e from hb)]
    rw [hs]
    have : (toNode tick dir par (node (c + 1) (leaf lk le lv) (leaf nk e v))) =
        ⟨c + 1, tick, dir, some lk, some nk, par, .internal (lv + v) (min e le) (max (v + e) (lv + le)) 2⟩ := by
      simp [toNode, T.ntype, val, lo, hi, wt, min_comm, max_comm]
    rw [this]
    rfl
  · have hb' : v + e ≤ le := by omega
    simp only [hb, decide_false, ge_iff_le, hb', decide_true, if_true, Bool.false_eq_true, if_false]
    simp only [setWeight, mk', EM.lift_ok_bind, save_bind, EM.pure_bind', EM.pure_apply]
    have hs : split2 (c + 1) (leaf lk le lv) nk e v = node (c + 1) (leaf nk e v) (leaf lk le lv) := by
      unfold split2; rw [if_neg (show ¬ (leaf lk le lv).hi ≤ e from hb)]
    rw [hs]
    have : (toNode tick dir par (node (c + 1) (leaf nk e v) (leaf lk le lv))) =
        ⟨c + 1, tick, dir, some nk, some lk, par, .internal (lv + v) (min e le) (max (v + e) (lv + le)) 2⟩ := by
      simp [toNode, T.ntype, val, lo, hi, wt, Nat.add_comm]
    rw [this]
    rfl

/-- What an insertion below a subtree achieves. -/
structure InsPost (st st' : TreeSt) (tick : Int) (dir : Dir) (par : Option Nat) (t t' : T) (ks : List Nat) (c : Nat) :
    Prop where
  rep : Rep (st'.nodes tick) tick dir par t'
  frame : Frame st st' tick dir par t.key t'.key ks
  counter : st'.counter = (st.setCounter tick c).counter

theorem finish_left {st st1 : TreeSt} {tick : Int} {dir : Dir} {par : Option Nat} {k id nk e v : Nat} {l r : T}
    {nt : NodeType} {a b c d : Nat} {self : TreeNode}
    (hnt : nt = .internal a b c d) (hst : self.tickId = tick) (hsk : self.key = k)
    (hk : st.nodes tick k = some ⟨k, tick, dir, some l.key, some r.key, par, nt⟩)
    (hr : Rep (st.nodes tick) tick dir (some k) r)
    (hnd : (id :: nk :: (node k l r).keys).Nodup)
    (hpar : ParOk st tick par k (id :: nk :: (node k l r).keys))
    (hlh : max l.hi (v + e) < U256) (hrh : r.hi < U256) (hv : l.val + r.val + v < U256)
    (ha : l.AVL) (hw : (node k l r).wt + 4 < 2147483648)
    (hp : InsPost st st1 tick dir (some k) l (ins id nk e v l) (id :: nk :: l.keys) id) :
    ∃ n st', rebalance self st1 = .ok n st' ∧
      InsPost st st' tick dir par (node k l r) (rebal k (ins id nk e v l) r) (id :: nk :: (node k l r).keys) id ∧
      n.tickId = tick ∧ st'.nodes tick n.key = some n := by
  obtain ⟨R, F, C⟩ := hp
  have hpk := ins_keys id nk e v l
  have hk1 : st1.nodes tick k = some ⟨k, tick, dir, some (ins id nk e v l).key, some r.key, par, nt⟩ := by
    rw [F.parent k _ rfl hk]; simp [replChild]
  have hperm : (node k (ins id nk e v l) r).keys.Perm (id :: nk :: (node k l r).keys) := by
    simp only [keys]
    rw [List.perm_iff_count] at *
    intro q; have := hpk q
    simp only [List.count_cons, List.count_append] at *; omega
  have hnd' : (node k (ins id nk e v l) r).keys.Nodup := hperm.nodup_iff.mpr hnd
  have hsub : ∀ q, q ∈ id :: nk :: l.keys → q ∈ id :: nk :: (node k l r).keys := by
    intro q hq; simp only [keys, List.mem_cons, List.mem_append] at *; tauto
  have hpark : ∀ pk, par = some pk → pk ∉ id :: nk :: (node k l r).keys := fun pk h => (hpar pk h).1
  have hkm : k ∈ id :: nk :: (node k l r).keys := by simp [keys]
  have hnd0 := hnd
  simp only [keys, List.nodup_cons, List.mem_cons, List.mem_append, not_or, List.nodup_append] at hnd
  obtain ⟨⟨a1, a2, a3, a4⟩, ⟨b1, b2, b3⟩, ⟨c1, c2⟩, d1, d2, d3⟩ := hnd
  have hr' : Rep (st1.nodes tick) tick dir (some k) r := by
    refine hr.congr (fun q hq => F.nodes q ?_ ?_)
    · simp only [List.mem_cons, not_or]
      refine ⟨?_, ?_, fun h => d3 _ h _ hq rfl⟩
      · rintro rfl; exact a4 hq
      · rintro rfl; exact b3 hq
    · intro h; cases h; exact c2 hq
  have hpar' : ParOk st1 tick par k (node k (ins id nk e v l) r).keys := by
    refine hpar.mono (fun q hq => (hperm.mem_iff).1 hq) ?_
    intro pk hpk'
    refine F.nodes pk (fun h => hpark pk hpk' (hsub _ h)) ?_
    intro h; cases h; exact hpark _ hpk' hkm
  obtain ⟨n, st2, e2, R2, F2, C2, n1, n2⟩ := rebalance_spec (st := st1) (self := self) hnt hst hsk hk1 R hr' hnd' hpar'
    (by rw [ins_hi]; exact hlh) hrh (by rw [ins_val]; omega)
    (by have := (ins_AVL (id := id) (nk := nk) (e := e) (v := v) ha).2.2; simp only [wt] at hw ⊢; omega)
  refine ⟨n, st2, e2, ⟨R2, ?_, by rw [C2, C]⟩, n1, n2⟩
  exact F.comp F2 hsub (fun q hq => (hperm.mem_iff).1 hq) hkm hpark

theorem finish_right {st st1 : TreeSt} {tick : Int} {dir : Dir} {par : Option Nat} {k id nk e v : Nat} {l r : T}
    {nt : NodeType} {a b c d : Nat} {self : TreeNode}
    (hnt : nt = .internal a b c d) (hst : self.tickId = tick) (hsk : self.key = k)
    (hk : st.nodes tick k = some ⟨k, tick, dir, some l.key, some r.key, par, nt⟩)
    (hl : Rep (st.nodes tick) tick dir (some k) l)
    (hnd : (id :: nk :: (node k l r).keys).Nodup)
    (hpar : ParOk st tick par k (id :: nk :: (node k l r).keys))
    (hrh : max r.hi (v + e) < U256) (hlh : l.hi < U256) (hv : l.val + r.val + v < U256)
    (ha : r.AVL) (hw : (node k l r).wt + 4 < 2147483648)
    (hp : InsPost st st1 tick dir (some k) r (ins id nk e v r) (id :: nk :: r.keys) id) :
    ∃ n st', rebalance self st1 = .ok n st' ∧
      InsPost st st' tick dir par (node k l r) (rebal k l (ins id nk e v r)) (id :: nk :: (node k l r).keys) id ∧
      n.tickId = tick ∧ st'.nodes tick n.key = some n := by
  obtain ⟨R, F, C⟩ := hp
  have hpk := ins_keys id nk e v r
  have hnd0 := hnd
  simp only [keys, List.nodup_cons, List.mem_cons, List.mem_append, not_or, List.nodup_append] at hnd
  obtain ⟨⟨a1, a2, a3, a4⟩, ⟨b1, b2, b3⟩, ⟨c1, c2⟩, d1, d2, d3⟩ := hnd
  have hne : l.key ≠ r.key := fun h => d3 _ l.key_mem _ r.key_mem h
  have hk1 : st1.nodes tick k = some ⟨k, tick, dir, some l.key, some (ins id nk e v r).key, par, nt⟩ := by
    rw [F.parent k _ rfl hk]; simp [replChild, hne]
  have hperm : (node k l (ins id nk e v r)).keys.Perm (id :: nk :: (node k l r).keys) := by
    simp only [keys]
    rw [List.perm_iff_count] at *
    intro q; have := hpk q
    simp only [List.count_cons, List.count_append] at *; omega
  have hnd' : (node k l (ins id nk e v r)).keys.Nodup := hperm.nodup_iff.mpr hnd0
  have hsub : ∀ q, q ∈ id :: nk :: r.keys → q ∈ id :: nk :: (node k l r).keys := by
    intro q hq; simp only [keys, List.mem_cons, List.mem_append] at *; tauto
  have hpark : ∀ pk, par = some pk → pk ∉ id :: nk :: (node k l r).keys := fun pk h => (hpar pk h).1
  have hkm : k ∈ id :: nk :: (node k l r).keys := by simp [keys]
  have hl' : Rep (st1.nodes tick) tick dir (some k) l := by
    refine hl.congr (fun q hq => F.nodes q ?_ ?_)
    · simp only [List.mem_cons, not_or]
      refine ⟨?_, ?_, fun h => d3 _ hq _ h rfl⟩
      · rintro rfl; exact a3 hq
      · rintro rfl; exact b2 hq
    · intro h; cases h; exact c1 hq
  have hpar' : ParOk st1 tick par k (node k l (ins id nk e v r)).keys := by
    refine hpar.mono (fun q hq => (hperm.mem_iff).1 hq) ?_
    intro pk hpk'
    refine F.nodes pk (fun h => hpark pk hpk' (hsub _ h)) ?_
    intro h; cases h; exact hpark _ hpk' hkm
  obtain ⟨n, st2, e2, R2, F2, C2, n1, n2⟩ := rebalance_spec (st := st1) (self := self) hnt hst hsk hk1 hl' R hnd' hpar'
    hlh (by rw [ins_hi]; exact hrh) (by rw [ins_val]; omega)
    (by have := (ins_AVL (id := id) (nk := nk) (e := e) (v := v) ha).2.2; simp only [wt] at hw ⊢; omega)
  refine ⟨n, st2, e2, ⟨R2, ?_, by rw [C2, C]⟩, n1, n2⟩
  exact F.comp F2 hsub (fun q hq => (hperm.mem_iff).1 hq) hkm hpark

/-- `split` of a leaf child followed by saving the updated parent. -/
theorem split_post {st : TreeSt} {tick : Int} {dir : Dir} {k c lk le lv nk e v : Nat} {p : TreeNode}
    (hp : st.nodes tick k = some p)
    (hne : (c + 1) ≠ nk ∧ (c + 1) ≠ lk ∧ (c + 1) ≠ k ∧ nk ≠ lk ∧ nk ≠ k ∧ lk ≠ k)
    (hpc : p.replChild lk (c + 1) = p') :
    InsPost st (((((st.setCounter tick (c + 1)).setNode tick (c + 1)
        ((split2 (c + 1) (leaf lk le lv) nk e v).toNode tick dir (some k))).setNode tick lk
        ((leaf lk le lv).toNode tick dir (some (c + 1)))).setNode tick nk
        ((leaf nk e v).toNode tick dir (some (c + 1)))).setNode tick k p') tick dir (some k) (leaf lk le lv)
      (ins (c + 1) nk e v (leaf lk le lv)) ((c + 1) :: nk :: (leaf lk le lv).keys) (c + 1) := by
  obtain ⟨h1, h2, h3, h4, h5, h6⟩ := hne
  have hkey : (split2 (c + 1) (leaf lk le lv) nk e v).key = c + 1 := by unfold split2; split <;> rfl
  refine ⟨?_, ⟨?_, ?_, ?_, ?_⟩, ?_⟩
  · simp only [ins]
    unfold split2
    split
    · refine ⟨?_, ?_, ?_⟩ <;> simp only [Rep, TreeSt.setNode_nodes] <;> simp [h1, h2, h3, h4, h5, h6, h1.symm, h2.symm, h4.symm]
    · refine ⟨?_, ?_, ?_⟩ <;> simp only [Rep, TreeSt.setNode_nodes] <;> simp [h1, h2, h3, h4, h5, h6, h1.symm, h2.symm, h4.symm]
  · intro t ht q; simp only [TreeSt.setNode_tick _ _ _ _ _ _ ht]; rfl
  · intro q hq hne
    simp only [keys, List.mem_cons, not_or, List.not_mem_nil, not_false_eq_true, and_true] at hq
    have : q ≠ k := fun h => hne (by rw [h])
    simp only [TreeSt.setNode_nodes]
    simp [this, hq]
  · intro pk p0 h h0
    cases h
    rw [hp] at h0; cases h0
    have : (ins (c + 1) nk e v (leaf lk le lv)).key = c + 1 := hkey
    rw [this, ← hpc]; simp
  · intro t d; simp
  · rfl

/-- The stored insertion of the leaf `(nk, e, v)` implements the pure insertion `ins`. `fuel` only needs to exceed the
height below the root. -/
theorem insert_spec : ∀ (t : T) {st : TreeSt} {tick : Int} {dir : Dir} {par : Option Nat} {c nk e v fuel : Nat},
    t.isNode = true →
    Rep (st.nodes tick) tick dir par t →
    ((c + 1) :: nk :: t.keys).Nodup →
    ParOk st tick par t.key ((c + 1) :: nk :: t.keys) →
    (st.counter tick).getD 0 = c → c + 1 < U64 →
    t.Ord → 0 < v → Disj e v t.leaves →
    t.hi < U256 → v + e < U256 → t.val + v < U256 → t.AVL → t.wt + 4 < 2147483648 → t.wt ≤ fuel + 1 →
    ∃ n st', insert fuel (t.toNode tick dir par) (mk' tick dir nk (.leaf v e)) st = .ok n st' ∧
      InsPost st st' tick dir par t (ins (c + 1) nk e v t) ((c + 1) :: nk :: t.keys) (c + 1) ∧
      n.tickId = tick ∧ st'.nodes tick n.key = some n := by
  intro t
  induction t with
  | leaf => intro _ _ _ _ _ _ _ _ _ h; simp at h
  | node k l r ihl ihr =>
    intro st tick dir par c nk e v fuel _ hrep hnd hpar hc h64 ho hv0 hd hhi hnhi hval havl hwt hfuel
    obtain ⟨hk, hl, hr⟩ := hrep
    have hl1 := hl.root
    have hr1 := hr.root
    have hgs := goLeft_spec ho hd
    obtain ⟨ho1, ho2, ho3⟩ := ho
    have hk' : st.nodes tick k = some ⟨k, tick, dir, some l.key, some r.key, par, (node k l r).ntype⟩ := hk
    have hnd0 := hnd
    simp only [keys, List.nodup_cons, List.mem_cons, List.mem_append, not_or, List.nodup_append] at hnd
    obtain ⟨⟨a1, a2, a3, a4⟩, ⟨b1, b2, b3⟩, ⟨c1, c2⟩, d1, d2, d3⟩ := hnd
    simp only [hi] at hhi
    simp only [val] at hval
    have hwt' := hwt
    simp only [wt] at hfuel hwt'
    have hal : l.AVL := havl.1
    have har : r.AVL := havl.2.1
    have hlw := l.wt_pos
    have hrw := r.wt_pos
    have hlr : l.key ≠ r.key := fun h => d3 _ l.key_mem _ r.key_mem h
    -- child insertion by recursion
    have hndl : ((c + 1) :: nk :: l.keys).Nodup := by
      simp only [List.nodup_cons, List.mem_cons, not_or]; exact ⟨⟨a1, a3⟩, b2, d1⟩
    have hndr : ((c + 1) :: nk :: r.keys).Nodup := by
      simp only [List.nodup_cons, List.mem_cons, not_or]; exact ⟨⟨a1, a4⟩, b3, d2⟩
    have hparl : ParOk st tick (some k) l.key ((c + 1) :: nk :: l.keys) := by
      intro pk h; cases h
      refine ⟨?_, _, hk', rfl, rfl, Or.inl ⟨rfl, fun h => hlr (Option.some.inj h).symm⟩⟩
      simp only [List.mem_cons, not_or]; exact ⟨fun h => a2 h.symm, fun h => b1 h.symm, c1⟩
    have hparr : ParOk st tick (some k) r.key ((c + 1) :: nk :: r.keys) := by
      intro pk h; cases h
      refine ⟨?_, _, hk', rfl, rfl, Or.inr ⟨fun h => hlr (Option.some.inj h), rfl⟩⟩
      simp only [List.mem_cons, not_or]; exact ⟨fun h => a2 h.symm, fun h => b1 h.symm, c2⟩
    -- unfold one step
    cases fuel with
    | zero => omega
    | succ fuel =>
    unfold insert
    have hgl : getLeft ((node k l r).toNode tick dir par) st = some (l.toNode tick dir (some k)) := hl1
    have hgr : getRight ((node k l r).toNode tick dir par) st = some (r.toNode tick dir (some k)) := hr1
    have hni : (mk' tick dir nk (.leaf v e)).isInternal = false := rfl
    have e1 : inOrBelowRange (mk' tick dir nk (.leaf v e)) (l.toNode tick dir (some k)) = .ok (decide (e < l.hi)) := by
      have hlh : l.hi < U256 := by omega
      simp only [inOrBelowRange, toNode_getMaxRange hlh, Except.ok_bind', Except.pure_eq']; rfl
    have e2 : inOrAboveRange (mk' tick dir nk (.leaf v e)) (r.toNode tick dir (some k)) = decide (r.lo ≤ e) := by
      simp only [inOrAboveRange, toNode_getMinRange]; rfl
    have e3 : belowRange (mk' tick dir nk (.leaf v e)) (l.toNode tick dir (some k)) = .ok (decide (v + e ≤ l.lo)) := by
      have : (mk' tick dir nk (.leaf v e)).getMaxRange = .ok (v + e) := by
        simp [getMaxRange, mk', checkedAdd_ok hnhi]
      simp only [belowRange, this, Except.ok_bind', Except.pure_eq', toNode_getMinRange]
    simp only [toNode_isInternal, isNode_node, hni, EM.ensure_true_bind, Bool.not_false, EM.get_bind, hgl, hgr,
      Option.isNone_some, Option.isSome_some, Bool.and_true, Bool.false_and, Option.map_some, Option.getD_some, e1, e2, e3,
      EM.lift_ok_bind, Bool.true_and, Bool.and_false, save_bind, toNode_tickId, toNode_key, key_node,
      TreeSt.setNode_eq_self hk, Bool.false_eq_true, if_false, Option.isNone_none, Bool.not_true]
    have splitL : ∀ lk le lv, l = leaf lk le lv → e < r.lo →
        ∃ st1, split (l.toNode tick dir (some k)) (mk' tick dir nk (.leaf v e)) st = .ok (c + 1) st1 ∧
          InsPost st (st1.setNode tick k ⟨k, tick, dir, some (c + 1), some r.key, par, (node k l r).ntype⟩) tick dir
            (some k) l (ins (c + 1) nk e v l) ((c + 1) :: nk :: l.keys) (c + 1) := by
      intro lk le lv hl' he
      subst hl'
      have hdl := hd (le, lv) (by simp [leaves])
      simp only [hi] at hhi
      simp only [keys, List.mem_singleton] at a3 b2 c1
      refine ⟨_, split_spec hc h64 (by simp only at hdl; omega) (by omega) hnhi (by simp only [val] at hval; omega), ?_⟩
      exact split_post hk' ⟨a1, a3, a2, b2, b1, Ne.symm c1⟩ (by simp [replChild])
    have splitR : ∀ rk re rv, r = leaf rk re rv → l.hi ≤ e →
        ∃ st1, split (r.toNode tick dir (some k)) (mk' tick dir nk (.leaf v e)) st = .ok (c + 1) st1 ∧
          InsPost st (st1.setNode tick k ⟨k, tick, dir, some l.key, some (c + 1), par, (node k l r).ntype⟩) tick dir
            (some k) r (ins (c + 1) nk e v r) ((c + 1) :: nk :: r.keys) (c + 1) := by
      intro rk re rv hr' he
      subst hr'
      have hdl := hd (re, rv) (by simp [leaves])
      simp only [hi] at hhi
      simp only [keys, List.mem_singleton] at a4 b3 c2
      refine ⟨_, split_spec hc h64 (by simp only at hdl; omega) (by omega) hnhi (by simp only [val] at hval; omega), ?_⟩
      refine split_post hk' ⟨a1, a4, a2, b3, b1, Ne.symm c2⟩ ?_
      have : l.key ≠ rk := hlr
      simp [replChild, this]
    have recL : l.isNode = true → ∃ n1 st1, insert fuel (l.toNode tick dir (some k)) (mk' tick dir nk (.leaf v e)) st = .ok n1 st1 ∧
        InsPost st st1 tick dir (some k) l (ins (c + 1) nk e v l) ((c + 1) :: nk :: l.keys) (c + 1) := by
      intro hln
      obtain ⟨n1, st1, x1, x2, _⟩ := ihl (fuel := fuel) hln hl hndl hparl hc h64 ho1 hv0 hd.left (by omega) hnhi (by omega) hal (by omega) (by omega)
      exact ⟨n1, st1, x1, x2⟩
    have recR : r.isNode = true → ∃ n1 st1, insert fuel (r.toNode tick dir (some k)) (mk' tick dir nk (.leaf v e)) st = .ok n1 st1 ∧
        InsPost st st1 tick dir (some k) r (ins (c + 1) nk e v r) ((c + 1) :: nk :: r.keys) (c + 1) := by
      intro hln
      obtain ⟨n1, st1, x1, x2, _⟩ := ihr (fuel := fuel) hln hr hndr hparr hc h64 ho2 hv0 hd.right (by omega) hnhi (by omega) har (by omega) (by omega)
      exact ⟨n1, st1, x1, x2⟩
    have finL : ∀ {st1 : TreeSt} {self : TreeNode}, self.tickId = tick → self.key = k →
        InsPost st st1 tick dir (some k) l (ins (c + 1) nk e v l) ((c + 1) :: nk :: l.keys) (c + 1) →
        ∃ n st', rebalance self st1 = .ok n st' ∧
          InsPost st st' tick dir par (node k l r) (rebal k (ins (c + 1) nk e v l) r) ((c + 1) :: nk :: (node k l r).keys) (c + 1) ∧
          n.tickId = tick ∧ st'.nodes tick n.key = some n :=
      fun h1 h2 h3 => finish_left rfl h1 h2 hk' hr hnd0 hpar (by omega) (by omega) (by omega) hal hwt h3
    have finR : ∀ {st1 : TreeSt} {self : TreeNode}, self.tickId = tick → self.key = k →
        InsPost st st1 tick dir (some k) r (ins (c + 1) nk e v r) ((c + 1) :: nk :: r.keys) (c + 1) →
        ∃ n st', rebalance self st1 = .ok n st' ∧
          InsPost st st' tick dir par (node k l r) (rebal k l (ins (c + 1) nk e v r)) ((c + 1) :: nk :: (node k l r).keys) (c + 1) ∧
          n.tickId = tick ∧ st'.nodes tick n.key = some n :=
      fun h1 h2 h3 => finish_right rfl h1 h2 hk' hl hnd0 hpar (by omega) (by omega) (by omega) har hwt h3
    have hsave : ((node k l r).toNode tick dir par).save st = .ok () st := by
      rw [save_apply]; exact congrArg _ (TreeSt.setNode_eq_self hk)
    simp only [ins]
    cases hln : l.isNode with
    | true =>
      by_cases he : e < l.hi
      · -- case 1
        have hg : goLeft l r e = true := by simp [goLeft, hln, he]
        simp only [hg, he, decide_true, Bool.and_self, if_true]
        obtain ⟨n1, st1, x1, x2⟩ := recL hln
        rw [EM.bind_ok_of hsave, EM.bind_ok_of x1]
        exact finL rfl rfl x2
      · simp only [he, decide_false, Bool.and_false, Bool.false_eq_true, if_false]
        cases hrn : r.isNode with
        | true =>
          by_cases he2 : r.lo ≤ e
          · -- case 2
            have hg : goLeft l r e = false := by simp [goLeft, hln, he, hrn, he2]
            simp only [hg, he2, decide_true, Bool.and_self, if_true, Bool.false_eq_true, if_false]
            obtain ⟨n1, st1, x1, x2⟩ := recR hrn
            rw [EM.bind_ok_of hsave, EM.bind_ok_of x1]
            exact finR rfl rfl x2
          · -- case 3
            have hg : goLeft l r e = true := by simp [goLeft, hln, hrn, he2]
            simp only [hg, he2, decide_false, Bool.and_false, Bool.and_self, if_true, Bool.false_eq_true, if_false]
            obtain ⟨n1, st1, x1, x2⟩ := recL hln
            rw [EM.bind_ok_of hsave, EM.bind_ok_of x1]
            exact finL rfl rfl x2
        | false =>
          -- case 5
          have hg : goLeft l r e = false := by simp [goLeft, hln, he, hrn]
          simp only [hg, Bool.false_and, Bool.false_eq_true, if_false, Bool.not_true, Bool.not_false, Bool.and_self, if_true]
          cases r with
          | node => simp at hrn
          | leaf rk re rv =>
            obtain ⟨st1, x1, x2⟩ := splitR rk re rv rfl (by omega)
            rw [EM.bind_ok_of x1]
            exact finR rfl rfl x2
    | false =>
      simp only [Bool.false_and, Bool.false_eq_true, if_false]
      cases l with
      | node => simp at hln
      | leaf lk le lv =>
        cases hrn : r.isNode with
        | true =>
          by_cases he2 : r.lo ≤ e
          · -- case 2
            have hg : goLeft (leaf lk le lv) r e = false := by simp [goLeft, hrn, he2]
            simp only [hg, he2, decide_true, Bool.and_self, if_true, Bool.false_eq_true, if_false]
            obtain ⟨n1, st1, x1, x2⟩ := recR hrn
            rw [EM.bind_ok_of hsave, EM.bind_ok_of x1]
            exact finR rfl rfl x2
          · -- case 4
            have hg : goLeft (leaf lk le lv) r e = true := by simp [goLeft, hrn, he2]; omega
            simp only [hg, he2, decide_false, Bool.and_false, if_true, Bool.false_eq_true, if_false, Bool.not_false, Bool.and_self]
            obtain ⟨st1, x1, x2⟩ := splitL lk le lv rfl (by omega)
            rw [EM.bind_ok_of x1]
            exact finL rfl rfl x2
        | false =>
          cases r with
          | node => simp at hrn
          | leaf rk re rv =>
            by_cases he2 : (leaf rk re rv).lo ≤ e
            · -- case 5
              have hle : (leaf lk le lv).hi ≤ e := by omega
              have hg : goLeft (leaf lk le lv) (leaf rk re rv) e = false := by simp [goLeft]; omega
              have hnlt : ¬ e < (leaf lk le lv).hi := by omega
              simp only [hg, he2, hnlt, decide_true, decide_false, Bool.false_and, Bool.false_eq_true, if_false, Bool.not_true,
                Bool.not_false, Bool.and_false, Bool.and_self, if_true]
              obtain ⟨st1, x1, x2⟩ := splitR rk re rv rfl hle
              rw [EM.bind_ok_of x1]
              exact finR rfl rfl x2
            · -- case 4
              have hg : goLeft (leaf lk le lv) (leaf rk re rv) e = true := by simp [goLeft]; omega
              simp only [hg, he2, decide_false, Bool.and_false, if_true, Bool.false_eq_true, if_false, Bool.not_false, Bool.and_self]
              obtain ⟨st1, x1, x2⟩ := splitL lk le lv rfl (by omega)
              rw [EM.bind_ok_of x1]
              exact finL rfl rfl x2

end TreeNode
end OB
