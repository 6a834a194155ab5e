import Verif.Proofs.Tree.Rep
/- Rotations and rebalancing on stored trees. -/
namespace OB

/-- Replace the child pointer `k` by `k'`. -/
def TreeNode.replChild (p : TreeNode) (k k' : Nat) : TreeNode :=
  if p.left = some k then { p with left := some k' }
  else if p.right = some k then { p with right := some k' }
  else p

theorem TreeNode.replChild_self (p : TreeNode) (k : Nat) : p.replChild k k = p := by
  unfold replChild
  split
  · rename_i h; cases p; simp_all
  · split
    · rename_i h; cases p; simp_all
    · rfl

/-- The parent slot of a subtree with root key `k` and footprint `ks`: either none or a stored node, outside the
footprint, exactly one of whose child pointers is `k`. -/
def ParOk (st : TreeSt) (tick : Int) (par : Option Nat) (k : Nat) (ks : List Nat) : Prop :=
  ∀ pk, par = some pk → pk ∉ ks ∧ ∃ p, st.nodes tick pk = some p ∧ p.key = pk ∧ p.tickId = tick ∧
    ((p.left = some k ∧ p.right ≠ some k) ∨ (p.left ≠ some k ∧ p.right = some k))

/-- Effect of an operation on a subtree: only its footprint, its parent's child pointer and (for a root) the root
pointer change; `c` is the counter afterwards. -/
structure Frame (st st' : TreeSt) (tick : Int) (dir : Dir) (par : Option Nat) (k k' : Nat) (ks : List Nat) : Prop where
  ticks : ∀ t, t ≠ tick → ∀ q, st'.nodes t q = st.nodes t q
  nodes : ∀ q, q ∉ ks → par ≠ some q → st'.nodes tick q = st.nodes tick q
  parent : ∀ pk p, par = some pk → st.nodes tick pk = some p → st'.nodes tick pk = some (p.replChild k k')
  roots : ∀ t d, st'.roots t d =
    if t = tick ∧ d = dir ∧ par = none ∧ k ≠ k' then some k' else st.roots t d

namespace TreeNode
open T

theorem rotateLeft_spec {st : TreeSt} {tick : Int} {dir : Dir} {par : Option Nat} {k rk : Nat} {l rl rr : T}
    {nt : NodeType} {a b c d : Nat} (hnt : nt = .internal a b c d)
    (hl : Rep (st.nodes tick) tick dir (some k) l)
    (hr : Rep (st.nodes tick) tick dir (some k) (node rk rl rr))
    (hnd : (node k l (node rk rl rr)).keys.Nodup)
    (hpar : ParOk st tick par k (node k l (node rk rl rr)).keys)
    (hlh : l.hi < U256) (hrlh : rl.hi < U256) (hrrh : rr.hi < U256) (hv : l.val + rl.val + rr.val < U256)
    (hw : (node k l (node rk rl rr)).wt + 1 < 2147483648) :
    ∃ st', rotateLeft ⟨k, tick, dir, some l.key, some rk, par, nt⟩ st =
        .ok ((node k l rl).toNode tick dir (some rk)) st' ∧
      Rep (st'.nodes tick) tick dir par (node rk (node k l rl) rr) ∧
      Frame st st' tick dir par k rk (node k l (node rk rl rr)).keys ∧ st'.counter = st.counter := by
  subst hnt
  simp only [wt] at hw
  obtain ⟨hr1, hr2, hr3⟩ := hr
  have hl1 := hl.root
  have hrl1 := hr2.root
  have hrr1 := hr3.root
  simp only [keys, List.nodup_cons, List.mem_append, List.mem_cons, not_or, List.nodup_append] at hnd
  obtain ⟨⟨hkl, hkrk, hkrl, hkrr⟩, hndl, ⟨⟨hrkrl, hrkrr⟩, hndrl, hndrr, hdisj⟩, hdisjl⟩ := hnd
  have hkl' : l.key ≠ k := fun h => hkl (h ▸ l.key_mem)
  have hkrl' : rl.key ≠ k := fun h => hkrl (h ▸ rl.key_mem)
  have hkrr' : rr.key ≠ k := fun h => hkrr (h ▸ rr.key_mem)
  have hrkrl' : rl.key ≠ rk := fun h => hrkrl (h ▸ rl.key_mem)
  have hrkrr' : rr.key ≠ rk := fun h => hrkrr (h ▸ rr.key_mem)
  have hrlrr' : rr.key ≠ rl.key := fun h => hdisj _ rl.key_mem _ rr.key_mem h.symm
  have hlrk' : l.key ≠ rk := fun h => hdisjl _ l.key_mem _ (Or.inl rfl) h
  have hlrl' : l.key ≠ rl.key := fun h => hdisjl _ l.key_mem _ (Or.inr (Or.inl rl.key_mem)) h
  have hlrr' : l.key ≠ rr.key := fun h => hdisjl _ l.key_mem _ (Or.inr (Or.inr rr.key_mem)) h
  -- state before the parent update
  let st1 := ((st.setNode tick rl.key (rl.toNode tick dir (some k))).setNode tick rk
    { (node rk rl rr).toNode tick dir par with left := some k }).setNode tick k
      ⟨k, tick, dir, some l.key, some rl.key, some rk, .internal a b c d⟩
  let st2 := match par with
    | none => st1.setRoot tick dir rk
    | some _ => st1
  let st3 := st2.setNode tick k ((node k l rl).toNode tick dir (some rk))
  let st4 := st3.setNode tick rk ((node rk (node k l rl) rr).toNode tick dir par)
  have h2n : st2.nodes = st1.nodes := by cases par <;> rfl
  have h2c : st2.counter = st.counter := by cases par <;> rfl
  have h2r : ∀ t d, st2.roots t d = if t = tick ∧ d = dir ∧ par = none ∧ k ≠ rk then some rk else st.roots t d := by
    intro t d
    have : k ≠ rk := hkrk
    cases par with
    | none => simp [st2, TreeSt.setRoot, st1, this]
    | some _ => simp [st2, st1]
  have n1 : ∀ q, st1.nodes tick q = if q = k then some ⟨k, tick, dir, some l.key, some rl.key, some rk, .internal a b c d⟩
      else if q = rk then some { (node rk rl rr).toNode tick dir par with left := some k }
      else if q = rl.key then some (rl.toNode tick dir (some k)) else st.nodes tick q := by
    intro q; simp only [st1, TreeSt.setNode_nodes]
  have sync1 : syncRangeAndValue ⟨k, tick, dir, some l.key, some rl.key, some rk, .internal a b c d⟩ st2 =
      .ok ((node k l rl).toNode tick dir (some rk)) st3 := by
    refine syncRangeAndValue_spec (pl := some k) (pr := some k) rfl ?_ ?_ hlh hrlh (by omega) (by omega)
    · rw [h2n, n1, if_neg hkl', if_neg hlrk', if_neg hlrl']; exact hl1
    · rw [h2n, n1, if_neg hkrl', if_neg hrkrl', if_pos rfl]
  have sync2 : syncRangeAndValue { (node rk rl rr).toNode tick dir par with left := some k } st3 =
      .ok ((node rk (node k l rl) rr).toNode tick dir par) st4 := by
    refine syncRangeAndValue_spec (l := node k l rl) (pl := some rk) (pr := some rk) rfl ?_ ?_ ?_ hrrh ?_ (by simp only [wt]; omega)
    · simp [st3, T.key]
    · show st3.nodes tick rr.key = _
      simp only [st3]
      rw [TreeSt.setNode_ne _ _ _ _ _ hkrr', h2n, n1, if_neg hkrr', if_neg hrkrr', if_neg hrlrr']; exact hrr1
    · simp [hi]; omega
    · simpa [T.val] using hv
  have n4 : ∀ q, st4.nodes tick q = if q = rk then some ((node rk (node k l rl) rr).toNode tick dir par)
      else if q = k then some ((node k l rl).toNode tick dir (some rk))
      else if q = rl.key then some (rl.toNode tick dir (some k)) else st.nodes tick q := by
    intro q
    simp only [st4, st3, TreeSt.setNode_nodes, h2n, n1]
    split
    · rfl
    · split
      · rfl
      · rfl
  have n4t : ∀ t, t ≠ tick → ∀ q, st4.nodes t q = st.nodes t q := by
    intro t ht q
    simp only [st4, st3, TreeSt.setNode_tick _ _ _ _ _ _ ht, h2n, st1]
  have rep4 : ∀ N', (∀ q ∈ (node k l (node rk rl rr)).keys, N' q = st4.nodes tick q) →
      Rep N' tick dir par (node rk (node k l rl) rr) := by
    intro N' hN'
    have m1 : ∀ q, q ∈ l.keys → N' q = st.nodes tick q := by
      intro q hq
      rw [hN' q (by simp [keys, hq]), n4, if_neg, if_neg, if_neg]
      · rintro rfl; exact hdisjl _ hq _ (Or.inr (Or.inl rl.key_mem)) rfl
      · rintro rfl; exact hkl hq
      · rintro rfl; exact hdisjl _ hq _ (Or.inl rfl) rfl
    have m2 : ∀ q, q ∈ rr.keys → N' q = st.nodes tick q := by
      intro q hq
      rw [hN' q (by simp [keys, hq]), n4, if_neg, if_neg, if_neg]
      · rintro rfl; exact hdisj _ rl.key_mem _ hq rfl
      · rintro rfl; exact hkrr hq
      · rintro rfl; exact hrkrr hq
    refine ⟨?_, ⟨?_, hl.congr m1, hr2.reparent hndrl ?_ ?_⟩, hr3.congr m2⟩
    · rw [hN' rk (by simp [keys]), n4, if_pos rfl]
    · rw [hN' k (by simp [keys]), n4, if_neg hkrk, if_pos rfl]
    · rw [hN' _ (by simp [keys, rl.key_mem]), n4, if_neg hrkrl', if_neg hkrl', if_pos rfl]
    · intro q hq hne
      rw [hN' q (by simp [keys, hq]), n4, if_neg, if_neg, if_neg hne]
      · rintro rfl; exact hkrl hq
      · rintro rfl; exact hrkrl hq
  have n4out : ∀ q, q ∉ (node k l (node rk rl rr)).keys → st4.nodes tick q = st.nodes tick q := by
    intro q hq
    simp only [keys, List.mem_cons, List.mem_append, not_or] at hq
    obtain ⟨q1, q2, q3, q4, q5⟩ := hq
    rw [n4, if_neg q3, if_neg q1, if_neg]
    rintro rfl; exact q4 rl.key_mem
  have c4 : st4.counter = st.counter := by simp [st4, st3, h2c]
  have r4 : st4.roots = st2.roots := by simp [st4, st3]
  unfold rotateLeft
  have hgr : st.nodes tick rk = some ((node rk rl rr).toNode tick dir (some k)) := hr1
  cases hp : par with
  | none =>
    subst hp
    refine ⟨st4, ?_, rep4 _ (fun _ _ => rfl), ⟨n4t, fun q hq _ => n4out q hq, by simp, ?_⟩, c4⟩
    · simp only [EM.get_bind, getParent, getRight, hgr, toNode_left, left?_node, hrl1]
      simp only [save_bind, toNode_tickId, toNode_key]
      rw [if_pos (by simp)]
      simp only [saveRoot_bind]
      refine (EM.bind_ok_of sync1).trans ?_
      exact EM.bind_ok_of sync2
    · intro t d; rw [r4]; exact h2r t d
  | some pk =>
    subst hp
    obtain ⟨hpk, p, hp, hpkey, hptick, hpc⟩ := hpar pk rfl
    refine ⟨st4.setNode tick pk (p.replChild k rk), ?_, rep4 _ ?_, ⟨?_, ?_, ?_, ?_⟩, ?_⟩
    · simp only [EM.get_bind, getParent, getRight, hgr, toNode_left, left?_node, hrl1, hp]
      simp only [save_bind, toNode_tickId, toNode_key]
      rw [if_neg (by simp)]
      refine (EM.bind_ok_of sync1).trans ?_
      refine (EM.bind_ok_of sync2).trans ?_
      rcases hpc with ⟨p1, p2⟩ | ⟨p1, p2⟩
      · simp [p1, p2, replChild, hpkey, hptick, T.key]
      · simp [p1, p2, replChild, hpkey, hptick, T.key]
    · intro q hq
      rw [TreeSt.setNode_ne]
      rintro rfl; exact hpk hq
    · intro t ht q; rw [TreeSt.setNode_tick _ _ _ _ _ _ ht, n4t t ht]
    · intro q hq hne
      rw [TreeSt.setNode_ne, n4out q hq]
      rintro rfl; exact hne rfl
    · intro pk' p' h h'
      cases h
      rw [hp] at h'; cases h'
      simp
    · intro t d; rw [TreeSt.setNode_roots, r4]; exact h2r t d
    · simp [c4]

theorem rotateRight_spec {st : TreeSt} {tick : Int} {dir : Dir} {par : Option Nat} {k lk : Nat} {ll lr r : T}
    {nt : NodeType} {a b c d : Nat} (hnt : nt = .internal a b c d)
    (hl : Rep (st.nodes tick) tick dir (some k) (node lk ll lr))
    (hr : Rep (st.nodes tick) tick dir (some k) r)
    (hnd : (node k (node lk ll lr) r).keys.Nodup)
    (hpar : ParOk st tick par k (node k (node lk ll lr) r).keys)
    (hllh : ll.hi < U256) (hlrh : lr.hi < U256) (hrh : r.hi < U256) (hv : ll.val + lr.val + r.val < U256)
    (hw : (node k (node lk ll lr) r).wt + 1 < 2147483648) :
    ∃ st', rotateRight ⟨k, tick, dir, some lk, some r.key, par, nt⟩ st =
        .ok ((node k lr r).toNode tick dir (some lk)) st' ∧
      Rep (st'.nodes tick) tick dir par (node lk ll (node k lr r)) ∧
      Frame st st' tick dir par k lk (node k (node lk ll lr) r).keys ∧ st'.counter = st.counter := by
  subst hnt
  simp only [wt] at hw
  obtain ⟨hl1, hl2, hl3⟩ := hl
  have hr1 := hr.root
  have hll1 := hl2.root
  have hlr1 := hl3.root
  simp only [keys, List.cons_append, List.nodup_cons, List.mem_append, List.mem_cons, not_or, List.nodup_append] at hnd
  obtain ⟨⟨hklk, ⟨hkll, hklr⟩, hkr⟩, ⟨⟨hlkll, hlklr⟩, hlkr⟩, ⟨hndll, hndlr, hdisj⟩, hndr, hdisjr⟩ := hnd
  have hkr' : r.key ≠ k := fun h => hkr (h ▸ r.key_mem)
  have hkll' : ll.key ≠ k := fun h => hkll (h ▸ ll.key_mem)
  have hklr' : lr.key ≠ k := fun h => hklr (h ▸ lr.key_mem)
  have hlkll' : ll.key ≠ lk := fun h => hlkll (h ▸ ll.key_mem)
  have hlklr' : lr.key ≠ lk := fun h => hlklr (h ▸ lr.key_mem)
  have hlkr' : r.key ≠ lk := fun h => hlkr (h ▸ r.key_mem)
  have hlllr' : ll.key ≠ lr.key := fun h => hdisj _ ll.key_mem _ lr.key_mem h
  have hrll' : r.key ≠ ll.key := fun h => hdisjr _ (Or.inl ll.key_mem) _ r.key_mem h.symm
  have hrlr' : r.key ≠ lr.key := fun h => hdisjr _ (Or.inr lr.key_mem) _ r.key_mem h.symm
  -- state before the parent update
  let st1 := ((st.setNode tick lr.key (lr.toNode tick dir (some k))).setNode tick lk
    { (node lk ll lr).toNode tick dir par with right := some k }).setNode tick k
      ⟨k, tick, dir, some lr.key, some r.key, some lk, .internal a b c d⟩
  let st2 := match par with
    | none => st1.setRoot tick dir lk
    | some _ => st1
  let st3 := st2.setNode tick k ((node k lr r).toNode tick dir (some lk))
  let st4 := st3.setNode tick lk ((node lk ll (node k lr r)).toNode tick dir par)
  have h2n : st2.nodes = st1.nodes := by cases par <;> rfl
  have h2c : st2.counter = st.counter := by cases par <;> rfl
  have h2r : ∀ t d, st2.roots t d = if t = tick ∧ d = dir ∧ par = none ∧ k ≠ lk then some lk else st.roots t d := by
    intro t d
    have : k ≠ lk := hklk
    cases par with
    | none => simp [st2, TreeSt.setRoot, st1, this]
    | some _ => simp [st2, st1]
  have n1 : ∀ q, st1.nodes tick q = if q = k then some ⟨k, tick, dir, some lr.key, some r.key, some lk, .internal a b c d⟩
      else if q = lk then some { (node lk ll lr).toNode tick dir par with right := some k }
      else if q = lr.key then some (lr.toNode tick dir (some k)) else st.nodes tick q := by
    intro q; simp only [st1, TreeSt.setNode_nodes]
  have sync1 : syncRangeAndValue ⟨k, tick, dir, some lr.key, some r.key, some lk, .internal a b c d⟩ st2 =
      .ok ((node k lr r).toNode tick dir (some lk)) st3 := by
    refine syncRangeAndValue_spec (pl := some k) (pr := some k) rfl ?_ ?_ hlrh hrh (by omega) (by omega)
    · rw [h2n, n1, if_neg hklr', if_neg hlklr', if_pos rfl]
    · rw [h2n, n1, if_neg hkr', if_neg hlkr', if_neg hrlr']; exact hr1
  have sync2 : syncRangeAndValue { (node lk ll lr).toNode tick dir par with right := some k } st3 =
      .ok ((node lk ll (node k lr r)).toNode tick dir par) st4 := by
    refine syncRangeAndValue_spec (r := node k lr r) (pl := some lk) (pr := some lk) rfl ?_ ?_ hllh ?_ ?_ (by simp only [wt]; omega)
    · show st3.nodes tick ll.key = _
      simp only [st3]
      rw [TreeSt.setNode_ne _ _ _ _ _ hkll', h2n, n1, if_neg hkll', if_neg hlkll', if_neg hlllr']; exact hll1
    · simp [st3, T.key]
    · simp [hi]; omega
    · simp [T.val]; omega
  have n4 : ∀ q, st4.nodes tick q = if q = lk then some ((node lk ll (node k lr r)).toNode tick dir par)
      else if q = k then some ((node k lr r).toNode tick dir (some lk))
      else if q = lr.key then some (lr.toNode tick dir (some k)) else st.nodes tick q := by
    intro q
    simp only [st4, st3, TreeSt.setNode_nodes, h2n, n1]
    split
    · rfl
    · split
      · rfl
      · rfl
  have n4t : ∀ t, t ≠ tick → ∀ q, st4.nodes t q = st.nodes t q := by
    intro t ht q
    simp only [st4, st3, TreeSt.setNode_tick _ _ _ _ _ _ ht, h2n, st1]
  have rep4 : ∀ N', (∀ q ∈ (node k (node lk ll lr) r).keys, N' q = st4.nodes tick q) →
      Rep N' tick dir par (node lk ll (node k lr r)) := by
    intro N' hN'
    have m1 : ∀ q, q ∈ r.keys → N' q = st.nodes tick q := by
      intro q hq
      rw [hN' q (by simp [keys, hq]), n4, if_neg, if_neg, if_neg]
      · rintro rfl; exact hdisjr _ (Or.inr lr.key_mem) _ hq rfl
      · rintro rfl; exact hkr hq
      · rintro rfl; exact hlkr hq
    have m2 : ∀ q, q ∈ ll.keys → N' q = st.nodes tick q := by
      intro q hq
      rw [hN' q (by simp [keys, hq]), n4, if_neg, if_neg, if_neg]
      · rintro rfl; exact hdisj _ hq _ lr.key_mem rfl
      · rintro rfl; exact hkll hq
      · rintro rfl; exact hlkll hq
    refine ⟨?_, hl2.congr m2, ⟨?_, hl3.reparent hndlr ?_ ?_, hr.congr m1⟩⟩
    · rw [hN' lk (by simp [keys]), n4, if_pos rfl]
    · rw [hN' k (by simp [keys]), n4, if_neg hklk, if_pos rfl]
    · rw [hN' _ (by simp [keys, lr.key_mem]), n4, if_neg hlklr', if_neg hklr', if_pos rfl]
    · intro q hq hne
      rw [hN' q (by simp [keys, hq]), n4, if_neg, if_neg, if_neg hne]
      · rintro rfl; exact hklr hq
      · rintro rfl; exact hlklr hq
  have n4out : ∀ q, q ∉ (node k (node lk ll lr) r).keys → st4.nodes tick q = st.nodes tick q := by
    intro q hq
    simp only [keys, List.cons_append, List.mem_cons, List.mem_append, not_or] at hq
    obtain ⟨q1, q2, ⟨q3, q4⟩, q5⟩ := hq
    rw [n4, if_neg q2, if_neg q1, if_neg]
    rintro rfl; exact q4 lr.key_mem
  have c4 : st4.counter = st.counter := by simp [st4, st3, h2c]
  have r4 : st4.roots = st2.roots := by simp [st4, st3]
  unfold rotateRight
  have hgl : st.nodes tick lk = some ((node lk ll lr).toNode tick dir (some k)) := hl1
  cases hp : par with
  | none =>
    subst hp
    refine ⟨st4, ?_, rep4 _ (fun _ _ => rfl), ⟨n4t, fun q hq _ => n4out q hq, by simp, ?_⟩, c4⟩
    · simp only [EM.get_bind, getParent, getLeft, hgl, toNode_right, right?_node, hlr1]
      simp only [save_bind, toNode_tickId, toNode_key]
      rw [if_pos (by simp)]
      simp only [saveRoot_bind]
      refine (EM.bind_ok_of sync1).trans ?_
      exact EM.bind_ok_of sync2
    · intro t d; rw [r4]; exact h2r t d
  | some pk =>
    subst hp
    obtain ⟨hpk, p, hp, hpkey, hptick, hpc⟩ := hpar pk rfl
    refine ⟨st4.setNode tick pk (p.replChild k lk), ?_, rep4 _ ?_, ⟨?_, ?_, ?_, ?_⟩, ?_⟩
    · simp only [EM.get_bind, getParent, getLeft, hgl, toNode_right, right?_node, hlr1, hp]
      simp only [save_bind, toNode_tickId, toNode_key]
      rw [if_neg (by simp)]
      refine (EM.bind_ok_of sync1).trans ?_
      refine (EM.bind_ok_of sync2).trans ?_
      rcases hpc with ⟨p1, p2⟩ | ⟨p1, p2⟩
      · simp [p1, p2, replChild, hpkey, hptick, T.key]
      · simp [p1, p2, replChild, hpkey, hptick, T.key]
    · intro q hq
      rw [TreeSt.setNode_ne]
      rintro rfl; exact hpk hq
    · intro t ht q; rw [TreeSt.setNode_tick _ _ _ _ _ _ ht, n4t t ht]
    · intro q hq hne
      rw [TreeSt.setNode_ne, n4out q hq]
      rintro rfl; exact hne rfl
    · intro pk' p' h h'
      cases h
      rw [hp] at h'; cases h'
      simp
    · intro t d; rw [TreeSt.setNode_roots, r4]; exact h2r t d
    · simp [c4]

end TreeNode
end OB
