import Verif.Proofs.Tree.Rotate
namespace OB
open T

/-- Pure counterpart of `rebalance` on a node with key `k` and children `l`, `r`. -/
def T.rebal (k : Nat) (l r : T) : T :=
  if r.wt ≤ l.wt + 1 ∧ l.wt ≤ r.wt + 1 then node k l r
  else if l.wt < r.wt then
    match r with
    | node rk rl rr =>
      if rl.wt ≤ rr.wt then node rk (node k l rl) rr
      else match rl with
        | node m a b => node m (node k l a) (node rk b rr)
        | leaf .. => node k l r
    | leaf .. => node k l r
  else
    match l with
    | node lk ll lr =>
      if lr.wt ≤ ll.wt then node lk ll (node k lr r)
      else match lr with
        | node m a b => node m (node lk ll a) (node k b r)
        | leaf .. => node k l r
    | leaf .. => node k l r

theorem Frame.comp {st st1 st2 : TreeSt} {tick : Int} {dir : Dir} {par : Option Nat} {k k' ck ck' : Nat}
    {ks1 ks2 ks : List Nat} (f1 : Frame st st1 tick dir (some k) ck ck' ks1) (f2 : Frame st1 st2 tick dir par k k' ks2)
    (h1 : ∀ q ∈ ks1, q ∈ ks) (h2 : ∀ q ∈ ks2, q ∈ ks) (hk : k ∈ ks) (hpar : ∀ pk, par = some pk → pk ∉ ks) :
    Frame st st2 tick dir par k k' ks where
  ticks t ht q := by rw [f2.ticks t ht, f1.ticks t ht]
  nodes q hq hne := by
    rw [f2.nodes q (fun h => hq (h2 q h)) hne, f1.nodes q (fun h => hq (h1 q h))]
    intro h; cases h; exact hq hk
  parent pk p h hp := by
    have hpk := hpar pk h
    refine f2.parent pk p h ?_
    rw [f1.nodes pk (fun h' => hpk (h1 _ h')), hp]
    intro h'; cases h'; exact hpk hk
  roots t d := by
    rw [f2.roots, f1.roots]; simp

theorem ParOk.mono {st st' : TreeSt} {tick : Int} {par : Option Nat} {k : Nat} {ks ks' : List Nat}
    (h : ParOk st tick par k ks) (hks : ∀ q ∈ ks', q ∈ ks)
    (hst : ∀ pk, par = some pk → st'.nodes tick pk = st.nodes tick pk) : ParOk st' tick par k ks' := by
  intro pk hpk
  obtain ⟨h1, p, h2⟩ := h pk hpk
  exact ⟨fun hq => h1 (hks _ hq), p, by rw [hst pk hpk]; exact h2⟩

theorem T.keys_perm_right (k m rk : Nat) (l x y rr : T) :
    (node k l (node m x (node rk y rr))).keys.Perm (node k l (node rk (node m x y) rr)).keys := by
  rw [List.perm_iff_count]; intro q
  simp only [keys, List.count_cons, List.count_append, List.cons_append]; ring

theorem T.keys_perm_left (k m lk : Nat) (ll x y r : T) :
    (node k (node m (node lk ll x) y) r).keys.Perm (node k (node lk ll (node m x y)) r).keys := by
  rw [List.perm_iff_count]; intro q
  simp only [keys, List.count_cons, List.count_append, List.cons_append]; ring

namespace TreeNode

theorem sync_spec {st : TreeSt} {n m : TreeNode} (h : st.nodes n.tickId n.key = some m) : n.sync st = .ok m st := by
  unfold sync; simp [h]

/-- Right height minus left height. -/
def bfac : T → Int
  | leaf .. => 0
  | node _ l r => (r.wt : Int) - (l.wt : Int)

theorem balanceFactor_rep {st : TreeSt} {tick : Int} {dir : Dir} {par : Option Nat} {t : T}
    (h : Rep (st.nodes tick) tick dir par t) (hw : t.wt < 2147483648) :
    (t.toNode tick dir par).balanceFactor st = .ok (bfac t) := by
  cases t with
  | leaf k e v =>
    have e1 : (leaf k e v).left? = none := rfl
    have e2 : (leaf k e v).right? = none := rfl
    simp only [balanceFactor, getLeft, getRight, T.toNode_left, T.toNode_right, e1, e2, Option.map_none,
      Option.getD_none, asI32_small (show 0 < 2147483648 by omega)]
    exact i32Checked_small (by omega) (by omega)
  | node k l r =>
    simp only [wt] at hw
    obtain ⟨_, h2, h3⟩ := h
    exact balanceFactor_spec (pl := some k) (pr := some k) h2.root h3.root (by omega) (by omega)

set_option maxHeartbeats 1000000 in
theorem rebalance_spec {st : TreeSt} {tick : Int} {dir : Dir} {par : Option Nat} {k : Nat} {l r : T}
    {nt : NodeType} {a b c d : Nat} {self : TreeNode} (hnt : nt = .internal a b c d)
    (hst : self.tickId = tick) (hsk : self.key = k)
    (hk : st.nodes tick k = some ⟨k, tick, dir, some l.key, some r.key, par, nt⟩)
    (hl : Rep (st.nodes tick) tick dir (some k) l)
    (hr : Rep (st.nodes tick) tick dir (some k) r)
    (hnd : (node k l r).keys.Nodup)
    (hpar : ParOk st tick par k (node k l r).keys)
    (hlh : l.hi < U256) (hrh : r.hi < U256) (hv : l.val + r.val < U256)
    (hw : (node k l r).wt + 3 < 2147483648) :
    ∃ n st', rebalance self st = .ok n st' ∧
      Rep (st'.nodes tick) tick dir par (T.rebal k l r) ∧
      Frame st st' tick dir par k (T.rebal k l r).key (node k l r).keys ∧ st'.counter = st.counter ∧
      n.tickId = tick ∧ st'.nodes tick n.key = some n := by
  simp only [wt] at hw
  have hl1 := hl.root
  have hr1 := hr.root
  have hgl : getLeft ⟨k, tick, dir, some l.key, some r.key, par, nt⟩ st = some (l.toNode tick dir (some k)) := hl1
  have hgr : getRight ⟨k, tick, dir, some l.key, some r.key, par, nt⟩ st = some (r.toNode tick dir (some k)) := hr1
  have hbf : balanceFactor ⟨k, tick, dir, some l.key, some r.key, par, nt⟩ st = .ok ((r.wt : Int) - (l.wt : Int)) :=
    balanceFactor_spec hgl hgr (by omega) (by omega)
  have hnd0 := hnd
  simp only [keys, List.nodup_cons, List.mem_append, not_or, List.nodup_append] at hnd
  obtain ⟨⟨hkl, hkr⟩, hndl, hndr, hdisj⟩ := hnd
  have hpark : ∀ pk, par = some pk → pk ∉ (node k l r).keys := fun pk h => (hpar pk h).1
  unfold rebalance
  rw [EM.bind_ok_of (sync_spec (m := ⟨k, tick, dir, some l.key, some r.key, par, nt⟩) (by rw [hst, hsk]; exact hk))]
  have hin : isInternal ⟨k, tick, dir, some l.key, some r.key, par, nt⟩ = true := by subst hnt; rfl
  have hch : hasChild ⟨k, tick, dir, some l.key, some r.key, par, nt⟩ = true := rfl
  rw [hin, hch]
  have habs : i32Checked ((((r.wt : Int) - (l.wt : Int)).natAbs : Nat) : Int) = .ok (((r.wt : Int) - (l.wt : Int)).natAbs : Nat) :=
    i32Checked_small (by omega) (by omega)
  simp only [EM.ensure_true_bind, EM.get_bind, hbf, hgl, hgr, EM.lift_ok_bind, habs,
    balanceFactor_rep hl (by omega), balanceFactor_rep hr (by omega)]
  have hkrl : r.key ≠ l.key := fun h => hdisj _ l.key_mem _ r.key_mem h.symm
  have hlr := l.wt_pos
  have hrr := r.wt_pos
  by_cases h1 : r.wt ≤ l.wt + 1 ∧ l.wt ≤ r.wt + 1
  · -- balanced
    rw [if_pos (by omega)]
    have hre : T.rebal k l r = node k l r := by unfold T.rebal; rw [if_pos h1]
    rw [hre]
    rw [syncRangeAndValue_spec hnt hl1 hr1 hlh hrh hv (by omega)]
    refine ⟨_, _, rfl, ?_, ?_, rfl, rfl, by simp⟩
    · refine ⟨by simp, hl.congr ?_, hr.congr ?_⟩
      · intro q hq; rw [TreeSt.setNode_ne]; rintro rfl; exact hkl hq
      · intro q hq; rw [TreeSt.setNode_ne]; rintro rfl; exact hkr hq
    · refine ⟨fun t ht q => TreeSt.setNode_tick _ _ _ _ _ _ ht, ?_, ?_, ?_⟩
      · intro q hq _; rw [TreeSt.setNode_ne]; rintro rfl; exact hq (by simp [keys])
      · intro pk p h hp
        rw [TreeSt.setNode_ne]
        · simp [replChild_self, hp]
        · rintro rfl; exact hpark _ h (by simp [keys])
      · intro t d; simp
  rw [if_neg (by omega)]
  simp only [EM.lift_ok_bind]
  by_cases h2 : l.wt < r.wt
  · -- right heavy
    cases r with
    | leaf => simp [wt] at h2 h1; omega
    | node rk rl rr =>
      obtain ⟨hr0, hr2, hr3⟩ := hr
      have hb : bfac (node rk rl rr) = (rr.wt : Int) - (rl.wt : Int) := rfl
      rw [hb]
      have hw' : max l.wt (max rl.wt rr.wt + 1) + 1 + 3 < 2147483648 := hw
      simp only [hi, val] at hrh hv
      by_cases h3 : rl.wt ≤ rr.wt
      · rw [if_pos (by omega)]
        have hre : T.rebal k l (node rk rl rr) = node rk (node k l rl) rr := by
          unfold T.rebal; rw [if_neg h1, if_pos h2]; simp [h3]
        rw [hre]
        obtain ⟨st', e, R, F, C⟩ := rotateLeft_spec (st := st) (par := par) hnt hl ⟨hr0, hr2, hr3⟩ hnd0 hpar hlh
          (by omega) (by omega) (by omega) (by simp only [wt]; omega)
        exact ⟨_, st', e, R, F, C, rfl, R.2.1.1⟩
      · rw [if_neg (by omega), if_neg (by omega), if_pos (by omega)]
        cases rl with
        | leaf => simp [wt] at h3; have := rr.wt_pos; omega
        | node m x y =>
          simp only [hi, val] at hrh hv
          have hre : T.rebal k l (node rk (node m x y) rr) = node m (node k l x) (node rk y rr) := by
            unfold T.rebal; rw [if_neg h1, if_pos h2]; simp [h3]
          rw [hre]
          have hpar1 : ParOk st tick (some k) rk (node rk (node m x y) rr).keys := by
            intro pk hpk
            cases hpk
            refine ⟨hkr, _, hk, rfl, rfl, Or.inr ⟨?_, rfl⟩⟩
            intro h; exact hkrl (Option.some.inj h).symm
          obtain ⟨st1, e1, R1, F1, C1⟩ := rotateRight_spec (st := st) (par := some k) (k := rk) (r := rr)
            (nt := (node rk (node m x y) rr).ntype) rfl hr2 hr3 hndr hpar1
            (by omega) (by omega) (by omega) (by omega) (by simp only [wt] at hw' ⊢; omega)
          have e1' : ((node rk (node m x y) rr).toNode tick dir (some k)).rotateRight st =
            .ok ((node rk y rr).toNode tick dir (some m)) st1 := e1
          simp only [EM.bind_ok_of e1']
          have hlne : l.key ≠ rk := fun h => hkrl h.symm
          have hk1 : st1.nodes tick k = some ⟨k, tick, dir, some l.key, some m, par, nt⟩ := by
            rw [F1.parent k _ rfl hk]
            simp [replChild, hlne]
          rw [EM.bind_ok_of (sync_spec (m := ⟨k, tick, dir, some l.key, some m, par, nt⟩) hk1)]
          have hmem : ∀ q, q ∈ (node k l (node m x (node rk y rr))).keys ↔ q ∈ (node k l (node rk (node m x y) rr)).keys :=
            fun q => (keys_perm_right k m rk l x y rr).mem_iff
          have hnd' : (node k l (node m x (node rk y rr))).keys.Nodup :=
            (List.Perm.nodup_iff (keys_perm_right k m rk l x y rr)).mpr hnd0
          have hl' : Rep (st1.nodes tick) tick dir (some k) l := by
            refine hl.congr (fun q hq => F1.nodes q ?_ ?_)
            · intro h; exact hdisj _ hq _ h rfl
            · intro h; cases h; exact hkl hq
          have hpar' : ParOk st1 tick par k (node k l (node m x (node rk y rr))).keys := by
            refine hpar.mono (fun q hq => (hmem q).1 hq) ?_
            intro pk hpk
            refine F1.nodes pk ?_ ?_
            · intro h; exact hpark pk hpk (List.mem_cons_of_mem _ (List.mem_append.2 (Or.inr h)))
            · intro h; cases h; exact hpark _ hpk (by simp [keys])
          obtain ⟨st2, e2, R2, F2, C2⟩ := rotateLeft_spec (st := st1) (par := par) hnt hl' R1 hnd' hpar' hlh
            (by omega) (by simp only [hi]; omega) (by simp only [val]; omega) (by simp only [wt] at hw' ⊢; omega)
          refine ⟨_, st2, e2, R2, ?_, by rw [C2, C1], rfl, R2.2.1.1⟩
          exact F1.comp F2 (fun q hq => List.mem_cons_of_mem _ (List.mem_append.2 (Or.inr hq)))
            (fun q hq => (hmem q).1 hq) (by simp [keys]) hpark
  · -- left heavy
    cases l with
    | leaf => simp [wt] at h2 h1; omega
    | node lk ll lr =>
      obtain ⟨hl0, hl2, hl3⟩ := hl
      have hb : bfac (node lk ll lr) = (lr.wt : Int) - (ll.wt : Int) := rfl
      rw [hb, if_neg (by omega)]
      have hw' : max (max ll.wt lr.wt + 1) r.wt + 1 + 3 < 2147483648 := hw
      simp only [hi, val] at hlh hv
      by_cases h3 : lr.wt ≤ ll.wt
      · rw [if_pos (by omega)]
        have hre : T.rebal k (node lk ll lr) r = node lk ll (node k lr r) := by
          unfold T.rebal; rw [if_neg h1, if_neg h2]; simp [h3]
        rw [hre]
        obtain ⟨st', e, R, F, C⟩ := rotateRight_spec (st := st) (par := par) hnt ⟨hl0, hl2, hl3⟩ hr hnd0 hpar
          (by omega) (by omega) hrh (by omega) (by simp only [wt]; omega)
        exact ⟨_, st', e, R, F, C, rfl, R.2.2.1⟩
      · rw [if_neg (by omega), if_neg (by omega), if_pos (by omega)]
        cases lr with
        | leaf => simp [wt] at h3; have := ll.wt_pos; omega
        | node m x y =>
          simp only [hi, val] at hlh hv
          have hre : T.rebal k (node lk ll (node m x y)) r = node m (node lk ll x) (node k y r) := by
            unfold T.rebal; rw [if_neg h1, if_neg h2]; simp [h3]
          rw [hre]
          have hpar1 : ParOk st tick (some k) lk (node lk ll (node m x y)).keys := by
            intro pk hpk
            cases hpk
            refine ⟨hkl, _, hk, rfl, rfl, Or.inl ⟨rfl, ?_⟩⟩
            intro h; cases h; exact hkrl rfl
          obtain ⟨st1, e1, R1, F1, C1⟩ := rotateLeft_spec (st := st) (par := some k) (k := lk) (l := ll)
            (nt := (node lk ll (node m x y)).ntype) rfl hl2 hl3 hndl hpar1
            (by omega) (by omega) (by omega) (by omega) (by simp only [wt] at hw' ⊢; omega)
          have e1' : ((node lk ll (node m x y)).toNode tick dir (some k)).rotateLeft st =
            .ok ((node lk ll x).toNode tick dir (some m)) st1 := e1
          simp only [EM.bind_ok_of e1']
          have hk1 : st1.nodes tick k = some ⟨k, tick, dir, some m, some r.key, par, nt⟩ := by
            rw [F1.parent k _ rfl hk]
            simp [replChild]
          rw [EM.bind_ok_of (sync_spec (m := ⟨k, tick, dir, some m, some r.key, par, nt⟩) hk1)]
          have hmem : ∀ q, q ∈ (node k (node m (node lk ll x) y) r).keys ↔ q ∈ (node k (node lk ll (node m x y)) r).keys :=
            fun q => (keys_perm_left k m lk ll x y r).mem_iff
          have hnd' : (node k (node m (node lk ll x) y) r).keys.Nodup :=
            (List.Perm.nodup_iff (keys_perm_left k m lk ll x y r)).mpr hnd0
          have hr' : Rep (st1.nodes tick) tick dir (some k) r := by
            refine hr.congr (fun q hq => F1.nodes q ?_ ?_)
            · intro h; exact hdisj _ h _ hq rfl
            · intro h; cases h; exact hkr hq
          have hpar' : ParOk st1 tick par k (node k (node m (node lk ll x) y) r).keys := by
            refine hpar.mono (fun q hq => (hmem q).1 hq) ?_
            intro pk hpk
            refine F1.nodes pk ?_ ?_
            · intro h; exact hpark pk hpk (List.mem_cons_of_mem _ (List.mem_append.2 (Or.inl h)))
            · intro h; cases h; exact hpark _ hpk (by simp [keys])
          obtain ⟨st2, e2, R2, F2, C2⟩ := rotateRight_spec (st := st1) (par := par) hnt R1 hr' hnd' hpar'
            (by simp only [hi]; omega) (by omega) hrh (by simp only [val]; omega) (by simp only [wt] at hw' ⊢; omega)
          refine ⟨_, st2, e2, R2, ?_, by rw [C2, C1], rfl, R2.2.2.1⟩
          exact F1.comp F2 (fun q hq => List.mem_cons_of_mem _ (List.mem_append.2 (Or.inl hq)))
            (fun q hq => (hmem q).1 hq) (by simp [keys]) hpark

end TreeNode
end OB
