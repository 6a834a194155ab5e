import Verif.Proofs.Claim
/- cancel_limit -/
namespace OB
open T TreeNode

/-- Store of a cancel after the sync, given the sumtrees after the insertion. -/
def cancelledStore (s : Store) (tr : TreeSt) (tick : Int) (dir : Dir) (ts : TickState) (id amount : Nat) : Store :=
  { s with
    trees := tr
    orders := s.orders.erase (tick, id)
    ticks := s.ticks.insert tick (ts.setValues dir { ts.getValues dir with tal := (ts.getValues dir).tal - amount * D })
    dirLiq := fun d => if d = dir then some (getDirectionalLiquidity s dir - amount * D) else s.dirLiq d }

theorem cancelledStore_dirLiq (s : Store) (tr : TreeSt) (tick : Int) (dir : Dir) (ts : TickState) (id amount : Nat) :
    (cancelledStore s tr tick dir ts id amount).dirLiq =
      fun d => if d = dir then some (getDirectionalLiquidity s dir - amount * D) else s.dirLiq d := rfl

theorem nonpayable_eq_ok {funds : List Coin} : nonpayable funds = .ok () ↔ funds = [] := by
  unfold nonpayable
  cases funds <;> simp

theorem leavesOf_cancel {p q : List Entry} {x : Entry} (hx : x.cancelled = false) :
    leavesOf 0 (p ++ x :: q) = leavesOf 0 p ++ leavesOf (sumBy Entry.placed p + x.placed) q ∧
    leavesOf 0 (p ++ { x with cancelled := true } :: q) =
      leavesOf 0 p ++ (sumBy Entry.placed p + x.claimed, x.placed - x.claimed) ::
        leavesOf (sumBy Entry.placed p + x.placed) q := by
  rw [leavesOf_append, leavesOf_append]
  simp [leavesOf, hx]

theorem scale_append (L R : List (Nat × Nat)) : scale (L ++ R) = scale L ++ scale R := by simp [scale]
theorem scale_cons (y : Nat × Nat) (R : List (Nat × Nat)) : scale (y :: R) = (D * y.1, D * y.2) :: scale R := by simp [scale]

theorem leaf_room {p q : List Entry} {x : Entry} (hok : ∀ y ∈ p ++ x :: q, EntryOk y) (hx : x.cancelled = false)
    (hlt : x.claimed < x.placed) :
    Disj (D * (sumBy Entry.placed p + x.claimed)) ((x.placed - x.claimed) * D) (scale (leavesOf 0 (p ++ x :: q))) ∧
    insL (D * (sumBy Entry.placed p + x.claimed)) ((x.placed - x.claimed) * D) (scale (leavesOf 0 (p ++ x :: q))) =
      scale (leavesOf 0 (p ++ { x with cancelled := true } :: q)) := by
  obtain ⟨e1, e2⟩ := leavesOf_cancel (p := p) (q := q) hx
  rw [e1, e2, scale_append, scale_append, scale_cons, Nat.mul_comm (x.placed - x.claimed)]
  have hp : ∀ y ∈ p, EntryOk y := fun y hy => hok y (by simp [hy])
  have hq : ∀ y ∈ q, EntryOk y := fun y hy => hok y (by simp [hy])
  have bp : ∀ y ∈ scale (leavesOf 0 p), y.1 + y.2 ≤ D * (sumBy Entry.placed p) := by
    intro y hy
    simp only [scale, List.mem_map] at hy
    obtain ⟨z, hz, rfl⟩ := hy
    have := (leavesOf_bounds hp z hz).2.2
    simp only
    rw [← Nat.mul_add]; exact Nat.mul_le_mul_left _ (by omega)
  have bq : ∀ y ∈ scale (leavesOf (sumBy Entry.placed p + x.placed) q), D * (sumBy Entry.placed p + x.placed) ≤ y.1 := by
    intro y hy
    simp only [scale, List.mem_map] at hy
    obtain ⟨z, hz, rfl⟩ := hy
    have := (leavesOf_bounds hq z hz).1
    exact Nat.mul_le_mul_left _ (by omega)
  have m1 : D * (sumBy Entry.placed p) ≤ D * (sumBy Entry.placed p + x.claimed) := Nat.mul_le_mul_left _ (by omega)
  have m2 : D * (sumBy Entry.placed p + x.claimed) + D * (x.placed - x.claimed) = D * (sumBy Entry.placed p + x.placed) := by
    rw [← Nat.mul_add]; congr 1; omega
  have m3 : 0 < D * (x.placed - x.claimed) := Nat.mul_pos D_pos (by omega)
  constructor
  · intro y hy
    rcases List.mem_append.1 hy with hy | hy
    · left; exact (bp y hy).trans m1
    · right; rw [m2]; exact bq y hy
  · rw [insL_append_right]
    · congr 1
      exact insL_append_left (L := []) (fun y hy => by have := bq y hy; omega)
    · intro y hy; have := bp y hy; omega

theorem Rel.cancelled {s1 : Store} {b : Book} (h : Rel s1 b) {tick : Int} {dir : Dir} {p q : List Entry}
    {x : Entry} (hsp : b tick dir = p ++ x :: q) (hl : x.Live) {r : Nat} {ts : TickState}
    (hts : s1.ticks.get? tick = some ts) (hr : SideRel (tv s1 tick dir) (p ++ x :: q) r)
    (hrs : rs (sumBy Entry.filled (p ++ x :: q)) (p ++ x :: q) ≤ r) (hno : ¬ x.claimed < x.filled)
    {tr : TreeSt} {rt' : RT} (hrep : RootRep tr tick dir rt')
    (hleaves : rt'.leaves = scale (leavesOf 0 (p ++ { x with cancelled := true } :: q)))
    (hframe : SideFrame s1.trees tr tick dir) (hfresh : tr.Fresh tick) :
    Rel (cancelledStore s1 tr tick dir ts x.id (x.placed - x.claimed))
      (b.set tick dir (p ++ { x with cancelled := true } :: q)) := by
  set x' : Entry := { x with cancelled := true } with hx'
  set amt := x.placed - x.claimed with hamt
  set s' := cancelledStore s1 tr tick dir ts x.id amt with hs'
  obtain ⟨-, -, hS⟩ := claim_amount hr hrs hl
  have hS := hS hno
  have hokx := hr.ok x (by simp)
  have hcl := hokx.claimed_le
  have hfl := hokx.filled_le
  have hlt := hl.2
  have hfc : x.filled = x.claimed := by omega
  have hcx : x.cap = x.placed := by simp [Entry.cap, hl.1]
  have hcx' : x'.cap = x.claimed := by simp [hx', Entry.cap]
  have hlx : x.left = amt := by simp [Entry.left, hl.1, hamt, hfc]
  have hlx' : x'.left = 0 := by simp [Entry.left, hx']
  have hsum : ∀ f : Entry → Nat, f x' = f x → sumBy f (p ++ x' :: q) = sumBy f (p ++ x :: q) := by
    intro f hf; simp [hf]
  set v := ts.getValues dir with hv
  have htv1 : tv s1 tick dir = v := tv_of_get hts dir
  rw [htv1] at hr
  have htal : v.tal = amt * D + D * (sumBy Entry.left p + sumBy Entry.left q) := by
    rw [hr.tal]; simp only [sumBy_append, sumBy_cons, hlx]; ring
  set ts' := ts.setValues dir { v with tal := v.tal - amt * D } with hts'
  have hticks : s'.ticks = s1.ticks.insert tick ts' := rfl
  have hget : s'.ticks.get? tick = some ts' := by rw [hticks]; simp
  have htv' : tv s' tick dir = { v with tal := v.tal - amt * D } := by
    rw [tv_of_get hget, hts', getValues_setValues_self]
  have htvne : ∀ d, d ≠ dir → tv s' tick d = tv s1 tick d := by
    intro d hd
    rw [tv_of_get hget, tv_of_get hts, hts', getValues_setValues_ne _ _ hd]
  obtain ⟨hd1, hd2⟩ := cancel_done (x' := x') hl.1 hlt hS hcx' hr.done
  refine Rel.update (x' := x') (s' := s') h hsp ⟨rfl, rfl, rfl, rfl, rfl⟩ (by omega) rfl ?_ ?_ ?_ ?_ htvne hframe.tick hfresh ?_ ?_ ?_ ?_
  · refine ⟨r, rt', ?_, hrep, hleaves⟩
    rw [htv']
    refine ⟨by rw [hsum _ rfl]; exact hr.ctv, by rw [hsum _ rfl]; exact hr.etas, hr.crc, ?_, ?_, ?_, ?_, hr.sync_le, ?_, hr.bound⟩
    · simp only [sumBy_append, sumBy_cons, hlx', Nat.zero_add]
      rw [htal]; exact Nat.add_sub_cancel_left ..
    · have hf := hr.fifo
      rw [hsum _ rfl]
      rw [fifo_append] at hf ⊢
      refine ⟨hf.1, ?_⟩
      simp only [Fifo] at hf ⊢
      rw [hS, hcx'] 
      rw [hS, hcx] at hf
      refine ⟨by show x.filled = _; omega, ?_⟩
      have e1 : x.claimed - x.claimed = 0 := by omega
      have e2 : x.claimed - x.placed = 0 := by omega
      rw [e1]; rw [e2] at hf; exact hf.2.2
    · intro y hy
      simp only [List.mem_append, List.mem_cons] at hy
      rcases hy with hy | rfl | hy
      · exact hr.ok y (by simp [hy])
      · exact ⟨hokx.pos, hokx.lt, hcl, hfl, fun _ => ⟨hfc, hlt⟩⟩
      · exact hr.ok y (by simp [hy])
    · rw [hsum _ rfl]; exact hd1
    · intro hh
      rw [hsum _ rfl, hd2]; exact hrs
  · rw [hticks]; exact h.ticksSorted.insert _ _
  · rw [hget]; simp
  · intro t ht
    rw [hticks]; exact SMap.get?_insert_ne _ _ ht
  · intro d rt hd hrr
    exact hrr.frame hframe (Or.inr hd)
  · rw [if_neg (by simp [Entry.Live, hx'])]
    rfl
  · intro d
    have h2 := sumTal_insert h.ticksSorted tick ts' d
    have h1 := h.liq d
    unfold sumTal
    rw [hticks]
    by_cases hd : d = dir
    · subst hd
      have h3 : (ts'.getValues d).tal = v.tal - amt * D := by rw [hts', getValues_setValues_self]
      have h4 : getDirectionalLiquidity s' d = getDirectionalLiquidity s1 d - amt * D :=
        getLiq_of_dirLiq (cancelledStore_dirLiq ..) rfl
      have h5 : amt * D ≤ v.tal := by rw [htal]; exact Nat.le_add_right _ _
      have h6 : v.tal ≤ sumTal s1 d := by
        have := SMap.le_total (f := fun _ ts => (ts.getValues d).tal) hts
        exact this
      rw [h4]
      rw [h3, htv1] at h2
      generalize amt * D = z at *
      omega
    · have h3 : (ts'.getValues d).tal = (tv s1 tick d).tal := by
        rw [hts', getValues_setValues_ne _ _ hd, tv_of_get hts]
      have h4 : getDirectionalLiquidity s' d = getDirectionalLiquidity s1 d := by
        simp [getDirectionalLiquidity, hs', cancelledStore, hd]
      omega
  · intro d
    by_cases hd : d = dir
    · subst hd
      rw [show getDirectionalLiquidity s' d = _ from getLiq_of_dirLiq (cancelledStore_dirLiq ..) rfl]
      exact Nat.sub_le _ _
    · have h4 : getDirectionalLiquidity s' d = getDirectionalLiquidity s1 d := by
        simp [getDirectionalLiquidity, hs', cancelledStore, hd]
      rw [h4]

/-- What a cancellation does to the trees. -/
def CancelFrame (st st' : TreeSt) (tick : Int) (dir : Dir) : Prop :=
  SideFrame st st' tick dir ∧ st'.cnt tick ≤ st.cnt tick + 2 ∧ ∃ rt rt', RootRep st tick dir rt ∧ RootRep st' tick dir rt' ∧
    (∀ q ∈ rt.ids, q ∈ rt'.ids) ∧ ∀ q, q ∉ rt'.ids → st'.nodes tick q = st.nodes tick q

/-- The cancellation of a live order by its owner. -/
theorem cancelLimit_some {s : Store} {b : Book} (h : Rel s b) (env : Env) {tick : Int} {dir : Dir} {p q : List Entry}
    {x : Entry} (hsp : b tick dir = p ++ x :: q) (hl : x.Live) {ob : Orderbook} (hob : s.orderbook = some ob) :
    (¬ s.trees.cnt tick + 4 < U64 ∧ ∃ s', cancelLimit env ⟨x.owner, []⟩ tick x.id s = .err .panic s') ∨
    ∃ s1, Synced s s1 b tick ∧
      ((x.claimed < x.filled ∧ cancelLimit env ⟨x.owner, []⟩ tick x.id s = .err .cancelFilledOrder s1) ∨
       (x.filled = x.claimed ∧ ∃ tr ts1, s1.ticks.get? tick = some ts1 ∧
        cancelLimit env ⟨x.owner, []⟩ tick x.id s =
          .ok { msgs := [⟨x.owner, ⟨ob.expectedDenom dir, x.placed - x.claimed⟩, REPLY_ID_REFUND⟩],
                events := [.cancelLimit x.owner tick x.id (x.placed - x.claimed) dir x.placed (ob.expectedDenom dir)
                  (ob.oppositeDenom dir)] }
            (cancelledStore s1 tr tick dir ts1 x.id (x.placed - x.claimed)) ∧
        CancelFrame s1.trees tr tick dir ∧
        Rel (cancelledStore s1 tr tick dir ts1 x.id (x.placed - x.claimed))
          (b.set tick dir (p ++ { x with cancelled := true } :: q)))) := by
  have hne : b tick dir ≠ [] := by rw [hsp]; simp
  obtain ⟨ts, hts⟩ := h.known_of_ne hne
  have hord : s.orders.get? (tick, x.id) = some (orderOf tick dir (sumBy Entry.placed p) x) :=
    (h.orders _ _ _).2 ⟨dir, p, x, q, hsp, hl, rfl, rfl⟩
  unfold cancelLimit
  have hnp : nonpayable (MessageInfo.mk x.owner []).funds = .ok () := rfl
  simp only [hnp, EM.lift_ok_bind, EM.get_bind, hord, orderOf, decide_true, EM.ensure_true_bind, hts, Option.getD_some]
  rcases syncTick_spec h hts with ⟨hc, s', hs'⟩ | ⟨s1, e1, hs1⟩
  · left
    exact ⟨by omega, s', by rw [EM.bind_err_of hs']⟩
  rw [EM.bind_ok_of e1]
  obtain ⟨ts1, hts1⟩ := Option.ne_none_iff_exists'.1 hs1.known
  obtain ⟨r0, r', -, hr', hrs, -, -, -⟩ := hs1.sides dir
  rw [hsp] at hr' hrs
  have hokx := hr'.ok x (by simp)
  obtain ⟨ha1, ha2, ha3⟩ := claim_amount hr' hrs hl
  rw [tv_of_get hts1] at ha1 ha2
  have hcl := hokx.claimed_le
  have hfl := hokx.filled_le
  have hxlt := hokx.lt
  have hlt := hl.2
  simp only [EM.get_bind, hts1, Option.getD_some]
  by_cases hpos : x.claimed < x.filled
  · right
    refine ⟨s1, hs1, Or.inl ⟨hpos, ?_⟩⟩
    have : ¬ (ts1.getValues dir).etas ≤ D * (sumBy Entry.placed p + x.claimed) := by
      have := ha1.2 hpos; omega
    simp only [this, decide_false, EM.ensure_false_bind]
  have hle : (ts1.getValues dir).etas ≤ D * (sumBy Entry.placed p + x.claimed) := by
    by_contra hh; exact hpos (ha1.1 (by omega))
  simp only [hle, decide_true, EM.ensure_true_bind]
  obtain ⟨r, rt, a1, a2, a3⟩ := hs1.rel.sides tick dir
  rw [hsp] at a1 a3
  obtain ⟨hdisj, hins⟩ := leaf_room hr'.ok hl.1 hlt
  rw [← a3] at hdisj hins
  have hsumP := sum_cap_gap hr'.ok
  have hbound := hr'.bound
  rw [hr'.ctv] at hbound
  have hle2 : ∀ y ∈ rt.leaves, y.1 + y.2 < U256 := by
    intro y hy
    rw [a3] at hy
    simp only [scale, List.mem_map] at hy
    obtain ⟨z, hz, rfl⟩ := hy
    have := (leavesOf_bounds hr'.ok z hz).2.2
    simp only
    rw [← Nat.mul_add]
    exact lt_of_le_of_lt (Nat.mul_le_mul_left _ (by omega)) hbound
  have hh : (x.placed - x.claimed) * D + D * (sumBy Entry.placed p + x.claimed) < U256 := by
    refine lt_of_le_of_lt ?_ hbound
    rw [Nat.mul_comm (x.placed - x.claimed), ← Nat.mul_add]
    refine Nat.mul_le_mul_left _ ?_
    simp only [sumBy_append, sumBy_cons]; omega
  have hsv : sumv rt.leaves + (x.placed - x.claimed) * D < U256 := by
    refine lt_of_le_of_lt ?_ hbound
    rw [a3, sumv_scale, leavesOf_sum, Nat.mul_comm (x.placed - x.claimed), ← Nat.mul_add]
    refine Nat.mul_le_mul_left _ ?_
    rw [← hsumP]
    have hcx : x.cap = x.placed := by simp [Entry.cap, hl.1]
    simp only [sumBy_append, sumBy_cons, hcx]; omega
  have hfr : fromRatio (x.placed - x.claimed) 1 = .ok ((x.placed - x.claimed) * D) := fromRatio_one (by omega)
  by_cases h64 : s1.trees.cnt tick + rt.need < U64
  swap
  · left
    refine ⟨?_, ?_⟩
    · have := hs1.cnt
      have : rt.need ≤ 2 := by cases rt <;> simp [RT.need]
      omega
    · rcases cancelTree_exhausted a2 h64 hdisj hle2 hh with ⟨st1, g1⟩ | ⟨root, st1, st2, g1, g2⟩ | ⟨root, st1, nk, st2, st3, g1, g2, g3⟩
      · refine ⟨{ s1 with trees := st1 }, ?_⟩
        rw [EM.bind_err_of (s' := { s1 with trees := st1 })]
        simp only [liftTree, g1]
      · refine ⟨{ s1 with trees := st2 }, ?_⟩
        rw [EM.bind_ok_of (liftTree_ok_of g1), EM.bind_err_of (s' := { s1 with trees := st2 })]
        simp only [liftTree, g2]
      · refine ⟨{ s1 with trees := st3 }, ?_⟩
        rw [EM.bind_ok_of (liftTree_ok_of g1), EM.bind_ok_of (liftTree_ok_of (s := { s1 with trees := st1 }) g2)]
        simp only [EM.get_bind, hts1, hfr, EM.lift_ok_bind]
        rw [EM.bind_err_of (s' := { s1 with trees := st3 })]
        simp only [liftTree, g3]
  right
  refine ⟨s1, hs1, Or.inr ⟨by omega, ?_⟩⟩
  obtain ⟨root, st1, nk, st2, n, st3, rt', g1, g2, g3, g4, g5, g6, g7, g8, g9, g10, g11⟩ :=
    cancelTree_spec a2 (hs1.rel.fresh tick) h64 (Nat.mul_pos (by omega) D_pos) hdisj hle2 hh hsv
  refine ⟨st3, ts1, hts1, ?_, ⟨g7, g9, rt, rt', a2, g5, g10, g11⟩, ?_⟩
  swap
  · exact hs1.rel.cancelled hsp hl hts1 hr' hrs hpos g5 (by rw [g6, hins]) g7 g8
  rw [EM.bind_ok_of (liftTree_ok_of g1), EM.bind_ok_of (liftTree_ok_of (s := { s1 with trees := st1 }) g2)]
  simp only [EM.get_bind, hts1, hfr, EM.lift_ok_bind]
  rw [EM.bind_ok_of (liftTree_ok_of (s := { s1 with trees := st2 }) g3)]
  have hob1 : s1.orderbook = some ob := by rw [hs1.store]; exact hob
  rw [EM.bind_ok_of (loadOrderbook_some (s := { s1 with trees := st3 }) hob1)]
  simp only [removeOrder, EM.modify_bind]
  have htal : (x.placed - x.claimed) * D ≤ (ts1.getValues dir).tal := by
    have := hr'.tal
    rw [tv_of_get hts1] at this
    rw [this, Nat.mul_comm]
    refine Nat.mul_le_mul_left _ ?_
    have : x.left = x.placed - x.filled := by simp [Entry.left, hl.1]
    simp only [sumBy_append, sumBy_cons, this]; omega
  simp only [checkedSub_ok htal, EM.lift_ok_bind, saveTick, EM.modify_bind, subtractDirectionalLiquidity]
  have hliq : (x.placed - x.claimed) * D ≤ getDirectionalLiquidity s1 dir := by
    rw [hs1.rel.liq]
    refine htal.trans ?_
    exact SMap.le_total (f := fun _ ts => (ts.getValues dir).tal) hts1
  have hsubl : ∀ s2 : Store, s2.dirLiq = s1.dirLiq → checkedSub (getDirectionalLiquidity s2 dir) ((x.placed - x.claimed) * D) =
      .ok (getDirectionalLiquidity s1 dir - (x.placed - x.claimed) * D) := by
    intro s2 h2
    have : getDirectionalLiquidity s2 dir = getDirectionalLiquidity s1 dir := by unfold getDirectionalLiquidity; rw [h2]
    rw [this, checkedSub_ok hliq]
  rw [EM.bind_ok_of (a := ()) (s' := cancelledStore s1 st3 tick dir ts1 x.id (x.placed - x.claimed))]
  · rw [EM.bind_ok_of (liftTree_ok_of (s := cancelledStore s1 st3 tick dir ts1 x.id (x.placed - x.claimed)) (a := ()) (t := st3) g4)]
    rfl
  · simp only [EM.get_bind]
    simp only [hsubl]
    simp only [EM.lift_ok_bind, saveDirLiq, EM.modify_apply]
    rfl

theorem cancelLimit_none {s : Store} {env : Env} {sender : Addr} {tick : Int} {id : Nat}
    (hn : s.orders.get? (tick, id) = none) :
    cancelLimit env ⟨sender, []⟩ tick id s = .err (.orderNotFound tick id) s := by
  unfold cancelLimit
  have hnp : nonpayable (MessageInfo.mk sender []).funds = .ok () := rfl
  simp only [hnp, EM.lift_ok_bind, EM.get_bind, hn]
  rfl

theorem cancelLimit_unauthorized {s : Store} {env : Env} {sender : Addr} {tick : Int} {id : Nat} {o : LimitOrder}
    (hn : s.orders.get? (tick, id) = some o) (hs : sender ≠ o.owner) :
    cancelLimit env ⟨sender, []⟩ tick id s = .err .unauthorized s := by
  unfold cancelLimit
  have hnp : nonpayable (MessageInfo.mk sender []).funds = .ok () := rfl
  simp only [hnp, EM.lift_ok_bind, EM.get_bind, hn, hs, decide_false, EM.ensure_false_bind]

theorem cancelLimit_payable {s : Store} {env : Env} {info : MessageInfo} {tick : Int} {id : Nat} (hf : info.funds ≠ []) :
    cancelLimit env info tick id s = .err (.payment .nonPayable) s := by
  unfold cancelLimit
  have hnp : nonpayable info.funds = .error (.payment .nonPayable) := by
    unfold nonpayable; cases h : info.funds <;> simp_all
  simp only [hnp, EM.lift_error_bind]

end OB
