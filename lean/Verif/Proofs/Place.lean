import Verif.Proofs.Rel
/- place_limit -/
namespace OB

theorem loadOrderbook_some {s : Store} {ob : Orderbook} (h : s.orderbook = some ob) : loadOrderbook s = .ok ob s := by
  unfold loadOrderbook
  simp only [EM.get_bind, h]
  rfl

theorem loadOrderbook_none {s : Store} (h : s.orderbook = none) : loadOrderbook s = .err .std s := by
  unfold loadOrderbook
  simp only [EM.get_bind, h]
  rfl

theorem loadOrderbook_eq_ok {s s' : Store} {ob : Orderbook} :
    loadOrderbook s = .ok ob s' ↔ s.orderbook = some ob ∧ s' = s := by
  cases h : s.orderbook with
  | none => rw [loadOrderbook_none h]; simp
  | some x => rw [loadOrderbook_some h]; simp [eq_comm]

theorem newOrderId_eq_ok {s s' : Store} {id : Nat} :
    newOrderId s = .ok id s' ↔ s.orderId.getD 0 + 1 < U64 ∧ id = s.orderId.getD 0 ∧
      s' = { s with orderId := some (s.orderId.getD 0 + 1) } := by
  unfold newOrderId
  simp only [EM.get_bind]
  by_cases h : s.orderId.getD 0 + 1 < U64
  · simp only [u64Succ_ok h, EM.lift_ok_bind, EM.modify_bind, EM.pure_eq_ok, h, true_and]
  · simp [u64Succ, h]

/-- The order entered by a successful placement. -/
def placedOrder (s : Store) (tick : Int) (dir : Dir) (owner : Addr) (q : Nat) (cb : Option Nat) (time : Nat) : LimitOrder :=
  LimitOrder.new tick (s.orderId.getD 0) dir owner q (tv s tick dir).ctv cb time

/-- Store after a successful placement. -/
def placedStore (s : Store) (ob : Orderbook) (tick : Int) (dir : Dir) (owner : Addr) (q : Nat) (cb : Option Nat) (time : Nat) :
    Store :=
  { s with
    orderId := some (s.orderId.getD 0 + 1)
    orderbook := some (ob.withPlaced tick dir)
    orders := s.orders.insert (tick, s.orderId.getD 0) (placedOrder s tick dir owner q cb time)
    ticks := s.ticks.insert tick (((s.ticks.get? tick).getD .default).setValues dir
      { tv s tick dir with tal := (tv s tick dir).tal + q * D, ctv := (tv s tick dir).ctv + q * D })
    dirLiq := fun d => if d = dir then some (getDirectionalLiquidity s dir + q * D) else s.dirLiq d }

theorem placedStore_dirLiq (s : Store) (ob : Orderbook) (tick : Int) (dir : Dir) (owner : Addr) (q : Nat) (cb : Option Nat)
    (time : Nat) : (placedStore s ob tick dir owner q cb time).dirLiq =
      fun d => if d = dir then some (getDirectionalLiquidity s dir + q * D) else s.dirLiq d := rfl

theorem getLiq_of_dirLiq {s : Store} {f : Dir → Option Nat} {d dir : Dir} {z : Nat}
    (h : s.dirLiq = fun d => if d = dir then some z else f d) (hd : d = dir) : getDirectionalLiquidity s d = z := by
  subst hd
  unfold getDirectionalLiquidity
  rw [h]
  simp

theorem placedStore_liq_self (s : Store) (ob : Orderbook) (tick : Int) (dir : Dir) (owner : Addr) (q : Nat) (cb : Option Nat)
    (time : Nat) : getDirectionalLiquidity (placedStore s ob tick dir owner q cb time) dir =
      getDirectionalLiquidity s dir + q * D := getLiq_of_dirLiq (placedStore_dirLiq ..) rfl

theorem mustPay_eq_ok {funds : List Coin} {denom : Denom} {n : Nat} :
    mustPay funds denom = .ok n ↔ n ≠ 0 ∧ funds = [⟨denom, n⟩] := by
  unfold mustPay
  split
  · simp
  · rename_i c
    obtain ⟨d, a⟩ := c
    simp only
    split
    · subst_vars; simp; rintro h1 - rfl; exact h1 rfl
    · split
      · subst_vars
        simp only [Except.ok.injEq, List.cons.injEq, Coin.mk.injEq, true_and, and_true]
        constructor
        · rintro rfl; exact ⟨‹_›, rfl⟩
        · rintro ⟨-, rfl⟩; rfl
      · simp only [List.cons.injEq, Coin.mk.injEq, and_true]
        constructor
        · intro h; simp at h
        · rintro ⟨-, h, -⟩; exact absurd h ‹_›
  · rename_i h0 h
    constructor
    · intro h'; simp at h'
    · rintro ⟨-, h'⟩; exact absurd h' (h _)

/-- When a placement succeeds, and what it does. -/
structure PlaceCond (s : Store) (ob : Orderbook) (funds : List Coin) (tick : Int) (dir : Dir) (q : Nat) (cb : Option Nat) : Prop where
  range : MIN_TICK ≤ tick ∧ tick ≤ MAX_TICK
  pos : 0 < q
  bounty : bountyOk cb = true
  funds : funds = [⟨ob.expectedDenom dir, q⟩]
  id : s.orderId.getD 0 + 1 < U64
  tal : (tv s tick dir).tal + q * D < U256
  ctv : (tv s tick dir).ctv + q * D < U256
  liq : getDirectionalLiquidity s dir + q * D < U256

theorem withPlaced_oppositeDenom (ob : Orderbook) (tick : Int) (d d' : Dir) :
    (ob.withPlaced tick d).oppositeDenom d' = ob.oppositeDenom d' := by
  cases d <;> cases d' <;> simp only [Orderbook.withPlaced, Orderbook.oppositeDenom] <;> split <;> rfl

theorem placeLimit_eq_ok {env : Env} {info : MessageInfo} {tick : Int} {dir : Dir} {q : Nat} {cb : Option Nat} {s s' : Store}
    {resp : Response} (hq : q < U128) :
    placeLimit env info tick dir q cb s = .ok resp s' ↔
      ∃ ob, s.orderbook = some ob ∧ PlaceCond s ob info.funds tick dir q cb ∧
        resp = { events := [.placeLimit info.sender tick (s.orderId.getD 0) dir q (ob.expectedDenom dir) (ob.oppositeDenom dir)] } ∧
        s' = placedStore s ob tick dir info.sender q cb env.time := by
  unfold placeLimit
  cases hob : s.orderbook with
  | none => rw [EM.bind_err_of (loadOrderbook_none hob)]; simp
  | some ob =>
  rw [EM.bind_ok_of (loadOrderbook_some hob)]
  simp only [Option.some.injEq, exists_eq_left']
  by_cases h1 : tick ≥ MIN_TICK ∧ tick ≤ MAX_TICK
  swap
  · simp only [h1, decide_false, EM.ensure_false_bind]
    constructor
    · intro h; simp at h
    · rintro ⟨h, -⟩; exact absurd h.range h1
  simp only [h1, and_self, decide_true, EM.ensure_true_bind]
  by_cases h2 : q > 0
  swap
  · simp only [h2, decide_false, EM.ensure_false_bind]
    constructor
    · intro h; simp at h
    · rintro ⟨h, -⟩; exact absurd h.pos h2
  simp only [h2, decide_true, EM.ensure_true_bind]
  cases h3 : bountyOk cb
  · simp only [EM.ensure_false_bind]
    constructor
    · intro h; simp at h
    · rintro ⟨h, -⟩; have := h.bounty; simp [h3] at this
  simp only [EM.ensure_true_bind]
  by_cases h4 : mustPay info.funds (ob.expectedDenom dir) = .ok q
  swap
  · have : ¬ PlaceCond s ob info.funds tick dir q cb := by
      intro h; exact h4 (mustPay_eq_ok.2 ⟨by omega, h.funds⟩)
    simp only [this, false_and, iff_false]
    cases h5 : mustPay info.funds (ob.expectedDenom dir) with
    | error e => simp
    | ok r =>
      have : ¬ r = q := by rintro rfl; exact h4 h5
      simp [this]
  simp only [h4, EM.lift_ok_bind, decide_true, EM.ensure_true_bind]
  have hfunds := (mustPay_eq_ok.1 h4).2
  by_cases h5 : s.orderId.getD 0 + 1 < U64
  swap
  · have : ¬ PlaceCond s ob info.funds tick dir q cb := fun h => h5 h.id
    simp only [this, false_and, iff_false]
    rw [EM.bind_eq_ok]
    rintro ⟨a, t, h, -⟩
    exact h5 (newOrderId_eq_ok.1 h).1
  rw [EM.bind_ok_of (newOrderId_eq_ok.2 ⟨h5, rfl, rfl⟩)]
  simp only [saveOrderbook, EM.modify_bind, EM.get_bind, LimitOrder.new, fromRatio_one hq, EM.lift_ok_bind, saveOrder]
  by_cases h6 : (tv s tick dir).tal + q * D < U256
  swap
  · have : ¬ PlaceCond s ob info.funds tick dir q cb := fun h => h6 h.tal
    simp only [this, false_and, iff_false]
    have : checkedAdd (tv s tick dir).tal (q * D) = .error .overflow := by simp [checkedAdd, h6]
    unfold tv at this
    simp [this]
  by_cases h7 : (tv s tick dir).ctv + q * D < U256
  swap
  · have : ¬ PlaceCond s ob info.funds tick dir q cb := fun h => h7 h.ctv
    simp only [this, false_and, iff_false]
    have ht := checkedAdd_ok h6
    have : checkedAdd (tv s tick dir).ctv (q * D) = .error .overflow := by simp [checkedAdd, h7]
    unfold tv at this ht
    simp [this, ht]
  have ht := checkedAdd_ok h6
  have hc := checkedAdd_ok h7
  unfold tv at ht hc
  simp only [ht, hc, EM.lift_ok_bind, saveTick, EM.modify_bind, addDirectionalLiquidity]
  by_cases h8 : getDirectionalLiquidity s dir + q * D < U256
  swap
  · have : ¬ PlaceCond s ob info.funds tick dir q cb := fun h => h8 h.liq
    simp only [this, false_and, iff_false]
    have : checkedAdd (getDirectionalLiquidity s dir) (q * D) = .error .overflow := by simp [checkedAdd, h8]
    rw [EM.bind_eq_ok]
    rintro ⟨a, t, h, -⟩
    simp only [EM.get_bind, getDirectionalLiquidity] at h this
    simp [this] at h
  have hl := checkedAdd_ok h8
  have hcond : PlaceCond s ob info.funds tick dir q cb := ⟨h1, h2, h3, hfunds, h5, h6, h7, h8⟩
  rw [EM.bind_ok_of (a := ()) (s' := placedStore s ob tick dir info.sender q cb env.time)]
  · simp only [EM.pure_eq_ok, hcond, true_and, withPlaced_oppositeDenom]
  · simp only [EM.get_bind, getDirectionalLiquidity] at hl ⊢
    simp only [hl, EM.lift_ok_bind, saveDirLiq, EM.modify_apply]
    rfl

/-! ### Preservation of the relation -/

/-- The bookkeeper's entry for a new order. -/
def newEntry (s : Store) (owner : Addr) (q : Nat) (cb : Option Nat) (time : Nat) : Entry :=
  ⟨s.orderId.getD 0, owner, cb, time, q, 0, 0, false⟩

theorem Book.set_self (b : Book) (t : Int) (d : Dir) (q : List Entry) : b.set t d q t d = q := by simp [Book.set]
theorem Book.set_ne (b : Book) {t t' : Int} {d d' : Dir} (q : List Entry) (h : t' ≠ t ∨ d' ≠ d) :
    b.set t d q t' d' = b t' d' := by
  unfold Book.set
  rw [if_neg]
  rintro ⟨rfl, rfl⟩
  simp at h

theorem snoc_split {α : Type} {l p q : List α} {x y : α} :
    l ++ [x] = p ++ y :: q ↔ (q = [] ∧ y = x ∧ p = l) ∨ ∃ q', q = q' ++ [x] ∧ l = p ++ y :: q' := by
  constructor
  · intro h
    rcases List.eq_nil_or_concat q with rfl | ⟨q', z, rfl⟩
    · left
      have := List.append_inj' h rfl
      simp at this
      exact ⟨rfl, this.2.symm, this.1.symm⟩
    · right
      have h' : l ++ [x] = (p ++ y :: q') ++ [z] := by simpa using h
      have := List.append_inj' h' rfl
      simp at this
      exact ⟨q', by rw [this.2]; simp, this.1⟩
  · rintro (⟨rfl, rfl, rfl⟩ | ⟨q', rfl, rfl⟩) <;> simp

theorem sideRel_place {v : TickValues} {qs : List Entry} {r : Nat} (h : SideRel v qs r) {x : Entry} (hx : EntryOk x)
    (hf : x.filled = 0) (hcl : x.claimed = 0) (hc : x.cancelled = false) (hb : v.ctv + x.placed * D < U256) :
    SideRel { v with tal := v.tal + x.placed * D, ctv := v.ctv + x.placed * D } (qs ++ [x]) r := by
  have e1 : ∀ f : Entry → Nat, sumBy f (qs ++ [x]) = sumBy f qs + f x := by intro f; simp [sumBy]
  have hcap : x.cap = x.placed := by simp [Entry.cap, hc]
  have hgap : x.gap = 0 := by simp [Entry.gap, hcap]
  have hS := sum_filled_left h.ok
  refine ⟨?_, ?_, h.crc, ?_, ?_, ?_, ?_, h.sync_le, ?_, hb⟩
  · show v.ctv + _ = _
    rw [e1, h.ctv]; ring
  · show v.etas = _
    rw [e1, hf, h.etas, Nat.add_zero]
  · show v.tal + _ = _
    rw [e1, h.tal]; simp only [Entry.left, hc, hf]; simp; ring
  · rw [e1, hf, Nat.add_zero, fifo_append]
    refine ⟨h.fifo, ?_, trivial⟩
    rw [hf]; omega
  · intro y hy
    rcases List.mem_append.1 hy with hy | hy
    · exact h.ok y hy
    · simp at hy; subst hy; exact hx
  · rw [e1, hf, Nat.add_zero]; exact done_place h.done
  · intro hh
    rw [e1, hf, Nat.add_zero, rs_place hgap]
    exact h.synced hh

theorem orderOf_new {s : Store} {tick : Int} {dir : Dir} {owner : Addr} {q : Nat} {cb : Option Nat} {time P : Nat}
    (h : (tv s tick dir).ctv = D * P) :
    placedOrder s tick dir owner q cb time = orderOf tick dir P (newEntry s owner q cb time) := by
  unfold placedOrder LimitOrder.new orderOf newEntry
  simp [h]

theorem withPlaced_denoms (ob : Orderbook) (tick : Int) (d : Dir) :
    (ob.withPlaced tick d).quoteDenom = ob.quoteDenom ∧ (ob.withPlaced tick d).baseDenom = ob.baseDenom := by
  cases d <;> simp only [Orderbook.withPlaced] <;> split <;> simp

theorem Rel.place {s : Store} {b : Book} (h : Rel s b) {ob : Orderbook} (hob : s.orderbook = some ob) {tick : Int} {dir : Dir}
    {funds : List Coin} {owner : Addr} {q : Nat} {cb : Option Nat} {time : Nat} (hq : q < U128)
    (hc : PlaceCond s ob funds tick dir q cb) :
    Rel (placedStore s ob tick dir owner q cb time)
      (b.set tick dir (b tick dir ++ [newEntry s owner q cb time])) := by
  set x := newEntry s owner q cb time with hx
  set s' := placedStore s ob tick dir owner q cb time with hs'
  set b' := b.set tick dir (b tick dir ++ [x]) with hb'
  have hbself : b' tick dir = b tick dir ++ [x] := Book.set_self ..
  have hbne : ∀ t d, (t ≠ tick ∨ d ≠ dir) → b' t d = b t d := fun t d hh => Book.set_ne _ _ hh
  have hxok : EntryOk x := ⟨hc.pos, hq, le_refl _, Nat.zero_le _, by simp [hx, newEntry]⟩
  set ts := ((s.ticks.get? tick).getD .default).setValues dir
      { tv s tick dir with tal := (tv s tick dir).tal + q * D, ctv := (tv s tick dir).ctv + q * D } with hts
  have hget : s'.ticks.get? tick = some ts := by simp [hs', placedStore, hts]
  have hgetne : ∀ t, t ≠ tick → s'.ticks.get? t = s.ticks.get? t := fun t ht => SMap.get?_insert_ne _ _ ht
  have htv : tv s' tick dir = { tv s tick dir with tal := (tv s tick dir).tal + q * D, ctv := (tv s tick dir).ctv + q * D } := by
    rw [tv_of_get hget, hts, getValues_setValues_self]
  have htvne : ∀ t d, (t ≠ tick ∨ d ≠ dir) → tv s' t d = tv s t d := by
    intro t d hh
    by_cases ht : t = tick
    · subst ht
      rw [tv_of_get hget, hts, getValues_setValues_ne _ _ (by simpa using hh)]; rfl
    · exact tv_congr (hgetne t ht) d
  have hid : s'.orderId.getD 0 = s.orderId.getD 0 + 1 := rfl
  have hmem : ∀ t d y, y ∈ b' t d → y ∈ b t d ∨ (t = tick ∧ d = dir ∧ y = x) := by
    intro t d y hy
    by_cases htd : t = tick ∧ d = dir
    · obtain ⟨rfl, rfl⟩ := htd
      rw [hbself] at hy
      simpa using hy
    · rw [hbne t d (by by_contra hh; push Not at hh; exact htd hh)] at hy
      exact Or.inl hy
  have hxid : x.id = s.orderId.getD 0 := rfl
  obtain ⟨r0, rt0, a1, a2, a3⟩ := h.sides tick dir
  refine ⟨?_, h.fresh, ?_, h.ticksSorted.insert _ _, h.ordersSorted.insert _ _, ?_, ⟨?_, ?_, ?_⟩, ?_, ?_, ?_, ?_,
    ⟨h.conf.fee, h.conf.recipient, h.conf.moderator⟩, ?_⟩
  · intro t d
    by_cases htd : t ≠ tick ∨ d ≠ dir
    · obtain ⟨r, rt, c1, c2, c3⟩ := h.sides t d
      exact ⟨r, rt, by rw [htvne t d htd, hbne t d htd]; exact c1, c2, by rw [hbne t d htd]; exact c3⟩
    · push Not at htd
      obtain ⟨rfl, rfl⟩ := htd
      refine ⟨r0, rt0, ?_, a2, ?_⟩
      · rw [htv, hbself]
        have hxp : x.placed = q := rfl
        have := sideRel_place a1 hxok rfl rfl rfl (by rw [hxp]; exact hc.ctv)
        rw [hxp] at this
        exact this
      · rw [hbself, leavesOf_append, a3]
        simp [leavesOf, hx, newEntry]
  · intro t
    by_cases ht : t = tick
    · subst ht
      rw [hget]
      simp only [ne_eq, reduceCtorEq, not_false_eq_true, true_iff]
      cases dir
      · left; rw [hbself]; simp
      · right; rw [hbself]; simp
    · rw [hgetne t ht, hbne t .bid (Or.inl ht), hbne t .ask (Or.inl ht)]; exact h.known t
  · intro t id o
    show (s.orders.insert (tick, s.orderId.getD 0) (placedOrder s tick dir owner q cb time)).get? (t, id) = some o ↔ _
    rw [SMap.get?_insert]
    by_cases hk : (t, id) = (tick, s.orderId.getD 0)
    · rw [if_pos hk]
      simp only [Prod.mk.injEq] at hk
      obtain ⟨rfl, rfl⟩ := hk
      rw [orderOf_new a1.ctv]
      constructor
      · rintro ho
        simp only [Option.some.injEq] at ho
        exact ⟨dir, b t dir, x, [], hbself, ⟨rfl, hc.pos⟩, rfl, ho.symm⟩
      · rintro ⟨d, p, y, q', h1, h2, h3, h4⟩
        have hy : y ∈ b' t d := by rw [h1]; simp
        rcases hmem t d y hy with hy | ⟨-, rfl, rfl⟩
        · have := h.ids.lt t d y hy; omega
        · rw [hbself, snoc_split] at h1
          rcases h1 with ⟨-, -, rfl⟩ | ⟨q'', -, h5⟩
          · rw [h4]
          · have := h.ids.lt t d x (by rw [h5]; simp); omega
    · rw [if_neg hk, h.orders t id o]
      constructor
      · rintro ⟨d, p, y, q', h1, h2, h3, h4⟩
        by_cases htd : t ≠ tick ∨ d ≠ dir
        · exact ⟨d, p, y, q', by rw [hbne t d htd]; exact h1, h2, h3, h4⟩
        · push Not at htd
          obtain ⟨rfl, rfl⟩ := htd
          exact ⟨d, p, y, q' ++ [x], by rw [hbself, h1]; simp, h2, h3, h4⟩
      · rintro ⟨d, p, y, q', h1, h2, h3, h4⟩
        by_cases htd : t ≠ tick ∨ d ≠ dir
        · exact ⟨d, p, y, q', by rw [← hbne t d htd]; exact h1, h2, h3, h4⟩
        · push Not at htd
          obtain ⟨rfl, rfl⟩ := htd
          rw [hbself, snoc_split] at h1
          rcases h1 with ⟨-, rfl, -⟩ | ⟨q'', -, h5⟩
          · exact absurd (by rw [← h3, hxid]) hk
          · exact ⟨d, p, y, q'', h5, h2, h3, h4⟩
  · intro t d
    by_cases htd : t ≠ tick ∨ d ≠ dir
    · rw [hbne t d htd]; exact h.ids.inc t d
    · push Not at htd
      obtain ⟨rfl, rfl⟩ := htd
      rw [hbself, List.pairwise_append]
      refine ⟨h.ids.inc t d, by simp, ?_⟩
      intro y hy z hz
      simp at hz; subst hz
      exact h.ids.lt t d y hy
  · intro t d y hy
    rw [hid]
    rcases hmem t d y hy with hy | ⟨-, -, rfl⟩
    · have := h.ids.lt t d y hy; omega
    · rw [hxid]; omega
  · intro t d t' d' y y' hy hy' e
    rcases hmem t d y hy with ho | ⟨h1, h2, h3⟩ <;> rcases hmem t' d' y' hy' with ho' | ⟨h1', h2', h3'⟩
    · exact h.ids.disj _ _ _ _ _ _ ho ho' e
    · have := h.ids.lt t d y ho; rw [e, h3'] at this; omega
    · have := h.ids.lt _ _ _ ho'; rw [← e, h3] at this; omega
    · exact ⟨by rw [h1, h1'], by rw [h2, h2']⟩
  · intro t d hne
    by_cases ht : t = tick
    · subst ht; exact hc.range
    · rw [hbne t d (Or.inl ht)] at hne; exact h.range t d hne
  · intro t d y hy
    rcases hmem t d y hy with hy | ⟨-, -, rfl⟩
    · exact h.bounty t d y hy
    · exact hc.bounty
  · intro d
    have h2 := sumTal_insert h.ticksSorted tick ts d
    have hticks : s'.ticks = s.ticks.insert tick ts := by simp only [hs', placedStore, hts]
    have h1 := h.liq d
    unfold sumTal
    rw [hticks]
    by_cases hd : d = dir
    · subst hd
      have h3 : (ts.getValues d).tal = (tv s tick d).tal + q * D := by rw [hts, getValues_setValues_self]
      have : getDirectionalLiquidity s' d = getDirectionalLiquidity s d + q * D := by
        exact placedStore_liq_self ..
      rw [this, h1]
      refine Nat.add_right_cancel (m := (tv s tick d).tal) ?_
      rw [h2, h3]
      generalize q * D = z
      omega
    · have h3 : (ts.getValues d).tal = (tv s tick d).tal := by
        rw [hts, getValues_setValues_ne _ _ hd]; rfl
      have : getDirectionalLiquidity s' d = getDirectionalLiquidity s d := by
        simp [getDirectionalLiquidity, hs', placedStore, hd]
      omega
  · intro d
    by_cases hd : d = dir
    · subst hd
      rw [show getDirectionalLiquidity s' d = _ from placedStore_liq_self ..]
      exact hc.liq
    · have : getDirectionalLiquidity s' d = getDirectionalLiquidity s d := by
        simp [getDirectionalLiquidity, hs', placedStore, hd]
      rw [this]; exact h.liqLt d
  · obtain ⟨ob', hob', hp⟩ := h.ptr
    rw [hob] at hob'
    obtain rfl : ob = ob' := by simpa using hob'
    refine ⟨ob.withPlaced tick dir, rfl, ?_⟩
    have hden := withPlaced_denoms ob tick dir
    obtain ⟨ht1, ht2⟩ := hc.range
    have old : ∀ t d, (t ≠ tick ∨ d ≠ dir) → sumBy Entry.left (b' t d) = sumBy Entry.left (b t d) := by
      intro t d hh; rw [hbne t d hh]
    refine ⟨by rw [hden.1, hden.2]; exact hp.denoms, ?_, ?_, ?_, ?_, ?_, ?_⟩
    · intro t hl
      cases dir
      · simp only [Orderbook.withPlaced]
        by_cases ht : t = tick
        · subst ht; split
          · exact le_refl _
          · simp_all
        · rw [old t .bid (Or.inl ht)] at hl
          have := hp.bid t hl
          split <;> simp_all <;> omega
      · rw [old t .bid (Or.inr (by simp))] at hl
        have := hp.bid t hl
        simp only [Orderbook.withPlaced]
        split <;> exact this
    · intro t hl
      cases dir
      · rw [old t .ask (Or.inr (by simp))] at hl
        have := hp.ask t hl
        simp only [Orderbook.withPlaced]
        split <;> exact this
      · simp only [Orderbook.withPlaced]
        by_cases ht : t = tick
        · subst ht; split
          · exact le_refl _
          · simp_all
        · rw [old t .ask (Or.inl ht)] at hl
          have := hp.ask t hl
          split <;> simp_all <;> omega
    all_goals
      have := hp.bidLo; have := hp.bidHi; have := hp.askLo; have := hp.askHi
      cases dir <;> simp only [Orderbook.withPlaced] <;> split <;> (try simp only) <;> omega

end OB
