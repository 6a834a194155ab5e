import Verif.Proofs.Solvency
/- Totals are bounded by the number of orders ever placed, counters never decrease, and all counters grow slowly: a history
of fewer than 10^16 operations leaves room for everything. -/
namespace OB

/-- Few enough orders, and room for `k` more nodes on every tick. -/
def Room (k : Nat) (s : Store) : Prop := s.orderId.getD 0 < 2 * 10 ^ 17 ∧ ∀ t, s.trees.cnt t + k < U64

theorem Room.mono {k l : Nat} {s : Store} (h : Room k s) (hl : l ≤ k) : Room l s := ⟨h.1, fun t => by have := h.2 t; omega⟩

theorem World.HasRoom.big {w : World} (h : w.HasRoom) : Room (8 * 10 ^ 18) w.store := by
  refine ⟨by have := h.1; omega, fun t => ?_⟩
  have := h.2 t
  have h2 : 18 * 10 ^ 18 < U64 := by unfold U64; norm_num
  unfold TreeSt.cnt
  omega

theorem World.HasRoom.room {w : World} (h : w.HasRoom) : Room 300 w.store := h.big.mono (by omega)

theorem World.HasRoom.few {w : World} (h : w.HasRoom) : Room 4 w.store := h.room.mono (by omega)

/-- Totals are bounded by the number of orders. -/
structure Limits (s : Store) (b : Book) : Prop where
  placed : ∀ t d, sumBy Entry.placed (b t d) ≤ s.orderId.getD 0 * U128
  liq : ∀ d, getDirectionalLiquidity s d ≤ s.orderId.getD 0 * U128 * D

/-- How counters move in one operation. -/
structure Counts (s s' : Store) : Prop where
  id : s.orderId.getD 0 ≤ s'.orderId.getD 0
  id_le : s'.orderId.getD 0 ≤ s.orderId.getD 0 + 1
  cnt : ∀ t, s.trees.cnt t ≤ s'.trees.cnt t
  cnt_le : ∀ t, s'.trees.cnt t ≤ s.trees.cnt t + 200

theorem Counts.back {w w' : World} (h : Counts w.store w'.store) (hr : w'.HasRoom) : w.HasRoom :=
  ⟨lt_of_le_of_lt h.id hr.1, fun t => by
    have h1 := h.cnt t
    have h2 := hr.2 t
    unfold TreeSt.cnt at h1
    omega⟩

/-- One more operation still finds room. -/
theorem Counts.forth {w w' : World} (h : Counts w.store w'.store) (hr : w.HasRoom) : Room 100 w'.store := by
  refine ⟨by have := h.id_le; have := hr.1; omega, fun t => ?_⟩
  have h1 := h.cnt_le t
  have h2 := hr.room.2 t
  omega

theorem rootInit_cnt (st : TreeSt) (tick : Int) (dir : Dir) (t : Int) : st.cnt t ≤ (rootInit st tick dir).cnt t := by
  unfold rootInit
  split
  · exact le_refl _
  · unfold TreeSt.cnt
    simp only
    split
    · subst_vars; simp
    · exact le_refl _

theorem treeSync_cnt (tick : Int) (v : Dir → TickValues) (st : TreeSt) (t : Int) : st.cnt t ≤ (treeSync tick v st).cnt t := by
  unfold treeSync
  simp only
  split <;> split <;> first
    | exact le_refl _
    | exact rootInit_cnt ..
    | exact le_trans (rootInit_cnt ..) (rootInit_cnt ..)

theorem Synced.cnt_le {s s' : Store} {b : Book} {tick : Int} (h : Synced s s' b tick) (t : Int) :
    s'.trees.cnt t ≤ s.trees.cnt t + 2 := by
  by_cases ht : t = tick
  · subst ht; exact h.cnt
  · unfold TreeSt.cnt; rw [h.frame.counter t ht]; omega

/-- Claims keep ids, totals and placed amounts. -/
structure ClaimSame (k : Nat) (s s' : Store) (b b' : Book) : Prop where
  id : s'.orderId = s.orderId
  liq : s'.dirLiq = s.dirLiq
  placed : ∀ t d, sumBy Entry.placed (b' t d) = sumBy Entry.placed (b t d)
  cnt : ∀ t, s'.trees.cnt t ≤ s.trees.cnt t + k
  cnt_mono : ∀ t, s.trees.cnt t ≤ s'.trees.cnt t

theorem ClaimSame.trans {k l : Nat} {s s1 s2 : Store} {b b1 b2 : Book} (h : ClaimSame k s s1 b b1) (g : ClaimSame l s1 s2 b1 b2) :
    ClaimSame (k + l) s s2 b b2 :=
  ⟨g.id.trans h.id, g.liq.trans h.liq, fun t d => (g.placed t d).trans (h.placed t d),
    fun t => by have := g.cnt t; have := h.cnt t; omega, fun t => le_trans (h.cnt_mono t) (g.cnt_mono t)⟩

theorem Synced.same {s s' : Store} {b : Book} {tick : Int} (h : Synced s s' b tick) : ClaimSame 2 s s' b b :=
  ⟨by rw [h.store], by rw [h.store], fun _ _ => rfl, h.cnt_le, fun t => by rw [h.trees]; exact treeSync_cnt ..⟩

theorem claimedStore_same (s : Store) (tick : Int) (o : LimitOrder) : (claimedStore s tick o).orderId = s.orderId ∧
    (claimedStore s tick o).dirLiq = s.dirLiq ∧ (claimedStore s tick o).trees = s.trees ∧
    (claimedStore s tick o).ticks = s.ticks ∧ (claimedStore s tick o).orderbook = s.orderbook := by
  unfold claimedStore; split <;> exact ⟨rfl, rfl, rfl, rfl, rfl⟩

theorem set_placed {b : Book} {tick : Int} {dir : Dir} {p q : List Entry} {x x' : Entry} (h1 : b tick dir = p ++ x :: q)
    (hx : x'.placed = x.placed) (t : Int) (d : Dir) :
    sumBy Entry.placed (b.set tick dir (p ++ x' :: q) t d) = sumBy Entry.placed (b t d) := by
  by_cases he : t = tick ∧ d = dir
  · obtain ⟨rfl, rfl⟩ := he
    rw [Book.set_same, h1]; simp [hx]
  · rw [Book.set_ne b _ (by tauto)]

theorem ClaimStep.same {sender : Addr} {tick : Int} {id : Nat} {s s' : Store} {b b' : Book} {r : Nat × List SendMsg × LimitOrder}
    (h : ClaimStep sender tick id s b r s' b') : ClaimSame 2 s s' b b' := by
  obtain ⟨h1, h2, h3, h4, h5, h6, h7⟩ := h
  rename_i s1 dir p q x ob rc
  obtain ⟨g1, g2, g3, -, -⟩ := claimedStore_same s1 tick (orderOf tick dir (sumBy Entry.placed p) { x with claimed := x.filled })
  have h8 := h6.same
  refine ⟨by rw [g1]; exact h8.id, by rw [g2]; exact h8.liq, ?_, ?_, fun t => by rw [g3]; exact h8.cnt_mono t⟩
  · exact set_placed h1 rfl
  · intro t; rw [g3]; exact h8.cnt t

theorem ClaimFail.same {s s' : Store} {b : Book} {tick : Int} {id : Nat} (h : ClaimFail s s' b tick id) : ClaimSame 2 s s' b b := by
  rcases h.store with rfl | h
  · exact ⟨rfl, rfl, fun _ _ => rfl, fun _ => by omega, fun _ => le_refl _⟩
  · exact h.same

theorem ClaimRun.same {sender : Addr} {ob : Orderbook} {l : List (Int × Nat)} {s s' : Store} {b b' : Book} {ms : List SendMsg}
    {es : List Event} (h : ClaimRun sender ob l s b ms es s' b') : ClaimSame (2 * l.length) s s' b b' := by
  induction h with
  | nil => exact ⟨rfl, rfl, fun _ _ => rfl, fun _ => by omega, fun _ => le_refl _⟩
  | @ok tick id rest _ _ _ _ _ _ _ _ _ _ h _ ih =>
    have := h.same.trans ih
    rwa [show 2 + 2 * rest.length = 2 * ((tick, id) :: rest).length by simp; omega] at this
  | @skip tick id rest _ _ _ _ _ _ _ _ _ h _ ih =>
    have := h.same.trans ih
    rwa [show 2 + 2 * rest.length = 2 * ((tick, id) :: rest).length by simp; omega] at this

theorem ClaimSame.limits {k : Nat} {s s' : Store} {b b' : Book} (h : ClaimSame k s s' b b') (hl : Limits s b) : Limits s' b' := by
  refine ⟨fun t d => ?_, fun d => ?_⟩
  · rw [h.placed, h.id]; exact hl.placed t d
  · unfold getDirectionalLiquidity; rw [h.liq, h.id]; exact hl.liq d

theorem ClaimSame.counts {k : Nat} {s s' : Store} {b b' : Book} (h : ClaimSame k s s' b b') (hk : k ≤ 200) : Counts s s' :=
  ⟨by rw [h.id], by rw [h.id]; omega, h.cnt_mono, fun t => by have := h.cnt t; omega⟩

theorem getLiq_other {s s' : Store} {d dir : Dir} {z : Option Nat} {f : Dir → Option Nat}
    (h : s'.dirLiq = fun d => if d = dir then z else f d) (hd : d ≠ dir) (hf : f d = s.dirLiq d) :
    getDirectionalLiquidity s' d = getDirectionalLiquidity s d := by
  unfold getDirectionalLiquidity
  rw [h]; simp [hd, hf]

theorem StoreStep.limits {ch : Chain} {op : Op} {s s' : Store} {b b' : Book} {resp : Response}
    (h : StoreStep ch op s b resp s' b') (hl : Limits s b) : Limits s' b' := by
  cases h with
  | @place sender funds time tick dir q cb s b ob h1 h2 h3 h4 =>
    have e : (placedStore s ob tick dir sender q cb time).orderId.getD 0 = s.orderId.getD 0 + 1 := rfl
    refine ⟨?_, ?_⟩
    · intro t d
      rw [e, Nat.add_mul]
      by_cases he : t = tick ∧ d = dir
      · obtain ⟨rfl, rfl⟩ := he
        have := hl.placed t d
        rw [Book.set_same, sumBy_append]
        have e : sumBy Entry.placed [newEntry s sender q cb time] = q := by simp [newEntry]
        rw [e]
        omega
      · rw [Book.set_ne b _ (by tauto)]
        have := hl.placed t d
        omega
    · intro d
      rw [e, Nat.add_mul, Nat.add_mul, Nat.one_mul]
      by_cases hd : d = dir
      · subst hd
        rw [placedStore_liq_self]
        exact Nat.add_le_add (hl.liq d) (Nat.mul_le_mul_right _ (le_of_lt h3))
      · rw [getLiq_other (s := s) (placedStore_dirLiq ..) hd rfl]
        have := hl.liq d
        omega
  | @cancel time tick dir s s1 b ob p q x tr ts1 h1 h2 h3 h4 h5 h6 h7 h8 h9 =>
    have hsame := h6.same
    have eid : (cancelledStore s1 tr tick dir ts1 x.id (x.placed - x.claimed)).orderId = s.orderId := hsame.id
    refine ⟨?_, ?_⟩
    · intro t d
      rw [set_placed (x' := { x with cancelled := true }) h3 rfl, eid]; exact hl.placed t d
    · intro d
      rw [eid]
      refine le_trans ?_ (hl.liq d)
      have e : getDirectionalLiquidity s1 d = getDirectionalLiquidity s d := by
        unfold getDirectionalLiquidity; rw [hsame.liq]
      rw [← e]
      by_cases hd : d = dir
      · subst hd
        rw [getLiq_of_dirLiq (cancelledStore_dirLiq ..) rfl]
        exact Nat.sub_le _ _
      · rw [getLiq_other (s := s1) (cancelledStore_dirLiq ..) hd rfl]
  | claim h1 h2 h3 h4 => exact h4.same.limits hl
  | batch h1 h2 h3 h4 => exact h4.same.limits hl
  | @swap time msg sender c out m fee target s b ob dir F q' dust lp h1 h2 h3 h4 h5 =>
    refine ⟨?_, ?_⟩
    · intro t d
      have e : sumBy Entry.placed (filledBook b F dir.opposite t d) = sumBy Entry.placed (b t d) := fillQ_sum _ _ _ (fun _ _ => rfl)
      rw [e]; exact hl.placed t d
    · intro d
      refine le_trans ?_ (hl.liq d)
      by_cases hd : d = dir.opposite
      · subst hd
        rw [getLiq_of_dirLiq (swappedStore_dirLiq ..) rfl]
        exact Nat.sub_le _ _
      · rw [getLiq_other (s := s) (swappedStore_dirLiq ..) hd rfl]
  | config h1 h2 =>
    refine ⟨by rw [h2.orderId]; exact hl.placed, fun d => ?_⟩
    unfold getDirectionalLiquidity; rw [h2.dirLiq, h2.orderId]; exact hl.liq d

/-- Counters never decrease, and move by little. -/
theorem StoreStep.counts {ch : Chain} {op : Op} {s s' : Store} {b b' : Book} {resp : Response}
    (h : StoreStep ch op s b resp s' b') : Counts s s' := by
  cases h with
  | @place sender funds time tick dir q cb s b ob h1 h2 h3 h4 =>
    exact ⟨Nat.le_succ _, le_refl _, fun _ => le_refl _, fun _ => Nat.le_add_right _ _⟩
  | @cancel time tick dir s s1 b ob p q x tr ts1 h1 h2 h3 h4 h5 h6 h7 h8 h9 =>
    have hsame := h6.same
    have eid : (cancelledStore s1 tr tick dir ts1 x.id (x.placed - x.claimed)).orderId = s.orderId := hsame.id
    have hc : ∀ t, s1.trees.cnt t ≤ tr.cnt t ∧ tr.cnt t ≤ s1.trees.cnt t + 2 := by
      intro t
      by_cases ht : t = tick
      · subst ht
        exact ⟨h8.1.cnt, h8.2.1⟩
      · have : tr.cnt t = s1.trees.cnt t := by unfold TreeSt.cnt; rw [h8.1.counter t ht]
        omega
    refine ⟨by rw [eid], by rw [eid]; omega, fun t => ?_, fun t => ?_⟩
    · exact le_trans (hsame.cnt_mono t) (hc t).1
    · have h1 := hsame.cnt t
      have h2 := (hc t).2
      show tr.cnt t ≤ _
      omega
  | claim h1 h2 h3 h4 => exact h4.same.counts (by omega)
  | batch h1 h2 h3 h4 =>
    refine h4.same.counts ?_
    have : MAX_BATCH_CLAIM = 100 := rfl
    omega
  | @swap time msg sender c out m fee target s b ob dir F q' dust lp h1 h2 h3 h4 h5 =>
    exact ⟨le_refl _, Nat.le_succ _, fun _ => le_refl _, fun _ => Nat.le_add_right _ _⟩
  | config h1 h2 =>
    exact ⟨by rw [h2.orderId], by rw [h2.orderId]; omega, fun _ => by rw [h2.trees], fun _ => by rw [h2.trees]; omega⟩

/-- A claim or a cancel by id uses at most four nodes and no order id. -/
theorem StoreStep.own {ch : Chain} {a : Addr} {funds : List Coin} {time : Nat} {tick : Int} {id : Nat} {op : Op} {s s' : Store} {b b' : Book}
    {resp : Response} (h : StoreStep ch op s b resp s' b')
    (hop : op = .execute a funds time (.claimLimit tick id) ∨ op = .execute a funds time (.cancelLimit tick id)) {k : Nat}
    (hr : Room (k + 4) s) : Room k s' := by
  have key : s'.orderId = s.orderId ∧ ∀ t, s'.trees.cnt t ≤ s.trees.cnt t + 4 := by
    cases h with
    | place => rcases hop with hop | hop <;> simp at hop
    | batch => rcases hop with hop | hop <;> simp at hop
    | swap => rcases hop with hop | hop <;> simp at hop
    | config h1 => rcases hop with rfl | rfl <;> simp [Op.isConfig] at h1
    | claim h1 h2 h3 h4 => exact ⟨h4.same.id, fun t => by have := h4.same.cnt t; omega⟩
    | @cancel time tick dir s s1 b ob p q x tr ts1 h1 h2 h3 h4 h5 h6 h7 h8 h9 =>
      have hsame := h6.same
      refine ⟨hsame.id, fun t => ?_⟩
      have a1 := hsame.cnt t
      show tr.cnt t ≤ _
      by_cases ht : t = tick
      · subst ht
        have := h8.2
        omega
      · have : tr.cnt t = s1.trees.cnt t := by unfold TreeSt.cnt; rw [h8.1.counter t ht]
        omega
  exact ⟨by rw [key.1]; exact hr.1, fun t => by have := key.2 t; have := hr.2 t; omega⟩

theorem initial_fresh {ch : Chain} {w : World} (h : Initial ch w) :
    w.store.orderId = none ∧ (∀ t, w.store.trees.cnt t = 0) ∧ w.store.dirLiq = fun _ => none := by
  obtain ⟨time, supply, quote, base, resp, h⟩ := h
  simp only [instantiate, createOrderbook, saveOrderbook, setMakerFee, setMakerFeeRecipient,
    EM.bind_eq_ok, EM.ensure_eq_ok, EM.modify_eq_ok, EM.pure_eq_ok] at h
  obtain ⟨_, _, ⟨-, rfl⟩, _, _, rfl, _, _, ⟨-, rfl⟩, _, _, rfl, _, _, ⟨_, _, ⟨hne, rfl⟩, _, _, ⟨-, rfl⟩, _, _, ⟨-, rfl⟩, _, _, rfl,
    _, _, ⟨_, _, ⟨hfee, rfl⟩, _, _, rfl, -, rfl⟩, _, _, ⟨-, rfl⟩, rfl⟩, -, hs⟩ := h
  have e3 : w.store.trees = Store.empty.trees := by rw [hs]
  have e4 : w.store.dirLiq = Store.empty.dirLiq := by rw [hs]
  have e5 : w.store.orderId = none := by rw [hs]; rfl
  clear hs
  exact ⟨e5, fun t => by rw [e3]; rfl, by rw [e4]; rfl⟩

theorem initial_limits {ch : Chain} {w : World} (h : Initial ch w) : Limits w.store Book.empty := by
  obtain ⟨-, -, e4⟩ := initial_fresh h
  refine ⟨fun t d => by simp [Book.empty], fun d => ?_⟩
  unfold getDirectionalLiquidity; rw [e4]; exact Nat.zero_le _

theorem Traced.limits {ch : Chain} {n : Nat} {w : World} {b : Book} (h : Traced ch n w b) : Limits w.store b := by
  induction h with
  | init h => exact initial_limits h
  | ok ht hs ih => exact (ht.step hs).limits ih
  | failed _ _ ih => exact ih

theorem Traced.counts {ch : Chain} {n : Nat} {w : World} {b : Book} (h : Traced ch n w b) :
    w.store.orderId.getD 0 ≤ n ∧ ∀ t, w.store.trees.cnt t ≤ 200 * n := by
  induction h with
  | init h =>
    obtain ⟨e1, e2, -⟩ := initial_fresh h
    exact ⟨by rw [e1]; exact le_refl _, fun t => by rw [e2 t]⟩
  | ok ht hs ih =>
    have hc := (ht.step hs).counts
    refine ⟨by have := hc.id_le; omega, fun t => ?_⟩
    have := hc.cnt_le t
    have := ih.2 t
    omega
  | failed _ _ ih => exact ⟨by omega, fun t => by have := ih.2 t; omega⟩

/-- Short histories leave room. -/
theorem Traced.short {ch : Chain} {n : Nat} {w : World} {b : Book} (h : Traced ch n w b) (hn : n < 10 ^ 16) : w.HasRoom := by
  refine ⟨?_, fun t => ?_⟩
  · have := h.counts.1; omega
  · have h1 := h.counts.2 t
    unfold TreeSt.cnt at h1
    omega

/-- An accepted operation that leaves room has found room. -/
theorem room_back {ch : Chain} {n : Nat} {w w' : World} {b : Book} {op : Op} {resp : Response} (h : Traced ch n w b)
    (hs : step ch w op = .ok (w', resp)) (hr : w'.HasRoom) : w.HasRoom :=
  (h.step hs).counts.back hr

theorem Room.cnt_lt {k : Nat} {s : Store} (h : Room k s) (t : Int) : s.trees.cnt t + k < U64 := h.2 t

theorem Room.id_lt {k : Nat} {s : Store} (h : Room k s) : s.orderId.getD 0 + 1 < U64 := by
  have h1 := h.1
  have h2 : 10 ^ 19 < U64 := by unfold U64; norm_num
  omega

/-- Few enough orders for every queue to be emptied less often than 10^18 times. -/
theorem Room.lt_D {k : Nat} {s : Store} (h : Room k s) : s.orderId.getD 0 + 1 < D := by
  have h1 := h.1
  have h2 : 10 ^ 18 ≤ D := by unfold D; norm_num
  omega

theorem limits_room {n a q : Nat} (hn : n < 2 * 10 ^ 17) (ha : a ≤ n * U128 * D) (hq : q < U128) : a + q * D < U256 := by
  have h1 : q * D ≤ U128 * D := Nat.mul_le_mul_right _ (le_of_lt hq)
  have h2 : (n + 1) * (U128 * D) ≤ 2 * 10 ^ 17 * (U128 * D) := Nat.mul_le_mul_right _ hn
  have h3 : 2 * 10 ^ 17 * (U128 * D) < U256 := by unfold U128 D U256; norm_num
  have h4 : (n + 1) * (U128 * D) = n * U128 * D + U128 * D := by ring
  omega

/-- While there is room a placement fails only for the documented reasons. -/
theorem placeCond_iff {k : Nat} {s : Store} {b : Book} (hr : Rel s b) (hl : Limits s b) (hn : Room k s) {ob : Orderbook}
    {funds : List Coin} {tick : Int} {dir : Dir} {q : Nat} {cb : Option Nat} (hq : q < U128) :
    PlaceCond s ob funds tick dir q cb ↔
      (MIN_TICK ≤ tick ∧ tick ≤ MAX_TICK) ∧ 0 < q ∧ bountyOk cb = true ∧ funds = [⟨ob.expectedDenom dir, q⟩] := by
  constructor
  · rintro ⟨h1, h2, h3, h4, -, -, -, -⟩; exact ⟨h1, h2, h3, h4⟩
  · rintro ⟨h1, h2, h3, h4⟩
    obtain ⟨r, rt, hs, -, -⟩ := hr.sides tick dir
    have hp := hl.placed tick dir
    have hctv : (tv s tick dir).ctv ≤ s.orderId.getD 0 * U128 * D := by
      rw [hs.ctv, Nat.mul_comm]; exact Nat.mul_le_mul_right _ hp
    have htal : (tv s tick dir).tal ≤ s.orderId.getD 0 * U128 * D := by
      rw [hs.tal, Nat.mul_comm]
      refine Nat.mul_le_mul_right _ (le_trans ?_ hp)
      have a1 := sum_filled_left hs.ok
      have a2 := sum_cap_gap hs.ok
      omega
    exact ⟨h1, h2, h3, h4, hn.id_lt, limits_room hn.1 htal hq, limits_room hn.1 hctv hq, limits_room hn.1 (hl.liq dir) hq⟩

end OB
