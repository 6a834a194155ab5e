import Verif.SpecBook
import Verif.Proofs.SwapObs
import Verif.Props.Swap
/- C25, C26, C28: the state of the book. -/
namespace OB
open Spec

theorem orderbookState_eq_ok {s : Store} {ob : Orderbook} : orderbookState s = .ok ob ↔ s.orderbook = some ob := by
  unfold orderbookState
  split
  · rename_i h; simp [h]
  · rename_i x h; simp [h]

/-- C25: no bid liquidity above the best bid pointer, no ask liquidity below the best ask pointer, and both pointers are valid ticks. -/
theorem C25_pointers_sound {ch : Chain} {w : World} (hw : Reachable ch w) :
    ∃ ob, orderbookState w.store = .ok ob ∧
      (∀ t, tickLiquidity w.store t .bid ≠ 0 → t ≤ ob.nextBidTick) ∧
      (∀ t, tickLiquidity w.store t .ask ≠ 0 → ob.nextAskTick ≤ t) ∧
      ValidTick ob.nextBidTick ∧ ValidTick ob.nextAskTick := by
  obtain ⟨n, hn⟩ := hw
  obtain ⟨b, h⟩ := hn.traced
  have hr := h.rel
  obtain ⟨ob, hob, hp⟩ := hr.ptr
  refine ⟨ob, orderbookState_eq_ok.2 hob, ?_, ?_, ⟨hp.bidLo, hp.bidHi⟩, ⟨hp.askLo, hp.askHi⟩⟩
  · intro t ht
    rw [hr.tickLiq] at ht
    exact hp.bid t ht
  · intro t ht
    rw [hr.tickLiq] at ht
    exact hp.ask t ht

theorem openTotal_eq {q : List Entry} (h : ∀ x ∈ q, EntryOk x) : openTotal q = sumBy Entry.left q := by
  unfold openTotal
  induction q with
  | nil => rfl
  | cons x q ih =>
    have ih := ih (fun y hy => h y (by simp [hy]))
    have hx := h x (by simp)
    rw [sumBy_cons, List.filter_cons]
    by_cases hl : x.Live
    · simp only [hl, decide_true, if_true, List.map_cons, List.sum_cons, ih]
      unfold Entry.left
      rw [hl.1]; simp
    · simp only [hl, decide_false, Bool.false_eq_true, if_false, ih]
      have : x.left = 0 := by
        unfold Entry.left
        split
        · rfl
        · rename_i hc
          simp only [Bool.not_eq_true] at hc
          have := hx.filled_le; have := hx.claimed_le
          have : ¬ x.claimed < x.placed := fun hh => hl ⟨hc, hh⟩
          omega
      omega

/-- C26: the liquidity reported for a tick side is a whole number of units, namely the unfilled quantities of the live orders there. -/
theorem C26_tick_liquidity {ch : Chain} {n : Nat} {w : World} {b : Book} (h : Traced ch n w b) (t : Int) (d : Dir) :
    (tickValues w.store t d).tal = 10 ^ 18 * openTotal (b t d) ∧ tickLiquidity w.store t d = openTotal (b t d) := by
  obtain ⟨r, rt, hs, -, -⟩ := h.rel.sides t d
  have e := openTotal_eq hs.ok
  refine ⟨?_, ?_⟩
  · rw [e]; exact hs.tal
  · rw [e, h.rel.tickLiq]

/-- C26: the pool liquidity query reports, for base (asks) and quote (bids), the sum of the ticks' liquidity; it works whenever these sums
fit 128 bits. -/
theorem C26_pool_liquidity {ch : Chain} {w : World} (hw : Reachable ch w) {quote base : Denom} (hd : denoms w.store = .ok (quote, base)) :
    (∀ d, dirLiquidity w.store d = overTicks fun t => tickLiquidity w.store t d) ∧
    (∀ t d, tickLiquidity w.store t d ≠ 0 → ValidTick t) ∧
    ((∀ d, dirLiquidity w.store d < 2 ^ 128) → totalPoolLiquidity w.store =
      .ok [⟨base, overTicks fun t => tickLiquidity w.store t .ask⟩, ⟨quote, overTicks fun t => tickLiquidity w.store t .bid⟩]) := by
  obtain ⟨n, hn⟩ := hw
  obtain ⟨b, h⟩ := hn.traced
  have hr := h.rel
  obtain ⟨ob, hob, rfl, rfl⟩ := denoms_eq hd
  have key : ∀ d, dirLiquidity w.store d = overTicks fun t => tickLiquidity w.store t d := by
    intro d
    rw [hr.dirLiquidity, overTicks_eq, openOf_eq]
    exact total_congr fun t _ => (hr.tickLiq t d).symm
  refine ⟨key, ?_, ?_⟩
  · intro t d ht
    rw [hr.tickLiq] at ht
    refine hr.range t d fun hb => ht ?_
    rw [hb]; rfl
  · intro hlt
    have hu : ∀ d, u128TryFrom (toUintFloor (getDirectionalLiquidity w.store d)) = .ok (overTicks fun t => tickLiquidity w.store t d) := by
      intro d
      have h1 := hlt d
      rw [key d] at h1
      have h2 := key d
      unfold dirLiquidity at h2
      rw [h2]
      unfold u128TryFrom
      have h3 : (overTicks fun t => tickLiquidity w.store t d) < U128 := h1
      rw [if_pos h3]
    unfold totalPoolLiquidity
    simp only [hob, hu, Except.ok_bind', Except.pure_eq']
    rfl

/-! ### C28 -/

theorem placedTotal_eq (q : List Entry) : placedTotal q = sumBy Entry.placed q := rfl
theorem filledTotal_eq (q : List Entry) : filledTotal q = sumBy Entry.filled q := rfl
theorem cancelledTotal_eq {q : List Entry} (h : ∀ x ∈ q, EntryOk x) : cancelledTotal q = sumBy Entry.gap q := by
  unfold cancelledTotal sumBy
  congr 1
  refine List.map_congr_left fun x hx => ?_
  unfold Entry.gap Entry.cap
  split
  · rw [((h x hx).canc ‹_›).1]
  · simp

/-- C28: the accumulators of a tick side. All are whole units; CTT is the total ever placed; ETAS is what was filled plus the realized
cancels; liquidity = CTT - ETAS - cancels not yet realized; the last sync point is not ahead of ETAS. -/
theorem C28_accounting {ch : Chain} {n : Nat} {w : World} {b : Book} (h : Traced ch n w b) (t : Int) (d : Dir) :
    (tickValues w.store t d).ctv = 10 ^ 18 * placedTotal (b t d) ∧
    (tickValues w.store t d).etas = 10 ^ 18 * filledTotal (b t d) + (tickValues w.store t d).crc ∧
    (∃ unrealized, (tickValues w.store t d).crc + unrealized = 10 ^ 18 * cancelledTotal (b t d) ∧
      (tickValues w.store t d).tal + (tickValues w.store t d).etas + unrealized = (tickValues w.store t d).ctv) ∧
    (tickValues w.store t d).crc ≤ (tickValues w.store t d).etas ∧ (tickValues w.store t d).etas ≤ (tickValues w.store t d).ctv ∧
    (tickValues w.store t d).lastSync ≤ (tickValues w.store t d).etas := by
  obtain ⟨r, rt, hs, -, -⟩ := h.rel.sides t d
  change SideRel (tickValues w.store t d) (b t d) r at hs
  rw [placedTotal_eq, filledTotal_eq, cancelledTotal_eq hs.ok]
  have h1 := sum_cap_gap hs.ok
  have h2 := sum_filled_left hs.ok
  have h3 := rz_le_gap (sumBy Entry.filled (b t d)) (b t d)
  have h4 := hs.done.le_rz
  have a1 := hs.ctv
  have a2 := hs.etas
  have a3 := hs.crc
  have a4 := hs.tal
  have a5 := hs.sync_le
  have hD : D = 10 ^ 18 := rfl
  rw [hD] at a1 a2 a3 a4
  rw [Nat.mul_add] at a2
  refine ⟨a1, by omega, ⟨10 ^ 18 * (sumBy Entry.gap (b t d) - r), ?_, ?_⟩, by omega, ?_, a5⟩
  · rw [a3, ← Nat.mul_add]; congr 1; omega
  · rw [a4, a1, a2, ← Nat.mul_add, ← Nat.mul_add, ← Nat.mul_add]; congr 1; omega
  · rw [a1, a2, ← Nat.mul_add]; exact Nat.mul_le_mul_left _ (by omega)

/-- Accumulators that never decrease. -/
structure TvLe (v v' : TickValues) : Prop where
  ctv : v.ctv ≤ v'.ctv
  etas : v.etas ≤ v'.etas
  crc : v.crc ≤ v'.crc
  sync : v.lastSync ≤ v'.lastSync

theorem TvLe.refl (v : TickValues) : TvLe v v := ⟨le_refl _, le_refl _, le_refl _, le_refl _⟩
theorem TvLe.trans {u v w : TickValues} (h : TvLe u v) (g : TvLe v w) : TvLe u w :=
  ⟨h.ctv.trans g.ctv, h.etas.trans g.etas, h.crc.trans g.crc, h.sync.trans g.sync⟩

theorem Synced.tvLe {s s' : Store} {b : Book} {tick : Int} (h : Synced s s' b tick) (t : Int) (d : Dir) : TvLe (tv s t d) (tv s' t d) := by
  by_cases ht : t = tick
  · subst ht
    obtain ⟨r, r', h1, h2, -, h4, h5, h6⟩ := h.sides d
    refine ⟨?_, ?_, ?_, ?_⟩
    · rw [h1.ctv, h2.ctv]
    · rw [h1.etas, h2.etas]; exact Nat.mul_le_mul_left _ (by omega)
    · rw [h1.crc, h2.crc]; exact Nat.mul_le_mul_left _ h4
    · by_cases hh : (tv s t d).lastSync = (tv s t d).etas
      · rw [h6 hh]
      · rw [(h5 hh).2]; exact h1.sync_le
  · rw [tv_congr (h.ticks_ne t ht)]; exact .refl _

theorem claimedStore_ticks (s : Store) (tick : Int) (o : LimitOrder) : (claimedStore s tick o).ticks = s.ticks := by
  unfold claimedStore; split <;> rfl

theorem ClaimStep.tvLe {sender : Addr} {tick : Int} {id : Nat} {s s' : Store} {b b' : Book} {r : Nat × List SendMsg × LimitOrder}
    (h : ClaimStep sender tick id s b r s' b') (t : Int) (d : Dir) : TvLe (tv s t d) (tv s' t d) := by
  obtain ⟨h1, h2, h3, h4, h5, h6, h7⟩ := h
  have := h6.tvLe t d
  refine this.trans ?_
  rw [tv_congr (s := _) (s' := claimedStore _ _ _) (congrArg (fun m => SMap.get? m t) (claimedStore_ticks _ _ _))]
  exact .refl _

theorem ClaimRun.tvLe {sender : Addr} {ob : Orderbook} {l : List (Int × Nat)} {s s' : Store} {b b' : Book} {ms : List SendMsg}
    {es : List Event} (h : ClaimRun sender ob l s b ms es s' b') (t : Int) (d : Dir) : TvLe (tv s t d) (tv s' t d) := by
  induction h with
  | nil => exact .refl _
  | ok _ h _ ih => exact (h.tvLe t d).trans ih
  | skip _ h _ ih =>
    refine TvLe.trans ?_ ih
    rcases h.store with rfl | h
    · exact .refl _
    · exact h.tvLe t d

theorem tv_insert {s s' : Store} {tick : Int} {ts : TickState} (h : s'.ticks = s.ticks.insert tick ts) (t : Int) (d : Dir) :
    tv s' t d = if t = tick then ts.getValues d else tv s t d := by
  split
  · subst_vars; exact tv_of_get (by rw [h]; simp) d
  · refine tv_congr ?_ d
    rw [h]; exact SMap.get?_insert_ne _ _ ‹_›

theorem StoreStep.tvLe {ch : Chain} {op : Op} {s s' : Store} {b b' : Book} {resp : Response} (h : StoreStep ch op s b resp s' b')
    (hr : Rel s b) (t : Int) (d : Dir) : TvLe (tv s t d) (tv s' t d) := by
  cases h with
  | @place sender funds time tick dir q cb s b ob h1 h2 h3 h4 =>
    rw [tv_insert (s' := placedStore s ob tick dir sender q cb time) rfl]
    split
    · subst_vars
      rw [getValues_setValues]
      split
      · subst_vars; exact ⟨Nat.le_add_right _ _, le_refl _, le_refl _, le_refl _⟩
      · exact .refl _
    · exact .refl _
  | @cancel time tick dir s s1 b ob p q x tr ts1 h1 h2 h3 h4 h5 h6 h7 h8 h9 =>
    refine (h6.tvLe t d).trans ?_
    rw [tv_insert (s' := cancelledStore s1 tr tick dir ts1 x.id (x.placed - x.claimed)) rfl]
    split
    · subst_vars
      rw [tv_of_get h7, getValues_setValues]
      split
      · subst_vars; exact ⟨le_refl _, le_refl _, le_refl _, le_refl _⟩
      · exact .refl _
    · exact .refl _
  | claim _ _ _ h => exact h.tvLe t d
  | batch _ _ _ h => exact h.tvLe t d
  | @swap time msg sender c out m fee target s b ob dir F q' dust lp _ h2 _ _ h =>
    rw [swapped_tv_taken (h.run.fillsOk hr h2).nodup]
    exact ⟨le_refl _, Nat.le_add_right _ _, le_refl _, le_refl _⟩
  | config _ h1 h2 =>
    rw [tv_congr (by rw [h1.ticks])]; exact .refl _

/-- C28: along every history CTT, ETAS, the realized cancels and the last sync point of every tick side never decrease. -/
theorem C28_monotone {ch : Chain} {w : World} (hw : Reachable ch w) (ops : List Op) (t : Int) (d : Dir) :
    (tickValues w.store t d).ctv ≤ (tickValues (run ch w ops).store t d).ctv ∧
    (tickValues w.store t d).etas ≤ (tickValues (run ch w ops).store t d).etas ∧
    (tickValues w.store t d).crc ≤ (tickValues (run ch w ops).store t d).crc ∧
    (tickValues w.store t d).lastSync ≤ (tickValues (run ch w ops).store t d).lastSync := by
  obtain ⟨n, hn⟩ := hw
  obtain ⟨b, h⟩ := hn.traced
  suffices hs : TvLe (tv w.store t d) (tv (run ch w ops).store t d) from ⟨hs.ctv, hs.etas, hs.crc, hs.sync⟩
  clear hn
  induction ops generalizing n w b with
  | nil => exact .refl _
  | cons op ops ih =>
    change TvLe _ (tv (run ch (apply ch w op) ops).store t d)
    cases hs : step ch w op with
    | error e =>
      have e1 : apply ch w op = w := by unfold apply; rw [hs]
      rw [e1]; exact ih _ _ h
    | ok x =>
      obtain ⟨w', resp⟩ := x
      have e1 : apply ch w op = w' := by unfold apply; rw [hs]
      rw [e1]
      exact ((h.step hs).tvLe h.rel t d).trans (ih _ _ (.ok h hs))

/-! ### The demo book -/

/-- After the demo history the liquidity of tick 0 is 40000 of 300000 placed: 60000 filled, 200000 cancelled, none of it realized yet. -/
example : (tickValues Demo.after.store 0 .bid, openTotal ((Demo.trace Demo.history).2 0 .bid), cancelledTotal ((Demo.trace Demo.history).2 0 .bid)) =
    (⟨40000 * 10 ^ 18, 300000 * 10 ^ 18, 60000 * 10 ^ 18, 0, 0⟩, 40000, 200000) := by decide +kernel
/-- Pointers of the demo book; the pool reports 50000 base and 540000 quote. -/
example : (Demo.after.store.orderbook.map fun ob => (ob.nextBidTick, ob.nextAskTick)) = some (0, 10) := by decide +kernel
example : (totalPoolLiquidity Demo.after.store).toOption = some [⟨"b", 50000⟩, ⟨"q", 540000⟩] := by decide +kernel
/-- A claim of order 3 syncs the tick: the 200000 cancelled units are realized. -/
example : tickValues (apply Demo.ch Demo.after (Demo.claim "zed" 0 3)).store 0 .bid =
    ⟨40000 * 10 ^ 18, 300000 * 10 ^ 18, 260000 * 10 ^ 18, 200000 * 10 ^ 18, 60000 * 10 ^ 18⟩ := by decide +kernel

end OB
