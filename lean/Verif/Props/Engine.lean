import Verif.Proofs.Engine
import Verif.Props.Swap
/- C48: swaps are exactly the reference matching engine. -/
namespace OB
open Spec

theorem fillPairs_sum (F : List Fill) : ((fillPairs F).map Prod.snd).sum = sumAmount F := by
  unfold fillPairs sumAmount
  rw [List.map_map]
  rfl

theorem fillPairs_last {F : List Fill} {x : Int × Nat} : (fillPairs F).getLast? = some x ↔ ∃ f, F.getLast? = some f ∧ (f.tick, f.amount) = x := by
  unfold fillPairs
  rw [List.getLast?_map, Option.map_eq_some_iff]

/-- C48: on an active book, for a request in the book's pair without fee, with positive input that the sender owns, the swap is accepted
exactly if its target (if any) is admissible, the engine matches at least one unit and the minimum, and - unless the target allows a
partial fill - what is left over is worth less than one unit at the last price. It then pays what the engine says, refunds what the engine
leaves over, and takes from each tick what the engine takes. -/
theorem C48_reference_engine {ch : Chain} {w : World} (hw : Reachable ch w) (hn : w.HasRoom)
    (ha : isActive w.store = true) {ob : Orderbook} (hob : orderbookState w.store = .ok ob) {r : SwapReq} {side : Dir}
    (hp : r.pair ob.quoteDenom ob.baseDenom side) (hfee : r.fee = 0) (hpos : r.tokenIn.amount ≠ 0)
    (hsender : r.sender ≠ ch.contract) (hvalid : ch.addrValid r.sender = true)
    (hbal : r.tokenIn.amount ≤ w.bank r.sender r.tokenIn.denom) (hsz : r.tokenIn.amount < 2 ^ 128 ∧ r.minOut < 2 ^ 128)
    {levels : List (Int × Nat)} (hl : r.Levels w.store side levels) (time : Nat) :
    (Accepted ch w (r.op time) ↔ r.targetOk ob side ∧ ∃ F left dust, matchLevels side levels r.tokenIn.amount = some (F, left, dust) ∧
      (F.map Prod.snd).sum ≠ 0 ∧ r.minOut ≤ (F.map Prod.snd).sum ∧
      (r.mustFill side → ∀ last, F.getLast? = some last → value side.opposite left last.1 < 1)) ∧
    (∀ w' resp F left dust, step ch w (r.op time) = .ok (w', resp) → matchLevels side levels r.tokenIn.amount = some (F, left, dust) →
      resp.msgs = ⟨r.sender, ⟨r.outDenom, (F.map Prod.snd).sum⟩, 5⟩ ::
        (if left = 0 then [] else [⟨r.sender, ⟨r.tokenIn.denom, left⟩, 1⟩]) ∧
      (∀ x ∈ F, taken w.store w'.store x.1 side = x.2) ∧ (∀ t, t ∉ F.map Prod.fst → taken w.store w'.store t side = 0)) := by
  obtain ⟨n, hw⟩ := hw
  obtain ⟨b, h⟩ := hw.traced
  have hob' : w.store.orderbook = some ob := by
    unfold orderbookState at hob
    split at hob
    · simp at hob
    · rename_i hx; rw [hx]; simpa using hob
  have hr := h.rel
  have hne := filledBook_rel hr hob'
  obtain ⟨dir, rfl⟩ : ∃ dir : Dir, side = dir.opposite := ⟨side.opposite, (Dir.opposite_opposite side).symm⟩
  have hptr : MIN_TICK ≤ ob.nextBidTick ∧ ob.nextAskTick ≤ MAX_TICK := by
    obtain ⟨ob2, h1, h2⟩ := hr.ptr
    obtain rfl := orderbook_inj hob' h1
    exact ⟨h2.bidLo, h2.askHi⟩
  have hrange := sweepTicks_range hr (ob := ob) (dir := dir) (bound := r.target.getD (defaultBound dir))
  obtain rfl := levels_sweep hr hob' hl
  -- what an accepted swap is
  have key : ∀ w' resp, step ch w (r.op time) = .ok (w', resp) → ∃ F q' dust lp,
      SwapRun w.store b ob dir (r.target.getD (defaultBound dir)) r.tokenIn.amount F q' dust lp ∧ r.minOut ≤ sumAmount F ∧ sumAmount F ≠ 0 ∧
      FillsOk b F dir.opposite ∧ (∀ t, taken w.store w'.store t dir.opposite = fillAt F t) ∧
      resp = swapResponse r.sender r.tokenIn r.outDenom r.minOut (sumAmount F) q' := by
    intro w' resp hs
    obtain ⟨dir', F, q', dust, lp, bank1, -, h2, -, h3, rfl, h5, h6, h7, hF, hFr, h8, -⟩ := h.swap_inv hs hob'
    have hdd := pair_unique hne hp h3.pair
    obtain rfl : dir' = dir := by cases dir <;> cases dir' <;> simp_all [Dir.opposite]
    refine ⟨F, q', dust, lp, h3.run, h3.minOut, ?_, hF, h8, rfl⟩
    have hdn : r.tokenIn.denom ≠ r.outDenom := by
      rw [h3.denoms.1, h3.denoms.2]
      cases dir' <;> simp only [Orderbook.expectedDenom, Orderbook.oppositeDenom]
      · exact hne
      · exact Ne.symm hne
    exact (exchanged_of h2 hdn h6 h7).2
  refine ⟨⟨?_, ?_⟩, ?_⟩
  · rintro ⟨w', resp, hs⟩
    obtain ⟨F, q', dust, lp, hrun, hmin, hnz, -, -, -⟩ := key w' resp hs
    refine ⟨(targetOk_iff hptr).2 ⟨hrun.boundRange, hrun.boundOk⟩, fillPairs F, q', dust, sweep_match hrun.sweep hrange, ?_, ?_, ?_⟩
    · rw [fillPairs_sum]; exact hnz
    · rw [fillPairs_sum]; exact hmin
    · intro hmf last hlast
      obtain ⟨f, hf, rfl⟩ := fillPairs_last.1 hlast
      have hz : valDown dir q' lp = 0 := by
        rcases hrun.full with h | h
        · exact h
        · exact absurd h ((mustFill_iff hrun.boundRange).1 hmf)
      have hfm : f ∈ F := List.mem_of_getLast? hf
      have hft := hrange _ (hrun.sweep.sublist.subset (List.mem_map_of_mem hfm))
      rw [Dir.opposite_opposite]
      refine floor_value_zero hft.1 hft.2 ?_
      rcases hrun.sweep.last_price.2 f hf with rfl | h
      · exact valDown_zero _ _
      · rw [← h]; exact hz
  · rintro ⟨htg, G, left, dust, hm, hnz, hmin, hfull⟩
    obtain ⟨F, lp, hsw, rfl⟩ := match_sweep hrange D hm
    rw [fillPairs_sum] at hnz hmin
    obtain ⟨hb1, hb2⟩ := (targetOk_iff hptr).1 htg
    have hFne : F ≠ [] := by rintro rfl; exact hnz rfl
    have hrun : SwapRun w.store b ob dir (r.target.getD (defaultBound dir)) r.tokenIn.amount F left dust lp := by
      refine ⟨hpos, hb1, hb2, hsw, ?_⟩
      by_cases hbd : Bounded dir (r.target.getD (defaultBound dir))
      · exact Or.inr hbd
      · left
        obtain ⟨f, hf⟩ : ∃ f, F.getLast? = some f := by
          cases hF : F.getLast? with
          | none => rw [List.getLast?_eq_none_iff] at hF; exact absurd hF hFne
          | some f => exact ⟨f, rfl⟩
        have hv := hfull ((mustFill_iff hb1).2 hbd) _ (fillPairs_last.2 ⟨f, hf, rfl⟩)
        have hft := hrange _ (hsw.sublist.subset (List.mem_map_of_mem (List.mem_of_getLast? hf)))
        rw [Dir.opposite_opposite] at hv
        have hz : valDown dir left (priceNat f.tick) = 0 := by
          rw [valDown_spec hft.1 hft.2, Nat.floor_eq_zero]; exact hv
        rcases hsw.last_price.2 f hf with rfl | h
        · exact valDown_zero _ _
        · rw [h]; exact hz
    have hq : r.tokenIn.amount < U128 := hsz.1
    obtain ⟨post, hpost⟩ := internal_complete hr hob' (order := ⟨r.tokenIn.amount, dir, r.sender⟩) hq hrun
    obtain ⟨F2, q2, d2, lp2, hr2, -, hmo⟩ := runMarketOrder_of_internal hr hob' hq hpost
    obtain ⟨rfl, rfl, rfl, rfl⟩ := hrun.sweep.det hr2.sweep
    simp only at hmo
    have hdd : r.tokenIn.denom = ob.expectedDenom dir ∧ r.outDenom = ob.oppositeDenom dir := by
      refine ⟨hp.1.trans ?_, hp.2.trans ?_⟩ <;> cases dir <;> rfl
    have hSO : SwapOk (ch.env time) w.store b ob r.sender r.tokenIn r.outDenom r.minOut r.fee r.target dir F left dust lp :=
      ⟨hfee, hdd, hvalid, hrun, hmin⟩
    have hdisp := dispatchSwap_of hr hob' hSO hmo
    obtain ⟨msg, g1, g2, -⟩ := swapReq_op_eq r time
    have hst : StoreStep ch (r.op time) w.store b (swapResponse r.sender r.tokenIn r.outDenom r.minOut (sumAmount F) left)
        (swappedStore w.store dir.opposite F ob) (filledBook b F dir.opposite) := by
      rw [g1]; exact .swap ha hob' g2 hq hSO
    obtain ⟨bank1, hsend⟩ : ∃ bank1, w.bank.send r.sender ch.contract r.tokenIn = .ok bank1 := ⟨_, Bank.send_eq_ok.2 ⟨hpos, hbal, rfl⟩⟩
    obtain ⟨bank2, hd⟩ := h.dispatch hn.room.lt_D hst (bank1 := bank1) (by
      intro d
      have := Bank.send_receive hsend hsender d
      rw [this, swap_inflow]) (swapMsgs_pos hnz)
    refine ⟨⟨swappedStore w.store dir.opposite F ob, bank2⟩, _, step_swap_ok.2 ⟨⟨hq, hsz.2, ?_, ?_⟩, hsender, bank1, hsend, ha, hdisp, hd⟩⟩
    · rw [hfee]; unfold U128; norm_num
    · intro t ht
      rw [ht, Option.getD_some] at hb1
      unfold i64Ok
      unfold MIN_TICK MAX_TICK at hb1
      rw [decide_eq_true_eq]
      omega
  · intro w' resp G left dust hs hm
    obtain ⟨F, q', dust', lp, hrun, hmin, hnz, hF, h8, rfl⟩ := key w' resp hs
    rw [sweep_match hrun.sweep hrange] at hm
    simp only [Option.some.injEq, Prod.mk.injEq] at hm
    obtain ⟨rfl, rfl, rfl⟩ := hm
    refine ⟨?_, ?_, ?_⟩
    · rw [fillPairs_sum]; rfl
    · intro x hx
      obtain ⟨f, hf, rfl⟩ := List.mem_map.1 hx
      rw [h8]
      exact fillAt_mem hF.nodup hf
    · intro t ht
      rw [h8]
      refine fillAt_notin fun hm => ht ?_
      have e : (fillPairs F).map Prod.fst = F.map Fill.tick := by unfold fillPairs; rw [List.map_map]; rfl
      rw [e]; exact hm

/-- The levels of C48 exist for every request on every reachable book. -/
theorem C48_levels_exist {ch : Chain} {w : World} (hw : Reachable ch w) (r : SwapReq) (side : Dir) : ∃ levels, r.Levels w.store side levels := by
  obtain ⟨n, hn⟩ := hw
  obtain ⟨b, h⟩ := hn.traced
  exact levels_exist h.rel r side

/-- Non-vacuity: the engine on the levels of the demo book (40000 at tick 0, 500000 at price 0.5) sells 300000 base for 170000 quote. -/
example : matchLevels .bid [(0, 40000), (-5000000, 500000)] 300000 = some ([(0, 40000), (-5000000, 130000)], 0, 0) := by
  have p0 : price 0 = 1 := by unfold price; norm_num
  have p1 : price (-5000000) = 1 / 2 := by unfold price; norm_num
  have c0 : charge .bid 40000 0 = 40000 := by
    unfold charge value; simp only; rw [p0]; norm_num
  have c1 : charge .bid 130000 (-5000000) = 260000 := by
    unfold charge value; simp only; rw [p1]; norm_num
  have v0 : ⌊value .ask 300000 0⌋₊ = 300000 := by unfold value; simp only; rw [p0]; norm_num
  have v1 : ⌊value .ask 260000 (-5000000)⌋₊ = 130000 := by unfold value; simp only; rw [p1]; norm_num
  simp [matchLevels, Dir.opposite, v0, c0, v1, c1]
example : (tickLiquidity Demo.after.store 0 .bid, tickLiquidity Demo.after.store (-5000000) .bid) = (40000, 500000) := by decide +kernel

end OB
