import Verif.Proofs.Answers
import Verif.Props.Quote
/- C68: the reference exchange answers every query. -/
namespace OB
open Spec

theorem price_floor {t : Int} {x : Nat} (h : (x : ℚ) / 10 ^ 18 = price t) : ⌊price t * 10 ^ 18⌋₊ = x := by
  rw [← h, div_mul_cancel₀ _ (by norm_num), Nat.floor_natCast]

theorem answer_pool (s : Store) : answer s .getTotalPoolLiquidity = (totalPoolLiquidity s).toOption.map Answer.coins := by
  unfold answer query
  simp only [EM.get_bind]
  cases totalPoolLiquidity s with
  | error e => simp only [EM.lift_error_bind]; rfl
  | ok x => simp only [EM.lift_ok_bind, EM.pure_apply]; rfl

theorem ref_pool {ch : Chain} {n : Nat} {w : World} {b : Book} (h : Traced ch n w b) (m : Marks) :
    answer w.store .getTotalPoolLiquidity = (refOf w b).answer m .getTotalPoolLiquidity := by
  obtain ⟨ob, hob, -⟩ := h.rel.ptr
  obtain ⟨key, -, hok⟩ := C26_pool_liquidity ⟨_, h.reachable⟩ (denoms_of hob)
  have ho : ∀ d, (fun t => tickLiquidity w.store t d) = fun t => openTotal (b t d) := fun d => funext fun t => (C26_tick_liquidity h t d).2
  simp only [ho] at key hok
  rw [answer_pool]
  simp only [Ref.answer, refS_queues, (refOf_denoms (b := b) hob).1, (refOf_denoms (b := b) hob).2]
  generalize hA : (overTicks fun t => openTotal (b t .ask)) = A at *
  generalize hB : (overTicks fun t => openTotal (b t .bid)) = B at *
  have kA := key .ask
  have kB := key .bid
  rw [hA] at kA
  rw [hB] at kB
  split_ifs with hc
  · rw [hok (fun d => by cases d; rw [kB]; exact hc.2; rw [kA]; exact hc.1)]
    rfl
  · have hbad : ∀ d, ¬ dirLiquidity w.store d < 2 ^ 128 → u128TryFrom (toUintFloor (getDirectionalLiquidity w.store d)) = .error .conversionOverflow := by
      intro d hd
      unfold u128TryFrom
      exact if_neg hd
    unfold totalPoolLiquidity
    simp only [hob]
    by_cases hA' : dirLiquidity w.store .ask < 2 ^ 128
    · have hB' : ¬ dirLiquidity w.store .bid < 2 ^ 128 := fun hh => hc ⟨by rw [← kA]; exact hA', by rw [← kB]; exact hh⟩
      rw [hbad .bid hB']
      cases u128TryFrom (toUintFloor (getDirectionalLiquidity w.store .ask)) <;> rfl
    · rw [hbad .ask hA']
      rfl

theorem quote_iff {s : Store} {c : Coin} {out : Denom} {fee : Nat} :
    answer s (.calcOutAmtGivenIn c out fee) = answer s (.calcOutAmountGivenIn c out fee) ∧
    (∀ a, answer s (.calcOutAmountGivenIn c out fee) = some a → ∃ c', a = .coin c') := by
  refine ⟨rfl, ?_⟩
  intro a ha
  rw [answer_quote] at ha
  cases h : calcOutAmountGivenIn s c out fee with
  | error e => rw [h] at ha; simp [Except.toOption] at ha
  | ok x => rw [h] at ha; simp [Except.toOption] at ha; exact ⟨_, ha.symm⟩

theorem levels_unique {s : Store} {r : SwapReq} {side : Dir} {l l' : List (Int × Nat)} (h : r.Levels s side l) (h' : r.Levels s side l') :
    l = l' := by
  have hirr : ∀ a b : Int × Nat, Better side a.1 b.1 → Better side b.1 a.1 → False := fun a b h1 h2 => by
    cases side <;> simp only [Better] at h1 h2 <;> omega
  have : Std.Irrefl (fun a b : Int × Nat => Better side a.1 b.1) := ⟨fun a h1 => hirr a a h1 h1⟩
  have : Std.Antisymm (fun a b : Int × Nat => Better side a.1 b.1) := ⟨fun a b h1 h2 => (hirr a b h1 h2).elim⟩
  exact List.Pairwise.eq_of_mem_iff h.1 h'.1 fun ⟨t, x⟩ => by rw [h.2, h'.2]

theorem ref_quote {ch : Chain} {n : Nat} {w : World} {b : Book} (h : Traced ch n w b) (m : Marks) (c : Coin) (out : Denom) (fee : Nat)
    (hc : c.amount < 2 ^ 128) :
    answer w.store (.calcOutAmountGivenIn c out fee) = (refOf w b).answer m (.calcOutAmountGivenIn c out fee) := by
  obtain ⟨ob, hob, hp⟩ := h.rel.ptr
  have hne := hp.denoms
  have hbase := (refOf_denoms (b := b) hob).2
  have hq := (refOf_denoms (b := b) hob).1
  have key := C60_quote (w := w) ⟨_, h.reachable⟩ (answer_orderbookState hob) ⟨"", c, out, 0, fee, none⟩ rfl hc
  have hside : ∀ side, SwapReq.pair ⟨"", c, out, 0, fee, none⟩ ob.quoteDenom ob.baseDenom side →
      SwapReq.side ⟨"", c, out, 0, fee, none⟩ ob.baseDenom = side := by
    rintro side ⟨h1, h2⟩
    unfold SwapReq.side
    cases side with
    | bid => exact if_pos h1
    | ask => exact if_neg fun hh => hne (h1.symm.trans hh)
  have hlv := ref_levels h ⟨"", c, out, 0, fee, none⟩ (SwapReq.side ⟨"", c, out, 0, fee, none⟩ ob.baseDenom)
  have hans : ∀ x, (refOf w b).quoteFor ⟨"", c, out, 0, fee, none⟩ = some x ↔
      answer w.store (.calcOutAmountGivenIn c out fee) = some (.coin x) := by
    intro x
    refine Iff.trans ?_ (key x).symm
    unfold Ref.quoteFor
    rw [hbase, hq]
    simp only
    constructor
    · intro hx
      split at hx
      · rename_i F left dust hm
        split_ifs at hx with hcond
        obtain ⟨c1, c2, c3, c4, c5⟩ := hcond
        refine ⟨c1, c2, _, _, F, left, _, c3, hlv, hm, c4, c5, (Option.some.inj hx).symm⟩
      · cases hx
    · rintro ⟨c1, c2, side, levels, F, left, dust, c3, hl, hm, c4, c5, rfl⟩
      obtain rfl := hside side c3
      obtain rfl := levels_unique hlv hl
      rw [hm]
      simp only
      rw [if_pos ⟨c1, c2, c3, c4, c5⟩]
  simp only [Ref.answer]
  cases hx : (refOf w b).quoteFor ⟨"", c, out, 0, fee, none⟩ with
  | some x => rw [(hans x).1 hx]; rfl
  | none =>
    cases ha : answer w.store (.calcOutAmountGivenIn c out fee) with
    | none => rfl
    | some a =>
      obtain ⟨c', rfl⟩ := quote_iff.2 a ha
      rw [(hans c').2 ha] at hx
      cases hx

theorem answer_unrealized_none {s : Store} {ids : List Int} {e : Err} (h : query (.getUnrealizedCancels ids) s = .err e s) :
    answer s (.getUnrealizedCancels ids) = none := by
  unfold answer; rw [h]

theorem allTicks_map (f : Int → Int × TickState) (hf : ∀ t, (f t).1 = t) (ts : List Int) (lo hi : Option Int) (limit : Option Nat) :
    some (Answer.ticks (match limit with
        | some n => ((ts.map f).filter fun p => inBounds lo hi p.1).take n
        | none => (ts.map f).filter fun p => inBounds lo hi p.1)) =
      some (Answer.ticks (((ts.filter fun t => (lo.all fun a => decide (a ≤ t)) && (hi.all fun a => decide (t ≤ a))).map f).take
        (limit.getD ((ts.filter fun t => (lo.all fun a => decide (a ≤ t)) && (hi.all fun a => decide (t ≤ a))).map f).length))) := by
  have e : (ts.map f).filter (fun p => inBounds lo hi p.1) =
      (ts.filter fun t => (lo.all fun a => decide (a ≤ t)) && (hi.all fun a => decide (t ≤ a))).map f := by
    rw [List.filter_map]
    congr 1
    refine List.filter_congr fun t _ => ?_
    simp only [Function.comp, hf, inBounds]
    congr 1
    · cases lo with
      | none => rfl
      | some a => rw [Bool.eq_iff_iff]; simp [Key.lt]
    · cases hi with
      | none => rfl
      | some a => rw [Bool.eq_iff_iff]; simp [Key.lt]
  simp only [e]
  cases limit with
  | none => rw [Option.getD_none, List.take_length]
  | some k => rfl

theorem unrealized_mark {c x y : Nat} (h : c = D * y) : 10 ^ 18 * x - c = 10 ^ 18 * (x - y) := by
  rw [h, D_lit, Nat.mul_sub]

/-- C68 (one state): every query to a reachable book is answered from the state of the reference exchange. -/
theorem ref_answer {ch : Chain} {n : Nat} {w : World} {b : Book} (h : Traced ch n w b) {m : Marks} (hm : MarksRel w.store m) (q : QueryMsg)
    (hf : QueryFits q) : answer w.store q = (refOf w b).answer m q := by
  have hr := h.rel
  obtain ⟨ob, hob, hp⟩ := hr.ptr
  have hbase := (refOf_denoms (b := b) hob).2
  have hquote := (refOf_denoms (b := b) hob).1
  have hbest : ∀ d, (refOf w b).best d = match d with | .bid => ob.nextBidTick | .ask => ob.nextAskTick := by
    intro d; cases d <;> simp [refS, hob]
  cases q with
  | spotPrice q' b' =>
    obtain ⟨ob', h1, ⟨x, h2, h3⟩, h4, h5⟩ := C43_spot_price ⟨_, h.reachable⟩ (denoms_of hob)
    obtain rfl := orderbook_inj (answer_orderbookState_iff.1 h1) hob
    simp only [Ref.answer, hbase, hquote, hbest]
    split_ifs with c1 c2
    · rw [c1.1, c1.2, h2, price_floor h3]
    · rw [c2.1, c2.2, h4]
    · unfold answer; rw [h5 q' b' c1 c2]
  | calcOutAmountGivenIn c out fee => exact ref_quote h m c out fee hf
  | calcOutAmtGivenIn c out fee => exact ref_quote h m c out fee hf
  | getTotalPoolLiquidity => exact ref_pool h m
  | calcInAmtGivenOut => rfl
  | allTicks lo hi limit =>
    rw [answer_allTicks]
    unfold OB.allTicks
    simp only [Ref.answer]
    have hu := ticks_used hr hm w.bank
    generalize (refOf w b).usedTicks = ts at hu ⊢
    generalize hf : (refOf w b).tick m = f at hu ⊢
    have hf1 : ∀ t, (f t).1 = t := fun t => by rw [← hf]; rfl
    clear hf
    rw [hu]
    exact allTicks_map f hf1 ts lo hi limit
  | isActive => rfl
  | getSwapFee => rfl
  | ordersByOwner owner lo hi limit =>
    obtain ⟨all, h1, h2⟩ := C40_orders_by_owner h owner
    have hl := listOf_of_iff (listing_filter hr w.bank fun o => decide (o.owner = owner)) (Q := fun o => o.owner = owner) (fun o => by simp)
    obtain rfl := ListOf.unique h1 hl
    rw [h2]
    rfl
  | orderbookState =>
    rw [answer_orderbookState hob]
    have hz := current_zero h hob
    simp only [Ref.answer, hbase, hquote, hbest]
    cases ob
    simp only at hz
    rw [hz]
  | ticksById ids =>
    obtain ⟨h1, h2⟩ := C41_ticks_by_id h ids
    simp only [Ref.answer]
    by_cases hu : ∀ t ∈ ids, Used (refOf w b).queues t
    · rw [if_pos hu]
      have e := ticksById_ok (s := w.store) (ids := ids) fun t ht => (used_iff hr t).1 (hu t ht)
      have : query (.ticksById ids) w.store = .ok (.ticks (ids.map fun t => (t, (w.store.ticks.get? t).getD .default))) w.store := by
        unfold query
        simp only [EM.get_bind, e, EM.lift_ok_bind, EM.pure_apply]
      unfold answer
      rw [this]
      simp only [Option.some.injEq, Answer.ticks.injEq]
      exact List.map_congr_left fun t _ => (ref_tick hr hm w.bank rfl).symm
    · rw [if_neg hu]; exact (h2 hu).1
  | ordersByTick tick lo hi limit =>
    obtain ⟨all, h1, h2⟩ := C40_orders_by_tick h tick
    have hl := listOf_of_iff (listing_filter hr w.bank fun o => decide (o.tickId = tick)) (Q := fun o => o.tickId = tick) (fun o => by simp)
    obtain rfl := ListOf.unique h1 hl
    rw [h2]
    simp only [Ref.answer, List.filter_filter]
    have e : ∀ l : List LimitOrder, (l.filter fun o => withinIds lo hi o && decide (o.tickId = tick)) =
        l.filter fun o => decide (o.tickId = tick) && withinIds lo hi o := fun l => List.filter_congr fun o _ => Bool.and_comm _ _
    simp only [e]
  | denoms =>
    have e : denoms w.store = .ok (ob.quoteDenom, ob.baseDenom) := denoms_of hob
    unfold answer query
    simp only [EM.get_bind, e, EM.lift_ok_bind, EM.pure_apply, Ref.answer, hbase, hquote]
  | getMakerFee => rfl
  | getUnrealizedCancels ids =>
    obtain ⟨h1, h2, h3⟩ := C42_unrealized_cancels h ids
    simp only [Ref.answer]
    by_cases hu : ∀ t ∈ ids, Used (refOf w b).queues t
    · rw [if_pos hu, h1 hu]
      simp only [Option.some.injEq, Answer.unrealized.injEq]
      refine List.map_congr_left fun t _ => ?_
      have e : ∀ d, 10 ^ 18 * dueTotal (b t d) - (tickValues w.store t d).crc = 10 ^ 18 * (dueTotal (b t d) - (m t d).realized) :=
        fun d => unrealized_mark (hm t d).1
      rw [e, e, refS_queues]
    · rw [if_neg hu]
      obtain ⟨t, -, -, h4⟩ := h3 hu
      exact answer_unrealized_none h4
  | auth q => cases q <;> rfl

theorem marks_run {ch : Chain} {n : Nat} {w : World} {b : Book} (h : Traced ch n w b) {m : Marks} (hm : MarksRel w.store m) (ops : List Op)
    (hn : (run ch w ops).HasRoom) :
    ∃ b', Traced ch (n + ops.length) (run ch w ops) b' ∧ ((refOf w b).runMarks ch m ops).1 = refOf (run ch w ops) b' ∧
      MarksRel (run ch w ops).store ((refOf w b).runMarks ch m ops).2 := by
  induction ops generalizing n w b m with
  | nil => exact ⟨b, h, rfl, hm⟩
  | cons op ops ih =>
    have hst := C67_step h (run_room_back h hn) op
    rw [run_cons] at hn ⊢
    unfold Ref.runMarks
    have hlen : n + (op :: ops).length = n + 1 + ops.length := by rw [List.length_cons]; omega
    cases hs : step ch w op with
    | error e =>
      rw [hs] at hst
      simp only at hst
      have ha : apply ch w op = w := by unfold apply; rw [hs]
      rw [ha] at hn
      rw [hst, ha, hlen]
      simp only
      exact ih (Traced.failed h hs) hm hn
    | ok x =>
      obtain ⟨w', resp⟩ := x
      rw [hs] at hst
      simp only at hst
      have ha : apply ch w op = w' := by unfold apply; rw [hs]
      rw [ha] at hn
      rw [hst, ha, hlen]
      simp only
      exact ih (Traced.ok h hs) (marks_step (h.step hs) h.rel hm w.bank) hn

theorem initial_marks {ch : Chain} {w : World} (hi : Initial ch w) : MarksRel w.store fun _ _ => ⟨0, 0⟩ := by
  have h := (Traced.init hi).rel
  intro t d
  have : w.store.ticks.get? t = none := by
    by_contra hh
    rcases (h.known t).1 hh with hh | hh <;> exact hh rfl
  unfold tv
  rw [this]
  cases d <;> exact ⟨rfl, rfl⟩

/-- C68: after any history that leaves room, every query to the contract gets the answer that the reference exchange gives (or
both give none). -/
theorem C68_queries {ch : Chain} {w0 : World} (hi : Initial ch w0) {quote base : Denom} (hd : denoms w0.store = .ok (quote, base))
    (ops : List Op) (hn : (run ch w0 ops).HasRoom) (q : QueryMsg) (hf : QueryFits q) :
    let end_ := (Ref.fresh quote base w0.bank).runMarks ch (fun _ _ => ⟨0, 0⟩) ops
    end_.1 = (Ref.run ch (Ref.fresh quote base w0.bank) ops).1 ∧ answer (run ch w0 ops).store q = end_.1.answer end_.2 q := by
  intro end_
  have he : end_ = (refOf w0 Book.empty).runMarks ch (fun _ _ => ⟨0, 0⟩) ops := by rw [fresh_ref hi hd]
  obtain ⟨b', h1, h2, h3⟩ := marks_run (Traced.init hi) (initial_marks hi) ops hn
  rw [← he] at h2 h3
  refine ⟨?_, ?_⟩
  · rw [show end_ = (Ref.fresh quote base w0.bank).runMarks ch (fun _ _ => ⟨0, 0⟩) ops from rfl]
    generalize (fun _ _ => ⟨0, 0⟩ : Marks) = m
    generalize Ref.fresh quote base w0.bank = r
    clear hn end_ he h1 h2 h3
    induction ops generalizing r m with
    | nil => rfl
    | cons op ops ih =>
      unfold Ref.runMarks Ref.run
      cases r.step ch op with
      | ok x => exact ih _ _
      | error e => exact ih _ _
  · rw [ref_answer h1 h3 q hf, h2]

/-- Non-vacuity: what the reference exchange answers after the demo history and some more (a claim at tick 0 has synced it). -/
example : let e := (Ref.fresh "q" "b" Demo.bank0).runMarks Demo.ch (fun _ _ => ⟨0, 0⟩) Demo.longer
    e.1.answer e.2 (.ordersByOwner "dave" none none none) =
      some (.orders 1 [⟨0, 3, .bid, "dave", 40000, 260000 * 10 ^ 18, some (10 ^ 16), 100000, 7⟩]) ∧
    e.1.answer e.2 (.ticksById [0]) = some (.ticks [(0, ⟨.default,
      ⟨40000 * 10 ^ 18, 300000 * 10 ^ 18, 260000 * 10 ^ 18, 200000 * 10 ^ 18, 60000 * 10 ^ 18⟩⟩)]) ∧
    e.1.answer e.2 (.calcOutAmountGivenIn ⟨"b", 10000⟩ "q" 0) = some (.coin ⟨"q", 10000⟩) ∧ e.1.answer e.2 (.ticksById [1]) = none := by
  have h := fun q hf => (C68_queries Demo.initial (quote := "q") (base := "b") rfl Demo.longer ((C72_room Demo.initial _).2.1 (by decide +kernel)) q hf).2
  have h1 := h (.ordersByOwner "dave" none none none) trivial
  have h2 := h (.ticksById [0]) trivial
  have h3 := h (.calcOutAmountGivenIn ⟨"b", 10000⟩ "q" 0) (by show 10000 < 2 ^ 128; norm_num)
  have h4 := h (.ticksById [1]) trivial
  exact ⟨h1.symm.trans (by decide +kernel), h2.symm.trans (by decide +kernel), h3.symm.trans (by decide +kernel), h4.symm.trans (by decide +kernel)⟩

end OB
