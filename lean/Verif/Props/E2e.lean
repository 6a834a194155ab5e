import Verif.Proofs.Snapshot
import Verif.Props.Sync
import Verif.Props.Funds
import Verif.Props.Exit
import Verif.Props.Room
/-
C104: what the project's end-to-end and fuzz tests assert after the operations they happen to run (tests/e2e/utils.rs: tick_invariants,
has_liquidity, clean_ticks, no_remaining_orders) holds after every history, in terms of the answers of the queries. The fifth assertion,
decrementing_market_order_output, does not; see C103.
-/
namespace OB
open Spec

/-- The part of an answer to the unrealized-cancels query for one side. -/
def Spec.ofSide (d : Dir) (ask bid : Nat) : Nat := match d with | .ask => ask | .bid => bid

theorem due_le_cancelled {q : List Entry} : dueTotal q ≤ cancelledTotal q := by
  induction q with
  | nil => exact Nat.zero_le _
  | cons x q ih =>
    rw [show dueTotal (x :: q) = if x.left = 0 then (if x.cancelled then x.placed - x.filled else 0) + dueTotal q else 0 from rfl]
    unfold cancelledTotal at ih ⊢
    rw [List.map_cons, List.sum_cons]
    split
    · omega
    · exact Nat.zero_le _

theorem due_all {q : List Entry} (h : ∀ x ∈ q, x.left = 0) : dueTotal q = cancelledTotal q := by
  induction q with
  | nil => rfl
  | cons x q ih =>
    have ih := ih fun y hy => h y (by simp [hy])
    unfold dueTotal
    rw [if_pos (h x (by simp)), ih]
    unfold cancelledTotal
    rw [List.map_cons, List.sum_cons]

/-- C104 (ticks): on every reachable book, for every tick that the tick query lists and each side: the amount swapped is at most the total
placed, even together with the open liquidity and the unrealized cancels; amount swapped and unrealized cancels add up to the total placed
exactly if the side has no liquidity; and a side of which the order query lists no order has no liquidity. -/
theorem C104_ticks {ch : Chain} {w : World} (hw : Reachable ch w) {l : List (Int × TickState)}
    (hl : answer w.store (.allTicks none none none) = some (.ticks l)) {t : Int} {ts : TickState} (ht : (t, ts) ∈ l) :
    ∃ ask bid count orders, answer w.store (.getUnrealizedCancels [t]) = some (.unrealized [(t, ask, bid)]) ∧
      answer w.store (.ordersByTick t none none none) = some (.orders count orders) ∧
      ∀ d, let v := ts.getValues d
        v.tal + v.etas + ofSide d ask bid ≤ v.ctv ∧ (v.etas + ofSide d ask bid = v.ctv ↔ v.tal = 0) ∧
        ((∀ o ∈ orders, o.dir ≠ d) → v.tal = 0) := by
  obtain ⟨n, hn⟩ := hw
  obtain ⟨b, h⟩ := hn.traced
  obtain ⟨all, -, h2, h3, h4⟩ := C41_all_ticks h
  have e : all = l := by
    have := h4 none none none
    rw [hl] at this
    have := Answer.ticks.inj (Option.some.inj this)
    rw [this]
    exact (List.filter_eq_self.2 fun _ _ => rfl).symm
  subst e
  have hu : Used b t := (h2 t).1 (List.mem_map.2 ⟨_, ht, rfl⟩)
  obtain ⟨c1, c2, -⟩ := C42_unrealized_cancels h [t]
  have c1 := c1 fun x hx => by rw [List.mem_singleton.1 hx]; exact hu
  obtain ⟨os, o1, o2⟩ := C40_orders_by_tick h t
  refine ⟨_, _, _, _, c1, o2 none none none, fun d => ?_⟩
  have hv : ts.getValues d = tickValues w.store t d := h3 _ ht d
  have hof : ofSide d (10 ^ 18 * dueTotal (b t .ask) - (tickValues w.store t .ask).crc) (10 ^ 18 * dueTotal (b t .bid) - (tickValues w.store t .bid).crc) =
      10 ^ 18 * dueTotal (b t d) - (tickValues w.store t d).crc := by cases d <;> rfl
  have hos : (os.filter (withinIds none none)) = os := List.filter_eq_self.2 fun _ _ => rfl
  simp only [hof, hv, hos, Option.map_none, Option.getD_none, List.take_length]
  have hcrc := c2 t d
  obtain ⟨a1, a2, -⟩ := C28_accounting h t d
  have a4 : (tickValues w.store t d).tal = 10 ^ 18 * sumBy Entry.left (b t d) := by
    obtain ⟨r, rt, hs, -, -⟩ := h.rel.sides t d
    exact hs.tal
  have hok : ∀ x ∈ b t d, EntryOk x := (h.rel.qok t d).ok
  have s1 := sum_cap_gap hok
  have s2 := sum_filled_left hok
  have s3 := due_le_cancelled (q := b t d)
  have s4 : sumBy Entry.left (b t d) = 0 → dueTotal (b t d) = cancelledTotal (b t d) := fun hz => due_all fun x hx => by
    have : x.left ≤ sumBy Entry.left (b t d) := by
      unfold sumBy
      exact List.single_le_sum (fun _ _ => Nat.zero_le _) _ (List.mem_map.2 ⟨x, hx, rfl⟩)
    omega
  rw [cancelledTotal_eq hok] at s3 s4
  rw [placedTotal_eq] at a1
  rw [filledTotal_eq] at a2
  refine ⟨by omega, ⟨fun hz => by omega, fun hz => ?_⟩, fun hno => ?_⟩
  · have := s4 (by omega); omega
  · rcases (h.rel.qok t d).frontier t d with hf | ⟨o, ho, -⟩
    · unfold front at hf
      rw [← dueTotal_eq hok (h.rel.qok t d).fifo] at hf
      omega
    · obtain ⟨k1, k2, k3⟩ := mem_shownQ_listed.1 ho
      exact absurd k3 (hno o ((o1.2 o).2 ⟨k1, k2⟩))

/-- C104 (pointers): no listed tick with bid liquidity is above the best-bid pointer of the book query, none with ask liquidity is below the
best-ask pointer. -/
theorem C104_pointers {ch : Chain} {w : World} (hw : Reachable ch w) {l : List (Int × TickState)} {ob : Orderbook}
    (hl : answer w.store (.allTicks none none none) = some (.ticks l)) (hob : answer w.store .orderbookState = some (.book ob)) {t : Int}
    {ts : TickState} (ht : (t, ts) ∈ l) :
    ((ts.getValues .bid).tal ≠ 0 → t ≤ ob.nextBidTick) ∧ ((ts.getValues .ask).tal ≠ 0 → ob.nextAskTick ≤ t) := by
  obtain ⟨n, hn⟩ := hw
  obtain ⟨b, h⟩ := hn.traced
  obtain ⟨ob', hob', h1⟩ := h.rel.ptr
  rw [answer_orderbookState hob'] at hob
  obtain rfl := Answer.book.inj (Option.some.inj hob)
  obtain ⟨all, -, h2, h3, h4⟩ := C41_all_ticks h
  have e : all = l := by
    have := h4 none none none
    rw [hl] at this
    have := Answer.ticks.inj (Option.some.inj this)
    rw [this]
    exact (List.filter_eq_self.2 fun _ _ => rfl).symm
  subst e
  have a4 : ∀ d, (ts.getValues d).tal = 10 ^ 18 * sumBy Entry.left (b t d) := by
    intro d
    obtain ⟨r, rt, hs, -, -⟩ := h.rel.sides t d
    rw [h3 _ ht d]
    exact hs.tal
  exact ⟨fun hz => h1.bid t (by rw [a4] at hz; omega), fun hz => h1.ask t (by rw [a4] at hz; omega)⟩

theorem pool_coins {s : Store} {ob : Orderbook} (hob : s.orderbook = some ob) {l : List Coin} (h : totalPoolLiquidity s = .ok l) :
    ∀ c ∈ l, ∃ d, c = ⟨ob.expectedDenom d, dirLiquidity s d⟩ := by
  unfold totalPoolLiquidity at h
  rw [hob] at h
  simp only at h
  rw [Except.bind_eq_ok'] at h
  obtain ⟨a, ha, h⟩ := h
  rw [Except.bind_eq_ok'] at h
  obtain ⟨c, hc, h⟩ := h
  cases h
  have key : ∀ {d : Denom} {x : Nat} {r : Coin}, (match u128TryFrom x with | .ok x => Except.ok ⟨d, x⟩ | .error _ => Except.error Err.panic) =
      Except.ok r → r = ⟨d, x⟩ := by
    intro d x r hr
    unfold u128TryFrom at hr
    split_ifs at hr with hx
    · cases hr; rfl
  intro y hy
  rcases List.mem_cons.1 hy with rfl | hy
  · exact ⟨.ask, key ha⟩
  · rw [List.mem_singleton.1 hy]; exact ⟨.bid, key hc⟩

/-- C104 (balances): the contract holds at least the pool liquidity that the query reports, in each denom (as long as fewer than 10^18 orders
have been placed). -/
theorem C104_balances {ch : Chain} {w : World} (hw : Reachable ch w) (hn : w.store.orderId.getD 0 < 10 ^ 18) {cs : List Coin}
    (hq : answer w.store .getTotalPoolLiquidity = some (.coins cs)) : ∀ c ∈ cs, c.amount ≤ w.bank ch.contract c.denom := by
  obtain ⟨n, hn'⟩ := hw
  obtain ⟨b, h⟩ := hn'.traced
  obtain ⟨ob, hob, -⟩ := h.rel.ptr
  have hd := denoms_of hob
  have hle : ∀ d, (overTicks fun t => tickLiquidity w.store t d) ≤ w.bank ch.contract (denomIn ob.quoteDenom ob.baseDenom d) := by
    intro d
    have := C27_solvency h hn hd d
    have e : (fun t => tickLiquidity w.store t d) = fun t => openTotal (b t d) := by
      funext t; rw [(C26_tick_liquidity h t d).2]
    rw [e]
    omega
  obtain ⟨k1, -, k3⟩ := C26_pool_liquidity ⟨n, hn'⟩ hd
  rw [answer_pool] at hq
  cases hp : totalPoolLiquidity w.store with
  | error e => rw [hp] at hq; cases hq
  | ok l =>
    rw [hp] at hq
    obtain rfl : l = cs := Answer.coins.inj (Option.some.inj hq)
    intro c hc
    obtain ⟨d, rfl⟩ := pool_coins hob hp c hc
    show dirLiquidity w.store d ≤ _
    rw [k1 d, ← denomIn_eq]
    exact hle d

/-- C104 (clearing): if the owner of every live order of an active book claims and then cancels it, in any order of orders, then no order
remains, and on every listed tick and side the amount swapped and the unrealized cancels add up to the total placed. -/
theorem C104_cleared {ch : Chain} {n : Nat} {w : World} {b : Book} (h : Traced ch n w b) (ha : isActive w.store = true)
    {lo : List (Int × Dir × Entry)} (hlo : LiveOrders b lo) (hn : w.HasRoom) (time : Nat) {l : List (Int × TickState)}
    (hl : answer (run ch w (exits time lo)).store (.allTicks none none none) = some (.ticks l)) {t : Int} {ts : TickState} (ht : (t, ts) ∈ l) :
    answer (run ch w (exits time lo)).store (.ordersByTick t none none none) = some (.orders 0 []) ∧
    ∃ ask bid, answer (run ch w (exits time lo)).store (.getUnrealizedCancels [t]) = some (.unrealized [(t, ask, bid)]) ∧
      ∀ d, (ts.getValues d).tal = 0 ∧ (ts.getValues d).etas + ofSide d ask bid = (ts.getValues d).ctv := by
  obtain ⟨ob, hob, -⟩ := h.rel.ptr
  have h1 := (C64_wind_down h ha (denoms_of hob) hlo hn time).1
  obtain ⟨ask, bid, count, orders, k1, k2, k3⟩ := C104_ticks (Reachable.run ⟨_, h.reachable⟩ _) hl ht
  have e : answer (run ch w (exits time lo)).store (.ordersByTick t none none none) = some (.orders 0 []) := by
    rw [answer_ordersByTick]
    have : ordersByTick (run ch w (exits time lo)).store t none none none = (0, []) := by
      unfold ordersByTick
      rw [h1]
      rfl
    rw [this]
  refine ⟨e, ask, bid, k1, fun d => ?_⟩
  rw [e] at k2
  obtain ⟨-, rfl⟩ := Answer.orders.inj (Option.some.inj k2)
  obtain ⟨-, g2, g3⟩ := k3 d
  have := g3 (by simp)
  exact ⟨this, g2.2 this⟩

theorem unfilled_le (q : List Entry) : (q.filter fun x => decide (x.left ≠ 0)).length ≤ sumBy Entry.left q := by
  induction q with
  | nil => exact Nat.zero_le _
  | cons x q ih =>
    rw [sumBy_cons, List.filter_cons]
    split
    · rename_i hx
      have : x.left ≠ 0 := of_decide_eq_true hx
      rw [List.length_cons]; omega
    · omega

/-- C104 (unfilled orders): the number of live orders of a side that are not completely filled is at most the liquidity of the side. So at
most one order cannot be claimed completely if the liquidity is down to 1, as the fuzz test asserts. -/
theorem C104_unfilled {ch : Chain} {n : Nat} {w : World} {b : Book} (h : Traced ch n w b) {lo : List (Int × Dir × Entry)}
    (hlo : LiveOrders b lo) (d : Dir) :
    (lo.filter fun e => decide (e.2.1 = d ∧ e.2.2.filled < e.2.2.placed)).length ≤ dirLiquidity w.store d := by
  classical
  obtain ⟨ob, hob, -⟩ := h.rel.ptr
  obtain ⟨k1, k2, -⟩ := C26_pool_liquidity ⟨_, h.reachable⟩ (denoms_of hob)
  rw [k1 d]
  have hnd : (lo.filter fun e => decide (e.2.1 = d ∧ e.2.2.filled < e.2.2.placed)).Nodup := hlo.once.filter _
  rw [← List.toFinset_card_of_nodup hnd]
  generalize hS : (lo.filter fun e => decide (e.2.1 = d ∧ e.2.2.filled < e.2.2.placed)).toFinset = S
  have hmem : ∀ e ∈ S, e.2.2 ∈ b e.1 d ∧ e.2.2.left ≠ 0 ∧ e.2.1 = d := by
    rintro ⟨t, d', x⟩ he
    rw [← hS, List.mem_toFinset, List.mem_filter] at he
    obtain ⟨h1, h2⟩ := he
    obtain ⟨rfl, h3⟩ := of_decide_eq_true h2
    obtain ⟨h4, h5⟩ := (hlo.all t d' x).1 h1
    refine ⟨h4, ?_, rfl⟩
    simp only at h3 ⊢
    unfold Entry.left
    rw [h5.1]
    simp only [Bool.false_eq_true, if_false]
    omega
  have hliq : ∀ e ∈ S, tickLiquidity w.store e.1 d ≠ 0 := by
    intro e he
    obtain ⟨h1, h2, -⟩ := hmem e he
    rw [h.rel.tickLiq]
    have : e.2.2.left ≤ sumBy Entry.left (b e.1 d) := by
      unfold sumBy
      exact List.single_le_sum (fun _ _ => Nat.zero_le _) _ (List.mem_map.2 ⟨_, h1, rfl⟩)
    omega
  have hmaps : ∀ e ∈ S, e.1 ∈ Finset.Icc (-108000000 : Int) 182402823 := fun e he => Finset.mem_Icc.2 (k2 _ _ (hliq e he))
  unfold overTicks
  revert hmaps
  generalize Finset.Icc (-108000000 : Int) 182402823 = I
  intro hmaps
  rw [Finset.card_eq_sum_card_fiberwise (f := fun e : Int × Dir × Entry => e.1) (t := I) (fun e he => hmaps e he)]
  refine Finset.sum_le_sum fun t _ => ?_
  rw [h.rel.tickLiq]
  refine le_trans ?_ (unfilled_le (b t d))
  refine le_trans ?_ (List.toFinset_card_le _)
  refine Finset.card_le_card_of_injOn (fun e => e.2.2) (fun e he => ?_) ?_
  · have he := Finset.mem_filter.1 he
    obtain ⟨h1, h2, -⟩ := hmem e he.1
    rw [he.2] at h1
    simpa using ⟨h1, h2⟩
  · intro e he e' he' heq
    have he := Finset.mem_filter.1 he
    have he' := Finset.mem_filter.1 he'
    have h1 := (hmem e he.1).2.2
    have h2 := (hmem e' he'.1).2.2
    obtain ⟨t1, d1, x1⟩ := e
    obtain ⟨t2, d2, x2⟩ := e'
    simp only at heq h1 h2 he he'
    rw [heq, h1, h2, he.2, he'.2]

/-! ### Non-vacuity: the demo book has ticks with and without open orders, and one with an unrealized cancel. -/

example : (match answer Demo.after.store (.allTicks none none none) with | some (.ticks l) => l.map fun x => (x.1, (x.2.getValues .bid).tal) | _ => []) =
    [(-5000000, 500000 * 10 ^ 18), (0, 40000 * 10 ^ 18), (10, 0)] := by decide +kernel
example : answer Demo.after.store .getTotalPoolLiquidity = some (.coins [⟨"b", 50000⟩, ⟨"q", 540000⟩]) ∧ Demo.after.store.orderId.getD 0 < 10 ^ 18 := by
  constructor <;> decide +kernel
/-- After everybody has left the demo book nothing was filled at tick -5000000, and 260000 of 300000 at tick 0; the rest is unrealized cancels. -/
example : (run Demo.ch Demo.after (exits 9 Demo.live)).store.ticks.map (fun x => (x.1, (x.2.getValues .bid).etas, (x.2.getValues .bid).ctv)) =
      [(-5000000, 0, 500000 * 10 ^ 18), (0, 260000 * 10 ^ 18, 300000 * 10 ^ 18), (10, 0, 0)] ∧
    answer (run Demo.ch Demo.after (exits 9 Demo.live)).store (.getUnrealizedCancels [-5000000, 0]) =
      some (.unrealized [(-5000000, 0, 500000 * 10 ^ 18), (0, 0, 40000 * 10 ^ 18)]) := by
  constructor <;> decide +kernel
-- The hypotheses of C104_cleared are those of C64; see its example.

/-- C104 (unfilled orders): three live orders on the demo book, none filled completely. -/
example : Demo.live.length = 3 ∧ Demo.live.all (fun e => decide (e.2.2.filled < e.2.2.placed)) = true := by
  constructor <;> decide +kernel

end OB
