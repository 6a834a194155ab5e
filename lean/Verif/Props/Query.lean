import Verif.Proofs.QueryObs
import Verif.Proofs.Demo
import Verif.Proofs.Text
import Verif.Proofs.SpecPrice
/- C40, C41, C43, C45: queries. -/
namespace OB
open Spec

theorem answer_ordersByOwner (s : Store) (a : Addr) (lo hi : Option (Int × Nat)) (limit : Option Nat) :
    answer s (.ordersByOwner a lo hi limit) = some (.orders (ordersByOwner s a lo hi limit).1 (ordersByOwner s a lo hi limit).2) := rfl

theorem answer_ordersByTick (s : Store) (t : Int) (lo hi : Option Nat) (limit : Option Nat) :
    answer s (.ordersByTick t lo hi limit) = some (.orders (ordersByTick s t lo hi limit).1 (ordersByTick s t lo hi limit).2) := rfl

theorem answer_allTicks (s : Store) (lo hi : Option Int) (limit : Option Nat) :
    answer s (.allTicks lo hi limit) = some (.ticks (allTicks s lo hi limit)) := rfl

theorem listOf_of_iff {b : Book} {P Q : LimitOrder → Prop} {all : List LimitOrder} (h : ListOf b P all) (hpq : ∀ o, P o ↔ Q o) :
    ListOf b Q all := ⟨h.1, fun o => by rw [h.2 o, hpq o]⟩

/-- C40: the orders-by-owner query answers with the number of the owner's live orders and with those of them within the inclusive
bounds, ascending by (tick, id), cut off at the limit (100 by default, and modulo 2^32). -/
theorem C40_orders_by_owner {ch : Chain} {n : Nat} {w : World} {b : Book} (h : Traced ch n w b) (owner : Addr) :
    ∃ all, ListOf b (fun o => o.owner = owner) all ∧ ∀ lo hi limit,
      answer w.store (.ordersByOwner owner lo hi limit) =
        some (.orders all.length ((all.filter (within lo hi)).take (limit.getD 100 % 2 ^ 32))) := by
  refine ⟨_, listOf_of_iff (h.rel.listOf fun o => decide (o.owner = owner)) (fun o => by simp), ?_⟩
  intro lo hi limit
  rw [answer_ordersByOwner, h.rel.ordersByOwner]

/-- C40: the orders-by-tick query answers with the live orders of the tick within the inclusive bounds, ascending by id, cut off at the
limit (none by default), and with their number before the cut. -/
theorem C40_orders_by_tick {ch : Chain} {n : Nat} {w : World} {b : Book} (h : Traced ch n w b) (tick : Int) :
    ∃ all, ListOf b (fun o => o.tickId = tick) all ∧ ∀ lo hi limit,
      answer w.store (.ordersByTick tick lo hi limit) =
        some (.orders (all.filter (withinIds lo hi)).length
          ((all.filter (withinIds lo hi)).take ((limit.map (· % 2 ^ 32)).getD (all.filter (withinIds lo hi)).length))) := by
  refine ⟨_, listOf_of_iff (h.rel.listOf fun o => decide (o.tickId = tick)) (fun o => by simp), ?_⟩
  intro lo hi limit
  rw [answer_ordersByTick, h.rel.ordersByTick]

instance : Key Nat where
  lt a b := decide (a < b)
  irrefl a := by simp
  trans a b c := by simp; omega
  tri a b := by simp; omega

/-- C40: a client reading page after page of any size, each page starting at the id after the last order seen, sees every live order of
the owner exactly once, in ascending order. -/
theorem C40_paging_by_owner {ch : Chain} {n : Nat} {w : World} {b : Book} (h : Traced ch n w b) (owner : Addr) {k : Nat} (hk : 0 < k)
    (hk32 : k < 2 ^ 32) :
    ∃ all, ListOf b (fun o => o.owner = owner) all ∧ ∀ pages, all.length ≤ pages →
      crawl (fun start => ordersIn (answer w.store (.ordersByOwner owner start none (some k)))) (fun o => (o.tickId, o.orderId + 1))
        pages none = all := by
  obtain ⟨all, h1, h2⟩ := C40_orders_by_owner h owner
  refine ⟨all, h1, ?_⟩
  intro pages hp
  have e : (fun start => ordersIn (answer w.store (.ordersByOwner owner start none (some k)))) =
      fun lo => (all.filter fun a => inBounds lo none (a.tickId, a.orderId)).take k := by
    funext lo
    rw [h2, Option.getD_some, Nat.mod_eq_of_lt hk32]
    simp only [ordersIn]
    congr 1
    exact List.filter_congr fun o _ => (inBounds_within lo none o).symm
  rw [e]
  have ha : (all.filter fun a => inBounds none none (a.tickId, a.orderId)) = all := by
    rw [List.filter_eq_self]; intros; rfl
  have := crawl_all all (fun o => (o.tickId, o.orderId)) (fun p : Int × Nat => (p.1, p.2 + 1))
    (by
      intro a b
      simp only [Key.lt, Bool.or_eq_true, Bool.and_eq_true, decide_eq_true_eq, Bool.or_eq_false_iff, Bool.and_eq_false_iff,
        decide_eq_false_iff_not]
      omega)
    (h1.1.imp fun {a b} hab => by
      simpa [Key.lt, Asc] using hab)
    none hk pages none (by rw [ha]; exact hp)
  rw [ha] at this
  exact this

/-- C40: the same for the orders of a tick. -/
theorem C40_paging_by_tick {ch : Chain} {n : Nat} {w : World} {b : Book} (h : Traced ch n w b) (tick : Int) {k : Nat} (hk : 0 < k)
    (hk32 : k < 2 ^ 32) :
    ∃ all, ListOf b (fun o => o.tickId = tick) all ∧ ∀ pages, all.length ≤ pages →
      crawl (fun start => ordersIn (answer w.store (.ordersByTick tick start none (some k)))) (fun o => o.orderId + 1)
        pages none = all := by
  obtain ⟨all, h1, h2⟩ := C40_orders_by_tick h tick
  refine ⟨all, h1, ?_⟩
  intro pages hp
  have e : (fun start => ordersIn (answer w.store (.ordersByTick tick start none (some k)))) =
      fun lo => (all.filter fun a => inBounds lo none a.orderId).take k := by
    funext lo
    rw [h2, Option.map_some, Option.getD_some, Nat.mod_eq_of_lt hk32]
    simp only [ordersIn]
    congr 1
    refine List.filter_congr fun o _ => ?_
    unfold inBounds withinIds
    cases lo with
    | none => rfl
    | some l =>
      rw [Bool.eq_iff_iff]
      simp [Key.lt]
  rw [e]
  have ha : (all.filter fun a => inBounds none none a.orderId) = all := by
    rw [List.filter_eq_self]; intros; rfl
  have := crawl_all all (fun o => o.orderId) (fun p : Nat => p + 1)
    (by
      intro a b
      simp only [Key.lt, decide_eq_true_eq, decide_eq_false_iff_not]
      omega)
    (h1.1.imp_of_mem fun {a b} ha hb hab => by
      have h3 := ((h1.2 a).1 ha).2
      have h4 := ((h1.2 b).1 hb).2
      simp only [Key.lt, decide_eq_true_eq]
      rcases hab with hab | hab
      · omega
      · exact hab.2)
    none hk pages none (by rw [ha]; exact hp)
  rw [ha] at this
  exact this

/-- The demo book: two live orders of dave and bob are found by owner; tick 0 shows one. -/
example : answer (Demo.trace Demo.history).1.store (.ordersByOwner "dave" none none none) =
    some (.orders 1 [⟨0, 3, .bid, "dave", 100000, 200000 * 10 ^ 18, some (10 ^ 16), 100000, 7⟩]) := by decide +kernel

/-- Finding: a limit of 2^32 returns nothing. -/
example : answer (Demo.trace Demo.history).1.store (.ordersByOwner "dave" none none (some (2 ^ 32))) = some (.orders 1 []) := by
  decide +kernel

/-- A crowded tick, read two orders at a time. -/
example : (crawl (fun start => ordersIn (answer (Demo.trace (List.replicate 5 (Demo.place "ann" 3 .ask 7 none))).1.store
    (.ordersByTick 3 start none (some 2)))) (fun o => o.orderId + 1) 5 none).map (·.orderId) = [0, 1, 2, 3, 4] := by decide +kernel

/-! ### C41 -/

/-- C41: all_ticks returns exactly the used ticks within the inclusive bounds, ascending, with their states, cut off at the limit. -/
theorem C41_all_ticks {ch : Chain} {n : Nat} {w : World} {b : Book} (h : Traced ch n w b) :
    ∃ all : List (Int × TickState), all.Pairwise (fun x y => x.1 < y.1) ∧ (∀ t, t ∈ all.map Prod.fst ↔ Used b t) ∧
      (∀ x ∈ all, ∀ d, x.2.getValues d = tickValues w.store x.1 d) ∧
      ∀ lo hi limit, answer w.store (.allTicks lo hi limit) =
        let l := all.filter fun x => (lo.all fun t => decide (t ≤ x.1)) && (hi.all fun t => decide (x.1 ≤ t))
        some (.ticks (match limit with | none => l | some k => l.take k)) := by
  have hr := h.rel
  refine ⟨w.store.ticks, ?_, ?_, ?_, ?_⟩
  · exact hr.ticksSorted.imp fun {a b} hab => by simpa [Key.lt] using hab
  · intro t
    have e : t ∈ w.store.ticks.map Prod.fst ↔ w.store.ticks.get? t ≠ none := by
      rw [List.mem_map]
      constructor
      · rintro ⟨⟨k, v⟩, h1, rfl⟩
        rw [hr.ticksSorted.get? h1]; simp
      · intro h1
        obtain ⟨v, h1⟩ := Option.ne_none_iff_exists'.1 h1
        exact ⟨(t, v), SMap.get?_mem h1, rfl⟩
    rw [e, hr.known]
    constructor
    · rintro (h1 | h1)
      · exact ⟨_, h1⟩
      · exact ⟨_, h1⟩
    · rintro ⟨d, h1⟩
      cases d
      · exact Or.inl h1
      · exact Or.inr h1
  · rintro ⟨k, v⟩ h1 d
    unfold tickValues
    rw [hr.ticksSorted.get? h1]; rfl
  · intro lo hi limit
    have e : (w.store.ticks.filter fun p => inBounds lo hi p.1) =
        w.store.ticks.filter fun x => (lo.all fun t => decide (t ≤ x.1)) && (hi.all fun t => decide (x.1 ≤ t)) := by
      refine List.filter_congr fun x _ => ?_
      unfold inBounds
      congr 1
      · cases lo with
        | none => rfl
        | some l => rw [Bool.eq_iff_iff]; simp [Key.lt]
      · cases hi with
        | none => rfl
        | some l => rw [Bool.eq_iff_iff]; simp [Key.lt]
    rw [answer_allTicks]
    simp only [← e]
    unfold allTicks
    cases limit <;> rfl

/-- C41: reading the ticks page after page sees every used tick exactly once. -/
theorem C41_paging {ch : Chain} {n : Nat} {w : World} {b : Book} (h : Traced ch n w b) {k : Nat} (hk : 0 < k) :
    ∃ all : List (Int × TickState), all.Pairwise (fun x y => x.1 < y.1) ∧ (∀ t, t ∈ all.map Prod.fst ↔ Used b t) ∧
      ∀ pages, all.length ≤ pages →
        crawl (fun start => ticksIn (answer w.store (.allTicks start none (some k)))) (fun x => x.1 + 1) pages none = all := by
  obtain ⟨all, h1, h2, -, h3⟩ := C41_all_ticks h
  refine ⟨all, h1, h2, ?_⟩
  intro pages hp
  have e : (fun start => ticksIn (answer w.store (.allTicks start none (some k)))) =
      fun lo => (all.filter fun a => inBounds lo none a.1).take k := by
    funext lo
    rw [h3]
    simp only [ticksIn]
    congr 1
    refine List.filter_congr fun o _ => ?_
    unfold inBounds
    cases lo with
    | none => rfl
    | some l => rw [Bool.eq_iff_iff]; simp [Key.lt]
  rw [e]
  have ha : (all.filter fun a => inBounds none none a.1) = all := by
    rw [List.filter_eq_self]; intros; rfl
  have := crawl_all all (fun x => x.1) (fun p : Int => p + 1)
    (by
      intro a b
      simp only [Key.lt, decide_eq_true_eq, decide_eq_false_iff_not]
      omega)
    (h1.imp fun {a b} hab => by simpa [Key.lt] using hab)
    none hk pages none (by rw [ha]; exact hp)
  rw [ha] at this
  exact this

theorem ticksById_ok {s : Store} {ids : List Int} (h : ∀ t ∈ ids, s.ticks.get? t ≠ none) :
    ticksById s ids = .ok (ids.map fun t => (t, (s.ticks.get? t).getD .default)) := by
  induction ids with
  | nil => rfl
  | cons t ids ih =>
    obtain ⟨v, hv⟩ := Option.ne_none_iff_exists'.1 (h t (by simp))
    unfold ticksById
    rw [ih fun x hx => h x (by simp [hx])]
    simp [hv, pure, Except.pure, bind, Except.bind]

theorem ticksById_err {s : Store} {ids : List Int} (h : ∃ t ∈ ids, s.ticks.get? t = none) :
    ∃ t ∈ ids, s.ticks.get? t = none ∧ ticksById s ids = .error (.invalidTickId t) := by
  induction ids with
  | nil => simp at h
  | cons t ids ih =>
    unfold ticksById
    cases ht : s.ticks.get? t with
    | none => exact ⟨t, by simp, ht, rfl⟩
    | some v =>
      obtain ⟨x, hx, hxn⟩ := h
      simp only [List.mem_cons] at hx
      rcases hx with rfl | hx
      · rw [ht] at hxn; simp at hxn
      · obtain ⟨y, hy, h1, h2⟩ := ih ⟨x, hx, hxn⟩
        exact ⟨y, by simp [hy], h1, by simp [h2, bind, Except.bind]⟩

theorem used_iff {s : Store} {b : Book} (h : Rel s b) (t : Int) : Used b t ↔ s.ticks.get? t ≠ none := by
  rw [h.known]
  constructor
  · rintro ⟨d, h1⟩
    cases d
    · exact Or.inl h1
    · exact Or.inr h1
  · rintro (h1 | h1)
    · exact ⟨_, h1⟩
    · exact ⟨_, h1⟩

/-- C41: ticks_by_id answers with the states of the requested ticks, in the order of the request, if all are used ticks, and fails with
the invalid-tick error of one of them otherwise. -/
theorem C41_ticks_by_id {ch : Chain} {n : Nat} {w : World} {b : Book} (h : Traced ch n w b) (ids : List Int) :
    ((∀ t ∈ ids, Used b t) → ∃ l, answer w.store (.ticksById ids) = some (.ticks l) ∧ l.map Prod.fst = ids ∧
      ∀ x ∈ l, ∀ d, x.2.getValues d = tickValues w.store x.1 d) ∧
    (¬ (∀ t ∈ ids, Used b t) → answer w.store (.ticksById ids) = none ∧
      ∃ t ∈ ids, ¬ Used b t ∧ query (.ticksById ids) w.store = .err (.invalidTickId t) w.store) := by
  have hr := h.rel
  constructor
  · intro hu
    have e := ticksById_ok (s := w.store) (ids := ids) fun t ht => (used_iff hr t).1 (hu t ht)
    refine ⟨ids.map fun t => (t, (w.store.ticks.get? t).getD .default), ?_, ?_, ?_⟩
    · unfold answer
      have : query (.ticksById ids) w.store = .ok (.ticks (ids.map fun t => (t, (w.store.ticks.get? t).getD .default))) w.store := by
        unfold query
        simp only [EM.get_bind, e, EM.lift_ok_bind, EM.pure_apply]
      rw [this]
    · rw [List.map_map]; exact List.map_id _
    · intro x hx d
      rw [List.mem_map] at hx
      obtain ⟨t, -, rfl⟩ := hx
      rfl
  · intro hu
    push Not at hu
    obtain ⟨x, hx, hxu⟩ := hu
    rw [used_iff hr, not_not] at hxu
    obtain ⟨t, ht, h1, h2⟩ := ticksById_err ⟨x, hx, hxu⟩
    have : query (.ticksById ids) w.store = .err (.invalidTickId t) w.store := by
      unfold query
      simp only [EM.get_bind]
      refine EM.bind_err_of ?_
      rw [h2]; rfl
    refine ⟨by unfold answer; rw [this], t, ht, by rw [used_iff hr, not_not]; exact h1, this⟩

example : (ticksIn (answer (Demo.trace Demo.history).1.store (.allTicks none none none))).map Prod.fst = [-5000000, 0, 10] := by
  decide +kernel

example : (crawl (fun start => ticksIn (answer (Demo.trace Demo.history).1.store (.allTicks start none (some 2)))) (fun x => x.1 + 1)
    9 none).map Prod.fst = [-5000000, 0, 10] := by decide +kernel

example : answer (Demo.trace Demo.history).1.store (.ticksById [0, 11]) = none ∧
    (ticksIn (answer (Demo.trace Demo.history).1.store (.ticksById [10, 0, 10]))).map Prod.fst = [10, 0, 10] := by
  decide +kernel

/-! ### C43 -/

theorem answer_spotPrice {s : Store} {quote base : Denom} {x : Nat} (h : spotPrice s quote base = .ok x) :
    answer s (.spotPrice quote base) = some (.decimal x) := by
  unfold answer
  have : query (.spotPrice quote base) s = .ok (.decimal x) s := by
    unfold query
    simp only [EM.get_bind, h, EM.lift_ok_bind, EM.pure_apply]
  rw [this]

theorem D_sq_div_cast {p : Nat} (hp : 0 < p) : D * D / p = ⌊(10 : ℚ) ^ 18 / ((p : ℚ) / 10 ^ 18)⌋₊ := by
  have h2 : (10 : ℚ) ^ 18 / ((p : ℚ) / 10 ^ 18) = ((D * D : ℕ) : ℚ) / (p : ℚ) := by
    have : (p : ℚ) ≠ 0 := by exact_mod_cast (by omega : p ≠ 0)
    rw [Nat.cast_mul, D_cast]
    field_simp
  rw [h2, Nat.floor_div_natCast, Nat.floor_natCast]

/-- C43: the spot price of base in quote is the exact price of the best bid pointer's tick; of quote in base it is the inverse of the price
of the best ask pointer's tick, truncated to 18 decimals; any other pair is refused. It never fails for the book's own pair. -/
theorem C43_spot_price {ch : Chain} {w : World} (hw : Reachable ch w) {quote base : Denom} (hd : denoms w.store = .ok (quote, base)) :
    ∃ ob, answer w.store .orderbookState = some (.book ob) ∧
      (∃ x, answer w.store (.spotPrice quote base) = some (.decimal x) ∧ (x : ℚ) / 10 ^ 18 = price ob.nextBidTick) ∧
      answer w.store (.spotPrice base quote) = some (.decimal ⌊10 ^ 18 / price ob.nextAskTick⌋₊) ∧
      ∀ q' b', ¬ (q' = quote ∧ b' = base) → ¬ (q' = base ∧ b' = quote) →
        query (.spotPrice q' b') w.store = .err (.invalidPair b' q') w.store := by
  obtain ⟨n, hn⟩ := hw
  obtain ⟨b, h⟩ := hn.traced
  obtain ⟨ob, hob, hp⟩ := h.rel.ptr
  obtain ⟨ob', hob', e1, e2⟩ := denoms_eq hd
  obtain rfl := orderbook_inj hob' hob
  subst e1 e2
  clear hob'
  have hne := hp.denoms
  have hb := priceNat_bounds hp.bidLo hp.bidHi
  have ha := priceNat_bounds hp.askLo hp.askHi
  have hapos := priceNat_pos hp.askLo hp.askHi
  have hU : ∀ x, x ≤ 340282300000000000000 * 10 ^ 18 → x < U128 := by
    intro x hx
    refine lt_of_le_of_lt hx ?_
    unfold U128; norm_num
  have hbU := hU _ hb.2
  have haU : D * D / priceNat ob.nextAskTick < U128 := by
    refine hU _ (le_trans (Nat.div_le_div_left ha.1 (by norm_num)) ?_)
    unfold D; norm_num
  have ebs : spotPrice w.store ob.quoteDenom ob.baseDenom = .ok (priceNat ob.nextBidTick) := by
    unfold spotPrice
    rw [if_neg hne, hob]
    simp only [Orderbook.directionFromPair, and_self, if_true, Except.ok_bind', tickToPrice_ok hp.bidLo hp.bidHi, decimalFromDecimal256_eq,
      if_pos hbU]
  have eas : spotPrice w.store ob.baseDenom ob.quoteDenom = .ok (D * D / priceNat ob.nextAskTick) := by
    unfold spotPrice
    rw [if_neg hne.symm, hob]
    have e : ob.directionFromPair ob.quoteDenom ob.baseDenom = .ok .bid := by
      unfold Orderbook.directionFromPair
      rw [if_neg (fun hh => hne hh.2), if_pos ⟨rfl, rfl⟩]
    simp only [e, Except.ok_bind', tickToPrice_ok hp.askLo hp.askHi, decimalFromDecimal256_eq, decInv, if_neg (by omega : ¬ priceNat ob.nextAskTick = 0),
      if_pos haU]
  refine ⟨ob, ?_, ⟨_, answer_spotPrice ebs, ?_⟩, ?_, ?_⟩
  · unfold answer
    have : query .orderbookState w.store = .ok (.book ob) w.store := by
      have e : orderbookState w.store = .ok ob := by unfold orderbookState; rw [hob]
      unfold query
      simp only [EM.get_bind, e, EM.lift_ok_bind, EM.pure_apply]
    rw [this]
  · rw [priceNat_spec hp.bidLo hp.bidHi]; field_simp
  · rw [answer_spotPrice eas, D_sq_div_cast hapos, priceNat_spec hp.askLo hp.askHi]
    congr 3
    field_simp
  · intro q' b' h1 h2
    have e : spotPrice w.store q' b' = .error (.invalidPair b' q') := by
      unfold spotPrice
      by_cases hqb : q' = b'
      · rw [if_pos hqb, hqb]
      · rw [if_neg hqb, hob]
        have : ob.directionFromPair b' q' = .error (.invalidPair b' q') := by
          unfold Orderbook.directionFromPair
          rw [if_neg (fun hh => h1 ⟨hh.2.symm, hh.1.symm⟩), if_neg (fun hh => h2 ⟨hh.2.symm, hh.1.symm⟩)]
        simp only [this, Except.error_bind']
    unfold query
    simp only [EM.get_bind]
    refine EM.bind_err_of ?_
    rw [e]; rfl

/-- The demo book: bid pointer at tick 0 (price 1), ask pointer at tick 10 (price 1.00001). -/
example : answer (Demo.trace Demo.history).1.store (.spotPrice "q" "b") = some (.decimal (10 ^ 18)) ∧
    answer (Demo.trace Demo.history).1.store (.spotPrice "b" "q") = some (.decimal 999990000099999000) := by decide +kernel

/-! ### C45 -/

theorem query_pure (m : QueryMsg) (s : Store) : (∃ a, query m s = .ok a s) ∨ ∃ e, query m s = .err e s := by
  have key : ∀ {α : Type} (x : Except Err α) (f : α → Answer),
      (∃ a, (do let y ← EM.lift x; pure (f y) : M Answer) s = .ok a s) ∨ ∃ e, (do let y ← EM.lift x; pure (f y) : M Answer) s = .err e s := by
    intro α x f
    cases x with
    | ok y => left; exact ⟨f y, rfl⟩
    | error e => right; exact ⟨e, rfl⟩
  unfold query
  simp only [EM.get_bind]
  cases m with
  | spotPrice a b => exact key _ Answer.decimal
  | calcOutAmountGivenIn a b c => exact key _ Answer.coin
  | calcOutAmtGivenIn a b c => exact key _ Answer.coin
  | getTotalPoolLiquidity => exact key _ Answer.coins
  | calcInAmtGivenOut => right; exact ⟨_, rfl⟩
  | allTicks a b c => left; exact ⟨_, rfl⟩
  | isActive => left; exact ⟨_, rfl⟩
  | getSwapFee => left; exact ⟨_, rfl⟩
  | ordersByOwner a b c d => left; exact ⟨_, rfl⟩
  | orderbookState => exact key _ Answer.book
  | ticksById a => exact key _ Answer.ticks
  | ordersByTick a b c d => left; exact ⟨_, rfl⟩
  | denoms => exact key (OB.denoms s) fun x => Answer.denoms x.1 x.2
  | getMakerFee => left; exact ⟨_, rfl⟩
  | getUnrealizedCancels a => exact key _ Answer.unrealized
  | auth a => left; exact ⟨_, rfl⟩

/-- C45: no query changes the storage, whether it answers or fails. -/
theorem C45_queries_read_only (m : QueryMsg) (s s' : Store) :
    (∀ a, query m s = .ok a s' → s' = s) ∧ ∀ e, query m s = .err e s' → s' = s := by
  rcases query_pure m s with ⟨a, h⟩ | ⟨a, h⟩ <;> rw [h] <;> constructor <;> intro x hx <;> cases hx <;> rfl

/-- C45: migration is accepted, changes nothing and sends nothing. -/
theorem C45_migrate (ch : Chain) (w : World) : ∃ resp, step ch w .migrate = .ok (w, resp) ∧ resp.msgs = [] ∧ apply ch w .migrate = w := by
  have e : ∃ resp, step ch w .migrate = .ok (w, resp) ∧ resp.msgs = [] := ⟨_, rfl, rfl⟩
  obtain ⟨r, h1, h2⟩ := e
  refine ⟨r, h1, h2, ?_⟩
  unfold apply
  rw [h1]

/-- Queries on the demo book do answer. -/
example : answer (Demo.trace Demo.history).1.store (.denoms) = some (.denoms "q" "b") ∧
    answer (Demo.trace Demo.history).1.store (.calcOutAmountGivenIn ⟨"b", 300000⟩ "q" 0) = some (.coin ⟨"q", 170000⟩) ∧
    answer (Demo.trace Demo.history).1.store .calcInAmtGivenOut = none := by decide +kernel

end OB
