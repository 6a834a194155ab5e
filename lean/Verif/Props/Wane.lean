import Verif.SpecWane
import Verif.Props.Worth
/-
C103: without new orders a market only gets worse. The project's fuzz test asserts that market orders one after the other get less and
less for the same input (tests/e2e/utils.rs:295-320); this is what is true of that, for every history without new orders on that side.
-/
namespace OB
open Spec

theorem liquidity_le {ch : Chain} {w w' : World} (hw : Reachable ch w) {op : Op} {resp : Response} (hs : step ch w op = .ok (w', resp))
    {d : Dir} (hn : ¬ Spec.Op.adds op d) (t : Int) : tickLiquidity w'.store t d ≤ tickLiquidity w.store t d := by
  obtain ⟨n, hn'⟩ := hw
  obtain ⟨b, h⟩ := hn'.traced
  have hst := h.step hs
  have hr := h.rel
  generalize b.observe _ _ _ _ = b' at hst
  have hr' := hst.rel hr
  rw [hr'.tickLiq, hr.tickLiq]
  generalize w'.store = s' at hst
  cases hst with
  | @place sender funds time tick dir q cb _ _ ob h1 h2 h3 h4 =>
    by_cases e : d = dir
    · subst e; exact absurd ⟨_, _, _, _, _, _, rfl⟩ hn
    · rw [Book.set_ne _ _ (Or.inr e)]
  | @cancel time tick dir _ s1 _ ob p q x tr ts1 h1 h2 h3 =>
    by_cases e : t = tick ∧ d = dir
    · obtain ⟨rfl, rfl⟩ := e
      rw [Book.set_self, h3]
      exact left_cancel p q x
    · rw [Book.set_ne _ _ (not_and_or.1 e)]
  | claim _ _ _ h4 => rw [h4.left t d]
  | batch _ _ _ h4 => rw [h4.left t d]
  | swap h1 h2 h3 h4 h5 =>
    rw [filled_left (h5.run.fillsOk hr h2)]
    exact Nat.sub_le _ _
  | config => exact le_refl _

theorem Reachable.apply {ch : Chain} {w : World} (hw : Reachable ch w) (op : Op) : Reachable ch (OB.apply ch w op) := Reachable.run hw [op]

/-- C103 (liquidity): as long as nobody places an order on a side, the liquidity of no tick of that side grows, whatever else happens. -/
theorem C103_liquidity {ch : Chain} {w : World} (hw : Reachable ch w) {side : Dir} (ops : List Op) (hn : ∀ op ∈ ops, ¬ Spec.Op.adds op side)
    (t : Int) : tickLiquidity (run ch w ops).store t side ≤ tickLiquidity w.store t side := by
  induction ops generalizing w with
  | nil => exact le_refl _
  | cons op ops ih =>
    rw [run_cons]
    refine (ih (hw.apply op) fun o ho => hn o (by simp [ho])).trans ?_
    cases hs : step ch w op with
    | error e =>
      have : apply ch w op = w := by unfold apply; rw [hs]
      rw [this]
    | ok x =>
      obtain ⟨w1, resp⟩ := x
      have : apply ch w op = w1 := by unfold apply; rw [hs]
      rw [this]
      exact liquidity_le hw hs (hn op (by simp)) t

theorem charged_cost {ch : Chain} {w w' : World} (hw : Reachable ch w) {quote base : Denom} (hd : denoms w.store = .ok (quote, base))
    {r : SwapReq} {time : Nat} {resp : Response} (hs : step ch w (r.op time) = .ok (w', resp)) {side : Dir} (hp : r.pair quote base side)
    {slack : Nat} (hf : slack = 1 ∨ side = .ask ∨ ∀ t, tickLiquidity w.store t side ≠ 0 → price t ≤ 10 ^ 18) :
    exactCost side (fun t => taken w.store w'.store t side) ≤ r.tokenIn.amount + slack := by
  obtain ⟨refund, dust, -, h2, -⟩ := C22_input_accounted hw hd hs hp
  have hin : ((overTicks fun t => charge side (taken w.store w'.store t side) t : ℕ) : ℚ) ≤ r.tokenIn.amount := by
    exact_mod_cast (by omega : overTicks (fun t => charge side (taken w.store w'.store t side) t) ≤ r.tokenIn.amount)
  have hs0 : (0 : ℚ) ≤ slack := Nat.cast_nonneg _
  have hv : ∀ t ∈ Finset.Icc (-108000000 : Int) 182402823, ValidTick t := fun t ht => Finset.mem_Icc.1 ht
  have hc : (Finset.Icc (-108000000 : Int) 182402823).card = 290402824 := by rw [Int.card_Icc]; rfl
  unfold exactCost
  unfold overTicks at hin
  revert hin hv hc
  generalize Finset.Icc (-108000000 : Int) 182402823 = S
  intro hin hv hc
  push_cast at hin
  rcases hf with rfl | hf
  · have : ∀ t ∈ S, value side (taken w.store w'.store t side) t ≤ (charge side (taken w.store w'.store t side) t : ℚ) + 1 / 10 ^ 18 :=
      fun t ht => le_of_lt (C21_charge_fair side _ t (hv t ht)).1
    have := Finset.sum_le_sum this
    rw [Finset.sum_add_distrib, Finset.sum_const, hc] at this
    have e : (290402824 : ℕ) • ((1 : ℚ) / 10 ^ 18) ≤ 1 := by norm_num
    push_cast
    linarith
  · have : ∀ t ∈ S, value side (taken w.store w'.store t side) t ≤ (charge side (taken w.store w'.store t side) t : ℚ) := by
      intro t ht
      by_cases hz : taken w.store w'.store t side = 0
      · rw [hz]; cases side <;> simp [value]
      · refine ((C21_charge_fair side _ t (hv t ht)).2.1 (hf.imp id fun h => h t ?_)).2
        unfold taken at hz; omega
    have := Finset.sum_le_sum this
    linarith

/-- C103: without new orders a market only gets worse, up to the rounding. If no order is placed on `side` in between, then a later swap of
some input never pays more than a swap of the same input plus one unit for each tick it uses would have paid before. (And one more unit on
a side with bids above price 10^18, where charges are cut to 18 decimals.) -/
theorem C103_worse {ch : Chain} {w w' w2 : World} (hw : Reachable ch w) {quote base : Denom} (hd : denoms w.store = .ok (quote, base))
    {side : Dir} (ops : List Op) (hn : ∀ op ∈ ops, ¬ Spec.Op.adds op side) {r r2 : SwapReq} {time time2 : Nat} {resp resp2 : Response}
    (hs : step ch w (r.op time) = .ok (w', resp)) (hs2 : step ch (run ch w ops) (r2.op time2) = .ok (w2, resp2))
    (hp : r.pair quote base side) (hp2 : r2.pair quote base side) (ht : r2.target = r.target) {slack : Nat}
    (hf : slack = 1 ∨ side = .ask ∨ ∀ t, tickLiquidity w.store t side ≠ 0 → price t ≤ 10 ^ 18)
    (ha : r2.tokenIn.amount + ticksTaken w.store w'.store side + slack ≤ r.tokenIn.amount)
    {out out2 : Nat} (ho : resp.data = some out) (ho2 : resp2.data = some out2) : out2 ≤ out := by
  have hw1 := Reachable.run hw ops
  have hd1 : denoms (run ch w ops).store = .ok (quote, base) := by rw [C39_denoms_fixed hw ops, hd]
  have hle := C103_liquidity hw ops hn
  obtain ⟨o2, e2, hsum, -⟩ := C24_swap_conservation hw1 hd1 hs2 hp2
  rw [ho2] at e2
  obtain rfl := Option.some.inj e2
  rw [← hsum]
  have hcost := charged_cost hw1 hd1 hs2 hp2 (slack := slack)
    (hf.imp id fun h => h.imp id fun h t ht => h t (by have := hle t; omega))
  refine C53_best_execution hw hd hs hp ho _ (fun t => (Nat.sub_le _ _).trans (hle t)) (fun t hz => ?_) ?_
  · have h := (C23_target_not_crossed hw1 hd1 hs2 hp2 t).1
    have : r2.within side t := by
      by_contra hc; exact hz (h hc)
    unfold SwapReq.within at this ⊢
    rwa [ht] at this
  · have h3 : (r2.tokenIn.amount : ℚ) + (ticksTaken w.store w'.store side : ℕ) + slack ≤ r.tokenIn.amount := by exact_mod_cast ha
    linarith

/-- C103 (exact): without rounding slack, as long as the earlier swap did not empty its first level: if `t0` is the best level and the earlier
swap left something of it, then no later swap of the same input, without new orders on that side in between, pays more. -/
theorem C103_exact {ch : Chain} {w w' w2 : World} (hw : Reachable ch w) {quote base : Denom} (hd : denoms w.store = .ok (quote, base))
    {side : Dir} (ops : List Op) (hn : ∀ op ∈ ops, ¬ Spec.Op.adds op side) {r r2 : SwapReq} {time time2 : Nat} {resp resp2 : Response}
    (hs : step ch w (r.op time) = .ok (w', resp)) (hs2 : step ch (run ch w ops) (r2.op time2) = .ok (w2, resp2))
    (hp : r.pair quote base side) (hp2 : r2.pair quote base side) (ha : r2.tokenIn.amount ≤ r.tokenIn.amount)
    {t0 : Int} (hbest : ∀ t, tickLiquidity w.store t side ≠ 0 → ¬ Better side t t0) (htk : taken w.store w'.store t0 side ≠ 0)
    (hleft : tickLiquidity w'.store t0 side ≠ 0)
    {out out2 : Nat} (ho : resp.data = some out) (ho2 : resp2.data = some out2) : out2 ≤ out := by
  have hw1 := Reachable.run hw ops
  have hd1 : denoms (run ch w ops).store = .ok (quote, base) := by rw [C39_denoms_fixed hw ops, hd]
  have hle := C103_liquidity hw ops hn
  have hl0 : tickLiquidity w.store t0 side ≠ 0 := by unfold taken at htk; omega
  have hv0 : ValidTick t0 := (C26_pool_liquidity hw hd).2.1 t0 side hl0
  -- the later swap gets no better price than that of `t0`
  have h2 : value side out2 t0 ≤ r2.tokenIn.amount := by
    refine C54_never_better hw1 hd1 hs2 hp2 ho2 hv0 fun t hz => hbest t ?_
    have := hle t
    unfold taken at hz; omega
  -- the earlier one got the full amount at `t0`
  have hin : r.within side t0 := by
    have h := (C23_target_not_crossed hw hd hs hp t0).1
    by_contra hc; exact htk (h hc)
  obtain ⟨levels, hl⟩ := C48_levels_exist hw r side
  obtain ⟨F, left, dust, hm, hsum⟩ := swap_match hw hd hs hp ho hl
  have hmem : (t0, tickLiquidity w.store t0 side) ∈ levels := (hl.2 _ _).2 ⟨rfl, hl0, hin⟩
  have htot : taken w.store w'.store t0 side = out := by
    obtain ⟨o, e, hsum', -⟩ := C24_swap_conservation hw hd hs hp
    rw [ho] at e
    obtain rfl := Option.some.inj e
    rw [← hsum']
    have hmem0 : t0 ∈ Finset.Icc (-108000000 : Int) 182402823 := Finset.mem_Icc.2 hv0
    unfold overTicks
    refine (Finset.sum_eq_single_of_mem (f := fun t => taken w.store w'.store t side) t0 hmem0 fun t _ hne => ?_).symm
    show taken w.store w'.store t side = 0
    by_contra hz
    have hlt : tickLiquidity w.store t side ≠ 0 := by unfold taken at hz; omega
    have hb : Better side t0 t := by
      have := hbest t hlt
      cases side <;> simp only [Better] at this ⊢ <;> omega
    exact hleft (C20_best_price_first hw hd hs hp t0 t hb hz)
  have hlt : out < tickLiquidity w.store t0 side := by rw [← htot]; unfold taken; omega
  have hwant : ⌊value side.opposite r.tokenIn.amount t0⌋₊ ≤ out := by
    cases levels with
    | nil => cases hmem
    | cons x rest =>
      obtain ⟨t, l⟩ := x
      have hx := (hl.2 t l).1 (by simp)
      have : t = t0 := by
        rcases List.mem_cons.1 hmem with he | he
        · exact (congrArg Prod.fst he).symm
        · exact absurd ((List.pairwise_cons.1 hl.1).1 _ he) (hbest t (by rw [← hx.1]; exact hx.2.1))
      subst this
      rw [← hx.1] at hlt
      rw [matchLevels] at hm
      by_cases hw0 : ⌊value side.opposite r.tokenIn.amount t⌋₊ = 0
      · rw [hw0]; exact Nat.zero_le _
      · simp only [hw0, if_false] at hm
        split at hm
        · cases hm
        · rw [Option.map_eq_some_iff] at hm
          obtain ⟨y, -, hy⟩ := hm
          obtain ⟨rfl, -⟩ := Prod.mk.inj hy
          simp only [List.map_cons, List.sum_cons] at hsum
          omega
  have h3 : (out2 : ℚ) ≤ value side.opposite r.tokenIn.amount t0 := by
    have h4 := value_mul_opposite (side := side) hv0 r.tokenIn.amount
    have h5 := value_one_pos (side := side) hv0
    rw [value_linear] at h2
    have h6 : (r2.tokenIn.amount : ℚ) ≤ r.tokenIn.amount := by exact_mod_cast ha
    have h7 := h2.trans h6
    rw [← h4] at h7
    exact le_of_mul_le_mul_right h7 h5
  exact (Nat.le_floor h3).trans hwant

/-! ### The rounding slack is needed, and non-vacuity -/

/-- A book with a bid for 1 quote at price 1000 in front of a large one at price 10. -/
def Demo.crumb : World := run Demo.ch Demo.w0 [Demo.place "alice" 27000000 .bid 1 none, Demo.place "bob" 9000000 .bid 1000000 none]

theorem Demo.crumb_reachable : Reachable Demo.ch Demo.crumb := ⟨_, Demo.w0, _, Demo.initial, rfl, rfl⟩

/-- C103 (limitation): the assertion of the project's fuzz test, that the same input never pays more after a swap, is not true of every
book. On this one, selling one unit of base pays 1, and selling one more right after it pays 10: the crumb at the better price took a
whole unit of input. -/
theorem C103_slack_needed : ∃ (ch : Chain) (w w1 w2 : World) (r : SwapReq) (resp1 resp2 : Response), Reachable ch w ∧
    step ch w (r.op 10) = .ok (w1, resp1) ∧ step ch w1 (r.op 10) = .ok (w2, resp2) ∧ resp1.data = some 1 ∧ resp2.data = some 10 := by
  have e1 : ((respOf Demo.ch Demo.crumb (Demo.sell "zed" 1 1)).map Response.data,
      (respOf Demo.ch (apply Demo.ch Demo.crumb (Demo.sell "zed" 1 1)) (Demo.sell "zed" 1 1)).map Response.data) =
      (some (some 1), some (some 10)) := by decide +kernel
  obtain ⟨e1, e2⟩ := Prod.mk.inj e1
  rw [Option.map_eq_some_iff] at e1 e2
  obtain ⟨resp1, h1, d1⟩ := e1
  obtain ⟨resp2, h2, d2⟩ := e2
  obtain ⟨w1, g1⟩ := respOf_eq_some.1 h1
  obtain ⟨w2, g2⟩ := respOf_eq_some.1 h2
  have ha : apply Demo.ch Demo.crumb (Demo.sell "zed" 1 1) = w1 := by unfold apply; rw [g1]
  rw [ha] at g2
  exact ⟨_, _, w1, w2, ⟨"zed", ⟨"b", 1⟩, "q", 1, 0, none⟩, resp1, resp2, Demo.crumb_reachable, g1, g2, d1, d2⟩

/-- The number of ticks a swap uses is at most the number of ticks with liquidity. -/
theorem ticksTaken_le {s s' : Store} {side : Dir} {ks : Finset Int} (h : ∀ t, t ∉ ks → tickLiquidity s t side = 0) :
    ticksTaken s s' side ≤ ks.card := by
  unfold ticksTaken overTicks
  generalize Finset.Icc (-108000000 : Int) 182402823 = S
  have : ∀ t ∈ S, (if taken s s' t side = 0 then 0 else 1) ≤ if t ∈ ks then 1 else 0 := by
    intro t _
    by_cases ht : t ∈ ks
    · rw [if_pos ht]; split <;> omega
    · have : taken s s' t side = 0 := by unfold taken; rw [h t ht]; omega
      rw [if_pos this]; exact Nat.zero_le _
  refine (Finset.sum_le_sum this).trans ?_
  rw [Finset.sum_ite_mem, Finset.sum_const, Nat.nsmul_eq_mul, Nat.mul_one]
  exact Finset.card_le_card Finset.inter_subset_right

/-- C103: on the same book, a sale of 4 (three units more than a later sale of 1, for two ticks and the slack) pays 31: the later sale pays
at most that by `C103_worse`. -/
example (w2 : World) (resp2 : Response) (out2 : Nat)
    (h2 : step Demo.ch (run Demo.ch Demo.crumb [Demo.sell "zed" 1 1, Demo.cancel "bob" 9000000 1]) (Demo.sell "yan" 1 1) = .ok (w2, resp2))
    (ho : resp2.data = some out2) : out2 ≤ 31 := by
  have e1 : (respOf Demo.ch Demo.crumb (Demo.sell "zed" 4 1)).map Response.data = some (some 31) := by decide +kernel
  rw [Option.map_eq_some_iff] at e1
  obtain ⟨resp1, h1, d1⟩ := e1
  obtain ⟨w1, g1⟩ := respOf_eq_some.1 h1
  have hk : Demo.crumb.store.ticks.map Prod.fst = [9000000, 27000000] := by decide +kernel
  have ht : ticksTaken Demo.crumb.store w1.store .bid ≤ ({9000000, 27000000} : Finset Int).card :=
    ticksTaken_le fun t ht => Demo.absent hk (by simpa using ht) .bid
  rw [show ({9000000, 27000000} : Finset Int).card = 2 from rfl] at ht
  refine C103_worse (r := ⟨"zed", ⟨"b", 4⟩, "q", 1, 0, none⟩) (r2 := ⟨"yan", ⟨"b", 1⟩, "q", 1, 0, none⟩) (quote := "q") (base := "b")
    (side := .bid) Demo.crumb_reachable (by decide +kernel) _ ?_ g1 h2 ⟨rfl, rfl⟩ ⟨rfl, rfl⟩ rfl (slack := 1) (Or.inl rfl) ?_ d1 ho
  · rintro op hop ⟨sender, funds, time, tick, q, bounty, rfl⟩
    simp [Demo.sell, Demo.cancel] at hop
  · show 1 + _ + 1 ≤ 4
    omega
-- Without the cancellation of the large order the later sale is accepted (C103_slack_needed); with other orders it is accepted after
-- cancellations too:
example : ((respOf Demo.ch Demo.after (Demo.sell "zed" 30000 1)).map Response.data,
    (respOf Demo.ch (run Demo.ch Demo.after [Demo.sell "zed" 30000 1, Demo.claim "dave" 0 3]) (Demo.sell "zed" 30000 1)).map Response.data) =
    (some (some 30000), some (some 20000)) := by decide +kernel

/-- C103 (exact): a sale of 30000 on the demo book leaves 10000 of the best tick 0, so no later sale of 30000 pays more, unless bids are
added: the next one pays 20000. -/
example : tickLiquidity Demo.after.store 0 .bid = 40000 ∧
    tickLiquidity (apply Demo.ch Demo.after (Demo.sell "zed" 30000 1)).store 0 .bid = 10000 ∧
    (∀ t, tickLiquidity Demo.after.store t .bid ≠ 0 → ¬ Better .bid t 0) := by
  refine ⟨by decide +kernel, by decide +kernel, fun t ht hb => ?_⟩
  have hk : Demo.after.store.ticks.map Prod.fst = [-5000000, 0, 10] := by decide +kernel
  by_cases h10 : t = 10
  · subst h10
    exact absurd ht (by decide +kernel)
  · refine ht (Demo.absent hk ?_ .bid)
    simp only [Better] at hb
    simp only [List.mem_cons, List.not_mem_nil, or_false, not_or]
    omega

end OB
