import Verif.Props.Econ
import Verif.Props.Quote
import Verif.Props.Pointer
import Verif.Props.Isolation
import Verif.Props.Place
/- C62: a small bid at a very high price stops every sale (a weakness of the code, stated and proved as it is). -/
namespace OB
open Spec

theorem charge_bid_zero {t : Int} {a l : Nat} (ha : a ≤ l) (h : (l : ℚ) * 10 ^ 18 < price t) : charge .bid a t = 0 := by
  have hp : 0 < price t := lt_of_le_of_lt (by positivity) h
  have h1 : value .bid a t * 10 ^ 18 < 1 := by
    unfold value
    simp only
    rw [div_mul_eq_mul_div, div_lt_one hp]
    refine lt_of_le_of_lt ?_ h
    have : (a : ℚ) ≤ l := by exact_mod_cast ha
    nlinarith
  unfold charge
  simp only
  rw [Nat.floor_eq_zero.2 h1]
  simp

/-- A first level whose whole liquidity is charged nothing stops the engine. -/
theorem match_blocked {t : Int} {l : Nat} (hl0 : l ≠ 0) (hl : (l : ℚ) * 10 ^ 18 < price t) {rest : List (Int × Nat)}
    {q : Nat} (hq : q ≠ 0) : matchLevels .bid ((t, l) :: rest) q = none := by
  rw [matchLevels]
  have hw : ¬ ⌊value Dir.bid.opposite q t⌋₊ = 0 := by
    rw [Nat.floor_eq_zero, not_lt]
    show 1 ≤ (q : ℚ) * price t
    have h1 : (1 : ℚ) ≤ q := by exact_mod_cast Nat.one_le_iff_ne_zero.2 hq
    have h2 : (1 : ℚ) ≤ l := by exact_mod_cast Nat.one_le_iff_ne_zero.2 hl0
    nlinarith
  simp only
  rw [if_neg hw, if_pos (Or.inl (charge_bid_zero (Nat.min_le_right _ _) hl))]

/-- The top level of a request that takes bids is the best bid, if the request may touch it at all. -/
theorem levels_top {s : Store} {r : SwapReq} {levels : List (Int × Nat)} (hl : r.Levels s .bid levels) {t : Int}
    (ht : tickLiquidity s t .bid ≠ 0) (hbest : ∀ t', t < t' → tickLiquidity s t' .bid = 0) :
    levels = [] ∨ ∃ rest, levels = (t, tickLiquidity s t .bid) :: rest := by
  cases levels with
  | nil => exact Or.inl rfl
  | cons x rest =>
    right
    obtain ⟨u, l⟩ := x
    obtain ⟨rfl, h2, h3⟩ := (hl.2 u l).1 (by simp)
    rcases lt_trichotomy u t with h | rfl | h
    · exfalso
      have hin : r.within .bid t := by
        intro target htg hb
        exact h3 target htg (show u < target from lt_trans h hb)
      have := (hl.2 t _).2 ⟨rfl, ht, hin⟩
      rcases List.mem_cons.1 this with h4 | h4
      · exact absurd (Prod.mk.inj h4).1 (by omega)
      · have h5 := (List.pairwise_cons.1 hl.1).1 _ h4
        have h5 : t < u := h5
        omega
    · exact ⟨rest, rfl⟩
    · exact absurd (hbest u h) h2

/-- C62: if the whole liquidity of the best bid tick is worth less than 10^-18 of a unit (its amount times 10^18 is below its price),
no sale is accepted, whatever its amount, minimum, sender or target, and no quote for a sale is given: the charge for filling that tick is
cut to zero, which the matching refuses, although more bids may be waiting below. -/
theorem C62_blocked {ch : Chain} {w : World} (hw : Reachable ch w) {quote base : Denom} (hd : denoms w.store = .ok (quote, base)) {t : Int}
    (ht : tickLiquidity w.store t .bid ≠ 0) (hbest : ∀ t', t < t' → tickLiquidity w.store t' .bid = 0)
    (hsmall : (tickLiquidity w.store t .bid : ℚ) * 10 ^ 18 < price t) {r : SwapReq} (hr : r.tokenIn.denom = base) (time : Nat) :
    ¬ Accepted ch w (r.op time) ∧
    (r.tokenIn.amount < 2 ^ 128 → ∀ c, answer w.store (.calcOutAmountGivenIn r.tokenIn r.outDenom r.fee) ≠ some (.coin c)) := by
  obtain ⟨n, hn⟩ := id hw
  obtain ⟨b, h⟩ := hn.traced
  obtain ⟨ob, hob, hq, hb⟩ := denoms_eq hd
  have hne : quote ≠ base := by rw [← hq, ← hb]; exact filledBook_rel h.rel hob
  have hside : ∀ side, r.pair quote base side → side = .bid := by
    intro side hp
    cases side with
    | bid => rfl
    | ask =>
      have h1 : r.tokenIn.denom = quote := hp.1
      exact absurd (h1.symm.trans hr) hne
  constructor
  · rintro ⟨w', resp, hs⟩
    obtain ⟨-, hpos, -, ⟨side, hp⟩, out, refund, ho, hz, -⟩ := C18_swap_payment hw hd hs
    obtain rfl := hside side hp
    obtain ⟨levels, hl⟩ := C48_levels_exist hw r .bid
    obtain ⟨F, left, dust, hm, hsum⟩ := swap_match hw hd hs hp ho hl
    rcases levels_top hl ht hbest with rfl | ⟨rest, rfl⟩
    · simp only [matchLevels, Option.some.injEq, Prod.mk.injEq] at hm
      rw [← hm.1] at hsum
      exact hz hsum.symm
    · rw [match_blocked ht hsmall hpos] at hm; simp at hm
  · intro hsz c hc
    have hbook : answer w.store .orderbookState = some (.book ob) := (answer_orderbookState_iff).2 hob
    have key := (C60_quote hw hbook { r with target := none } rfl hsz c).1 hc
    obtain ⟨-, hpos, side, levels, F, left, dust, hp, hl, hm, -⟩ := key
    rw [hq, hb] at hp
    obtain rfl := hside side hp
    rcases levels_top hl ht hbest with rfl | ⟨rest, rfl⟩
    · have : (t, tickLiquidity w.store t .bid) ∈ ([] : List (Int × Nat)) :=
        (hl.2 t _).2 ⟨rfl, ht, fun _ h => by simp at h⟩
      simp at this
    · rw [match_blocked ht hsmall hpos] at hm; simp at hm

/-- What a bookkeeper of the amounts still open at a queue sees. -/
def openBy (q : List Entry) : List (Addr × Nat) := q.map fun x => (x.owner, x.left)

theorem ClaimStep.openBy {sender : Addr} {tick : Int} {id : Nat} {s s' : Store} {b b' : Book} {r : Nat × List SendMsg × LimitOrder}
    (h : ClaimStep sender tick id s b r s' b') (t : Int) (d : Dir) : OB.openBy (b' t d) = OB.openBy (b t d) := by
  obtain ⟨h1, h2, h3, h4, h5, h6, h7⟩ := h
  rename_i s1 dir p q x ob rc
  unfold Book.set
  split
  · rename_i hc
    obtain ⟨rfl, rfl⟩ := hc
    rw [h1]
    simp [OB.openBy, Entry.left]
  · rfl

theorem ClaimRun.openBy {sender : Addr} {ob : Orderbook} {l : List (Int × Nat)} {s s' : Store} {b b' : Book} {ms : List SendMsg}
    {es : List Event} (h : ClaimRun sender ob l s b ms es s' b') (t : Int) (d : Dir) : OB.openBy (b' t d) = OB.openBy (b t d) := by
  induction h with
  | nil => rfl
  | ok _ h _ ih => rw [ih, h.openBy]
  | skip _ h _ ih => exact ih

/-- The open amounts of a queue change only by a placement there, a swap from that side, or a cancel by the owner of an open order. -/
theorem StoreStep.openBy {ch : Chain} {op : Op} {s s' : Store} {b b' : Book} {resp : Response} (h : StoreStep ch op s b resp s' b')
    {ob : Orderbook} (hob : s.orderbook = some ob) (t : Int) (d : Dir)
    (hplace : ∀ a funds time q cb, op ≠ .execute a funds time (.placeLimit t d q cb))
    (hswap : ∀ (r : SwapReq) time, r.tokenIn.denom = denomOut ob.quoteDenom ob.baseDenom d → op ≠ r.op time) :
    OB.openBy (b' t d) = OB.openBy (b t d) ∨
      ∃ x ∈ b t d, x.left ≠ 0 ∧ ∃ time, op = .execute x.owner [] time (.cancelLimit t x.id) := by
  cases h with
  | @place sender funds time tick dir q cb s b ob h1 h2 h3 h4 =>
    left
    unfold Book.set
    split
    · rename_i hc
      obtain ⟨rfl, rfl⟩ := hc
      exact absurd rfl (hplace sender funds time q cb)
    · rfl
  | @cancel time tick dir s s1 b ob p q x tr ts1 h1 h2 h3 h4 h5 h6 h7 h8 h9 =>
    by_cases hc : t = tick ∧ d = dir
    · obtain ⟨rfl, rfl⟩ := hc
      refine Or.inr ⟨x, by rw [h3]; simp, ?_, time, rfl⟩
      unfold Entry.left
      have := h4.2
      rw [h4.1]
      simp only [Bool.false_eq_true, if_false]
      omega
    · left; unfold Book.set; rw [if_neg hc]
  | claim _ _ _ h => exact Or.inl (h.openBy t d)
  | batch _ _ _ h => exact Or.inl (h.openBy t d)
  | @swap time msg sender c out m fee target s b ob' dir F q' dust lp h1 h2 h3 h4 h5 =>
    left
    obtain rfl := orderbook_inj h2 hob
    have hd : d ≠ dir.opposite := by
      rintro rfl
      have hden : c.denom = denomOut ob.quoteDenom ob.baseDenom dir.opposite := by
        rw [h5.denoms.1]; cases dir <;> rfl
      cases msg <;> simp only [SudoMsg.swapArgs, Option.some.injEq, Prod.mk.injEq, reduceCtorEq] at h3
      · obtain ⟨rfl, rfl, rfl, rfl, rfl, rfl⟩ := h3
        exact hswap ⟨_, _, _, _, _, none⟩ time hden rfl
      · obtain ⟨rfl, rfl, rfl, rfl, rfl, rfl⟩ := h3
        exact hswap ⟨_, _, _, _, _, some _⟩ time hden rfl
    unfold filledBook takenBy
    rw [if_neg hd, fillQ_zero]
  | config h1 h2 h3 h4 => exact Or.inl rfl

theorem openTotal_openBy {q : List Entry} (h : ∀ x ∈ q, EntryOk x) : openTotal q = ((openBy q).map Prod.snd).sum := by
  rw [openTotal_eq h]
  unfold sumBy openBy
  rw [List.map_map]
  rfl

theorem price_top : price 182402823 = 340282300000000000000 := by
  unfold price
  norm_num

/-- Only `a` has open orders in the queue, `k` units in total. -/
def OnlyOpen (a : Addr) (k : Nat) (q : List Entry) : Prop :=
  (∀ y ∈ openBy q, y.1 ≠ a → y.2 = 0) ∧ ((openBy q).map Prod.snd).sum = k

/-- While only `a` has open bids at the top tick, at most 340 units, and neither more bids are placed there nor `a` cancels there, nobody
can sell. -/
theorem blocked_run {ch : Chain} {n : Nat} {w : World} {b : Book} (h : Traced ch n w b) {quote base : Denom}
    (hd : denoms w.store = .ok (quote, base)) {a : Addr} {k : Nat} (hk : k ≠ 0 ∧ k ≤ 340)
    (hq : OnlyOpen a k (b 182402823 .bid)) {ops : List Op}
    (hops : ∀ op ∈ ops, (∀ a' funds time q cb, op ≠ .execute a' funds time (.placeLimit 182402823 .bid q cb)) ∧
      ∀ funds time id, op ≠ .execute a funds time (.cancelLimit 182402823 id))
    {r : SwapReq} (hr : r.tokenIn.denom = base) (time : Nat) : ¬ Accepted ch (OB.run ch w ops) (r.op time) := by
  have liq : ∀ {n : Nat} {w : World} {b : Book}, Traced ch n w b → OnlyOpen a k (b 182402823 .bid) →
      denoms w.store = .ok (quote, base) → ∀ {r : SwapReq}, r.tokenIn.denom = base → ∀ time, ¬ Accepted ch w (r.op time) := by
    intro n w b h hq hd r hr time
    obtain ⟨rr, rt, hs, -, -⟩ := h.rel.sides 182402823 .bid
    have hl : tickLiquidity w.store 182402823 .bid = k := by
      rw [(C26_tick_liquidity h _ _).2, openTotal_openBy hs.ok, hq.2]
    refine (C62_blocked ⟨n, h.reachable⟩ hd (t := 182402823) (by rw [hl]; exact hk.1) ?_ ?_ hr time).1
    · intro t' ht'
      by_contra hne
      have := ((C26_pool_liquidity ⟨n, h.reachable⟩ hd).2.1 t' .bid hne).2
      omega
    · rw [hl, price_top]
      have : (k : ℚ) ≤ 340 := by exact_mod_cast hk.2
      linarith
  induction ops generalizing n w b with
  | nil => exact liq h hq hd hr time
  | cons op ops ih =>
    have hrun : OB.run ch w (op :: ops) = OB.run ch (OB.apply ch w op) ops := rfl
    rw [hrun]
    cases hs : OB.step ch w op with
    | error e =>
      have : OB.apply ch w op = w := by unfold OB.apply; rw [hs]
      rw [this]
      exact ih (Traced.failed h hs) hd hq fun o ho => hops o (by simp [ho])
    | ok x =>
      obtain ⟨w', resp⟩ := x
      have : OB.apply ch w op = w' := by unfold OB.apply; rw [hs]
      rw [this]
      have h' := Traced.ok h hs
      have hd' : denoms w'.store = .ok (quote, base) := by
        have e := C39_denoms_fixed (ch := ch) ⟨n, h.reachable⟩ [op]
        have hr1 : OB.run ch w [op] = w' := this
        rw [hr1] at e
        rw [e, hd]
      refine ih h' hd' ?_ fun o ho => hops o (by simp [ho])
      obtain ⟨ob, hob, hqd, hbd⟩ := denoms_eq hd
      obtain ⟨hp, hc⟩ := hops op (by simp)
      rcases (h.step hs).openBy hob 182402823 .bid hp (by
        intro r' time' hr' hop
        subst hop
        refine liq h hq hd (r := r') ?_ time' ⟨w', resp, hs⟩
        rw [hr']; exact hbd) with h1 | ⟨x, hx, hx0, time', rfl⟩
      · unfold OnlyOpen; rw [h1]; exact hq
      · exfalso
        by_cases hxa : x.owner = a
        · rw [hxa] at hc; exact hc _ _ _ rfl
        · exact hx0 (hq.1 (x.owner, x.left) (List.mem_map_of_mem (f := fun x => (x.owner, x.left)) hx) hxa)

/-- C62: on every reachable active book without open bids at the top tick, anybody can stop all sales for at most 340 units of quote: the
bid at the top tick is accepted, and from then on, whatever anybody does, no sale is accepted until another bid is placed at
the top tick or the attacker cancels (getting the deposit back). -/
theorem C62_attack {ch : Chain} {w : World} (hw : Reachable ch w) (hn : w.HasRoom) {quote base : Denom}
    (hd : denoms w.store = .ok (quote, base)) (ha : isActive w.store = true) (hz : tickLiquidity w.store 182402823 .bid = 0)
    {a : Addr} (hac : a ≠ ch.contract) {k : Nat} (hk : k ≠ 0 ∧ k ≤ 340) (hbal : k ≤ w.bank a quote) (time0 : Nat) :
    let bid : Op := .execute a [⟨quote, k⟩] time0 (.placeLimit 182402823 .bid k none)
    Accepted ch w bid ∧
    ∀ ops : List Op, (∀ op ∈ ops, (∀ a' funds time q cb, op ≠ .execute a' funds time (.placeLimit 182402823 .bid q cb)) ∧
        ∀ funds time id, op ≠ .execute a funds time (.cancelLimit 182402823 id)) →
      ∀ (r : SwapReq) (time : Nat), r.tokenIn.denom = base → ¬ Accepted ch (run ch w (bid :: ops)) (r.op time) := by
  obtain ⟨n, hw⟩ := hw
  intro bid
  have hacc : Accepted ch w bid := (C05_place_acceptance ⟨n, hw⟩ hn hd ha hac _ _ _ _ _ _).1.2
    ⟨⟨by norm_num, le_refl _⟩, Nat.pos_of_ne_zero hk.1, by omega, by simp, rfl, hbal⟩
  refine ⟨hacc, ?_⟩
  intro ops hops r time hr
  obtain ⟨w', resp, hs⟩ := hacc
  obtain ⟨b, h⟩ := hw.traced
  have hrun : run ch w (bid :: ops) = run ch w' ops := by
    show run ch (apply ch w bid) ops = _
    congr 1
    unfold apply; rw [hs]
  rw [hrun]
  have h' := Traced.ok h hs
  have hd' : denoms w'.store = .ok (quote, base) := by
    have e := C39_denoms_fixed (ch := ch) ⟨n, hw⟩ [bid]
    have hr1 : run ch w [bid] = w' := by
      show apply ch w bid = w'
      unfold apply; rw [hs]
    rw [hr1] at e
    rw [e, hd]
  refine blocked_run h' hd' hk ?_ hops hr time
  obtain ⟨rr, rt, hsd, -, -⟩ := h.rel.sides 182402823 .bid
  have h0 : ((openBy (b 182402823 .bid)).map Prod.snd).sum = 0 := by
    rw [← openTotal_openBy hsd.ok, ← (C26_tick_liquidity h _ _).2, hz]
  have hst : StoreStep ch (.execute a [⟨quote, k⟩] time0 (.placeLimit 182402823 .bid k none)) _ _ _ _ _ := h.step hs
  generalize b.observe _ _ _ _ = b' at hst ⊢
  generalize w'.store = s' at hst
  cases hst with
  | @place sender funds time tick dir q cb s b ob h1 h2 h3 h4 =>
    have e : openBy ((b.set 182402823 .bid (b 182402823 .bid ++ [newEntry w.store a k none time0])) 182402823 .bid) =
        openBy (b 182402823 .bid) ++ [(a, k)] := by
      unfold Book.set
      simp [openBy, newEntry, Entry.left]
    unfold OnlyOpen
    rw [e]
    refine ⟨?_, ?_⟩
    · intro y hy hne
      rcases List.mem_append.1 hy with hy | hy
      · exact List.sum_eq_zero_iff.1 h0 _ (List.mem_map_of_mem (f := Prod.snd) hy)
      · simp only [List.mem_singleton] at hy
        subst hy
        exact absurd rfl hne
    · rw [List.map_append, List.sum_append, h0]; simp
  | config hc => simp [Op.isConfig] at hc

/-- C62 on the demo book, which has 540000 units of bids: before the attack 300000 base sell for 170000 quote; after "mallory" bids one unit
at the top tick the same sale, and any other, fails. -/
example : let bid : Op := .execute "mallory" [⟨"q", 1⟩] 0 (.placeLimit 182402823 .bid 1 none)
    (respOf Demo.ch Demo.after (Demo.sale.op 10)).isSome = true ∧
    (respOf Demo.ch (run Demo.ch Demo.after [bid]) (Demo.sale.op 10)).isSome = false ∧
    tickLiquidity Demo.after.store 182402823 .bid = 0 ∧ isActive Demo.after.store = true := by
  decide +kernel

end OB
