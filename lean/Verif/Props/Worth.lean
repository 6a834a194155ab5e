import Verif.SpecWorth
import Verif.Props.Econ
import Verif.Props.Refuse
import Verif.Props.Local
/- C95: no account gains by swaps alone. -/
namespace OB
open Spec

theorem left_cancel (p q : List Entry) (x : Entry) :
    sumBy Entry.left (p ++ { x with cancelled := true } :: q) ≤ sumBy Entry.left (p ++ x :: q) := by
  simp only [sumBy_append, sumBy_cons, Entry.left]
  simp

theorem ClaimStep.left {sender : Addr} {tick : Int} {id : Nat} {s s' : Store} {b b' : Book} {r : Nat × List SendMsg × LimitOrder}
    (h : ClaimStep sender tick id s b r s' b') (t : Int) (d : Dir) : sumBy Entry.left (b' t d) = sumBy Entry.left (b t d) := by
  obtain ⟨h1, h2, h3, h4, h5, h6, h7⟩ := h
  rename_i s1 dir p q x ob rc
  by_cases e : t = tick ∧ d = dir
  · obtain ⟨rfl, rfl⟩ := e
    rw [Book.set_self, h1]
    simp only [sumBy_append, sumBy_cons, Entry.left]
  · rw [Book.set_ne _ _ (not_and_or.1 e)]

theorem ClaimRun.left {sender : Addr} {ob : Orderbook} {l : List (Int × Nat)} {s s' : Store} {b b' : Book} {ms : List SendMsg}
    {es : List Event} (h : ClaimRun sender ob l s b ms es s' b') (t : Int) (d : Dir) : sumBy Entry.left (b' t d) = sumBy Entry.left (b t d) := by
  induction h with
  | nil => rfl
  | ok _ h _ ih => rw [ih, h.left t d]
  | skip _ _ _ ih => exact ih

/-- Only placements create liquidity. -/
theorem liquidity_origin {ch : Chain} {w w' : World} (hw : Reachable ch w) {op : Op} {resp : Response} (hs : step ch w op = .ok (w', resp))
    {t : Int} {d : Dir} (hl : tickLiquidity w'.store t d ≠ 0) :
    tickLiquidity w.store t d ≠ 0 ∨ ∃ sender funds time q bounty, op = .execute sender funds time (.placeLimit t d q bounty) := by
  obtain ⟨n, hn⟩ := hw
  obtain ⟨b, h⟩ := hn.traced
  have hst := h.step hs
  have hr := h.rel
  generalize b.observe _ _ _ _ = b' at hst
  have hr' := hst.rel hr
  rw [hr'.tickLiq] at hl
  rw [hr.tickLiq]
  generalize w'.store = s' at hst
  cases hst with
  | @place sender funds time tick dir q cb _ _ ob h1 h2 h3 h4 =>
    by_cases e : t = tick ∧ d = dir
    · obtain ⟨rfl, rfl⟩ := e
      exact Or.inr ⟨_, _, _, _, _, rfl⟩
    · rw [Book.set_ne _ _ (not_and_or.1 e)] at hl
      exact Or.inl hl
  | @cancel time tick dir _ s1 _ ob p q x tr ts1 h1 h2 h3 =>
    left
    by_cases e : t = tick ∧ d = dir
    · obtain ⟨rfl, rfl⟩ := e
      rw [Book.set_self] at hl
      have := left_cancel p q x
      rw [h3]
      omega
    · rw [Book.set_ne _ _ (not_and_or.1 e)] at hl
      exact hl
  | claim _ _ _ h4 => rw [h4.left t d] at hl; exact Or.inl hl
  | batch _ _ _ h4 => rw [h4.left t d] at hl; exact Or.inl hl
  | swap h1 h2 h3 h4 h5 =>
    rw [filled_left (h5.run.fillsOk hr h2)] at hl
    left; omega
  | config => exact Or.inl hl

/-- What a swap charges is worth at least its output, at any price between bids and asks. -/
theorem swap_charged {ch : Chain} {w w' : World} (hw : Reachable ch w) {quote base : Denom} (hd : denoms w.store = .ok (quote, base))
    {r : SwapReq} {time : Nat} {resp : Response} (hs : step ch w (r.op time) = .ok (w', resp)) {side : Dir} (hp : r.pair quote base side)
    {t0 : Int} (hv : ValidTick t0) (hf : price t0 ≤ 10 ^ 18 ∨ r.target = none) (hb : Between w.store t0) :
    ∃ out refund, resp.data = some out ∧ refund ≤ r.tokenIn.amount ∧ value side out t0 ≤ (r.tokenIn.amount : ℚ) - refund ∧
      resp.msgs.tail = (if refund = 0 then [] else [⟨r.sender, ⟨r.tokenIn.denom, refund⟩, 1⟩]) := by
  obtain ⟨refund, dust, h1, h2, -, -, h2'⟩ := C22_input_accounted hw hd hs hp
  obtain ⟨out, h3, h4, -⟩ := C24_swap_conservation hw hd hs hp
  refine ⟨out, refund, h3, by omega, ?_, h1⟩
  have hbet : ∀ t, taken w.store w'.store t side ≠ 0 → ¬ Better side t t0 := fun t hz => hb t side (by unfold taken at hz; omega)
  have hsum : (overTicks fun t => charge side (taken w.store w'.store t side) t : ℚ) ≤ (r.tokenIn.amount : ℚ) - refund := by
    have : ((overTicks fun t => charge side (taken w.store w'.store t side) t) + refund + dust : ℚ) = r.tokenIn.amount := by exact_mod_cast h2
    have hdn : (0 : ℚ) ≤ dust := Nat.cast_nonneg _
    linarith
  have htot : value side out t0 = ∑ t ∈ Finset.Icc (-108000000 : Int) 182402823, value side (taken w.store w'.store t side) t0 := by
    rw [← h4, value_linear]
    unfold overTicks
    push_cast
    rw [Finset.sum_mul]
    exact Finset.sum_congr rfl fun t _ => (value_linear side _ t0).symm
  have hle : ∀ t ∈ Finset.Icc (-108000000 : Int) 182402823,
      value side (taken w.store w'.store t side) t0 ≤ value side (taken w.store w'.store t side) t := by
    intro t ht
    by_cases hz : taken w.store w'.store t side = 0
    · rw [hz]; cases side <;> simp [value]
    rw [value_linear, value_linear side _ t]
    exact mul_le_mul_of_nonneg_left (value_one_mono hv (Finset.mem_Icc.1 ht) (hbet t hz)) (Nat.cast_nonneg _)
  have hpr : ∀ t, ValidTick t → side = .bid → ¬ Better side t t0 → price t ≤ price t0 := by
    rintro t hvt rfl hnb
    simp only [Better, not_lt] at hnb
    have h5 := value_one_mono (side := .ask) hvt hv (by simp only [Better]; omega)
    simp only [value] at h5
    push_cast at h5
    linarith
  by_cases hfine : side = .ask ∨ price t0 ≤ 10 ^ 18
  · refine le_trans ?_ hsum
    rw [htot]
    unfold overTicks
    push_cast
    refine Finset.sum_le_sum fun t ht => (hle t ht).trans ?_
    by_cases hz : taken w.store w'.store t side = 0
    · rw [hz]; cases side <;> simp [value]
    refine ((C21_charge_fair side _ t (Finset.mem_Icc.1 ht)).2.1 ?_).2
    cases side
    · exact Or.inr ((hpr t (Finset.mem_Icc.1 ht) rfl (hbet t hz)).trans (hfine.resolve_left (by simp)))
    · exact Or.inl rfl
  · rw [not_or, not_le] at hfine
    obtain ⟨hside, hbig⟩ := hfine
    have hbid : side = .bid := by cases side; rfl; exact absurd rfl hside
    subst hbid
    have hnone := hf.resolve_left (not_le.2 hbig)
    obtain ⟨last, g1, g2, -⟩ := h2' hnone
    by_cases hz : refund = 0
    · subst hz
      have := C54_never_better hw hd hs hp h3 hv hbet
      push_cast
      linarith
    -- a refund: the last price is below one, and the loss there outweighs the rounding everywhere else
    have hll : tickLiquidity w.store last .bid ≠ 0 := by unfold taken at g1; omega
    have hm : last ∈ Finset.Icc (-108000000 : Int) 182402823 := Finset.mem_Icc.2 ((C26_pool_liquidity hw hd).2.1 last .bid hll)
    have hvl : ValidTick last := Finset.mem_Icc.1 hm
    obtain ⟨v0, v1⟩ := validTick_iff.1 hvl
    have hpl := spec_price_pos v0 v1
    have hr1 : (1 : ℚ) ≤ refund := by exact_mod_cast Nat.one_le_iff_ne_zero.2 hz
    have hlt : price last < 1 := by
      simp only [Dir.opposite, value] at g2
      exact lt_of_le_of_lt (le_mul_of_one_le_left hpl.le hr1) g2
    have hx : (1 : ℚ) ≤ (taken w.store w'.store last .bid : ℚ) := by exact_mod_cast Nat.one_le_iff_ne_zero.2 g1
    have hlast : value .bid (taken w.store w'.store last .bid) t0 ≤ (charge .bid (taken w.store w'.store last .bid) last : ℚ) - 1 / 2 := by
      have k1 := ((C21_charge_fair .bid (taken w.store w'.store last .bid) last hvl).2.1 (Or.inr (by linarith))).2
      simp only [value] at k1 ⊢
      have k2 : (taken w.store w'.store last .bid : ℚ) ≤ taken w.store w'.store last .bid / price last :=
        le_div_self (Nat.cast_nonneg _) hpl hlt.le
      have k3 : (taken w.store w'.store last .bid : ℚ) / price t0 ≤ taken w.store w'.store last .bid / 2 :=
        div_le_div_of_nonneg_left (by linarith) (by norm_num) (by linarith)
      linarith
    refine le_trans ?_ hsum
    rw [htot]
    unfold overTicks
    push_cast
    rw [← Finset.add_sum_erase _ _ hm, ← Finset.add_sum_erase (Finset.Icc (-108000000 : Int) 182402823) (fun t => (charge .bid (taken w.store w'.store t .bid) t : ℚ)) hm]
    have hrest : ∑ t ∈ (Finset.Icc (-108000000 : Int) 182402823).erase last, value .bid (taken w.store w'.store t .bid) t0 ≤
        ∑ t ∈ (Finset.Icc (-108000000 : Int) 182402823).erase last, ((charge .bid (taken w.store w'.store t .bid) t : ℚ) + 1 / 10 ^ 18) :=
      Finset.sum_le_sum fun t ht => (hle t (Finset.mem_of_mem_erase ht)).trans
        (C21_charge_fair .bid _ t (Finset.mem_Icc.1 (Finset.mem_of_mem_erase ht))).1.le
    rw [Finset.sum_add_distrib, Finset.sum_const, nsmul_eq_mul] at hrest
    have hcard : (((Finset.Icc (-108000000 : Int) 182402823).erase last).card : ℚ) ≤ 290402824 := by
      have e1 : ((Finset.Icc (-108000000 : Int) 182402823).erase last).card ≤ (Finset.Icc (-108000000 : Int) 182402823).card := Finset.card_erase_le
      rw [Int.card_Icc] at e1
      have e2 : ((182402823 : Int) + 1 - -108000000).toNat = 290402824 := by norm_num; rfl
      rw [e2] at e1
      exact_mod_cast e1
    have hsmall : (((Finset.Icc (-108000000 : Int) 182402823).erase last).card : ℚ) * (1 / 10 ^ 18) ≤ 1 / 2 := by
      refine (mul_le_mul_of_nonneg_right hcard (by norm_num)).trans ?_
      norm_num
    linarith

theorem received_none {a : Addr} {d : Denom} {ms : List SendMsg} (h : ∀ m ∈ ms, m.to ≠ a) : received a d ms = 0 := by
  unfold received
  refine List.sum_eq_zero fun x hx => ?_
  obtain ⟨m, hm, rfl⟩ := List.mem_map.1 hx
  rw [if_neg fun hc => h m hm hc.1]

/-- C95 (one swap): on a book with no bid above and no ask below the price of tick `t0`, no account's holdings, counted at that price, are
increased by a swap. -/
theorem C95_swap {ch : Chain} {w w' : World} (hw : Reachable ch w) {quote base : Denom} (hd : denoms w.store = .ok (quote, base))
    {r : SwapReq} {time : Nat} {resp : Response} (hs : step ch w (r.op time) = .ok (w', resp)) {t0 : Int} (hv : ValidTick t0)
    (hb : Between w.store t0) {a : Addr} (ha : a ≠ ch.contract) (hf : price t0 ≤ 10 ^ 18 ∨ (a = r.sender → r.target = none)) :
    (w'.bank a quote : ℚ) + w'.bank a base * price t0 ≤ w.bank a quote + w.bank a base * price t0 := by
  obtain ⟨-, -, hne, ⟨side, hp⟩, out, refund, h1, -, -, h2, -, h3⟩ := C18_swap_payment hw hd hs
  by_cases hsend : a = r.sender
  swap
  · rw [h3.other a quote (Or.inl ⟨hsend, ha⟩), h3.other a base (Or.inl ⟨hsend, ha⟩)]
  obtain ⟨out', refund', g1, g2, g3, g4⟩ := swap_charged hw hd hs hp hv (hf.imp id fun h => h hsend) hb
  rw [h1] at g1
  obtain rfl := Option.some.inj g1
  have e : refund' = refund := by
    rw [h2] at g4
    simp only [List.tail_cons] at g4
    by_cases z : refund = 0 <;> by_cases z' : refund' = 0
    · omega
    · rw [if_pos z, if_neg z'] at g4; simp at g4
    · rw [if_neg z, if_pos z'] at g4; simp at g4
    · rw [if_neg z, if_neg z'] at g4
      simp only [List.cons.injEq, SendMsg.mk.injEq, Coin.mk.injEq, true_and, and_true] at g4
      exact g4.symm
  subst e
  subst hsend
  have p1 := h3.senderIn
  have p2 := h3.senderOut
  obtain ⟨q1, q2⟩ := hp
  obtain ⟨v0, v1⟩ := validTick_iff.1 hv
  have hpos := spec_price_pos v0 v1
  have p1' : (w'.bank r.sender r.tokenIn.denom : ℚ) + ((r.tokenIn.amount : ℚ) - refund') = w.bank r.sender r.tokenIn.denom := by
    have : (w'.bank r.sender r.tokenIn.denom : ℚ) + r.tokenIn.amount = w.bank r.sender r.tokenIn.denom + refund' := by exact_mod_cast p1
    linarith
  have p2' : (w'.bank r.sender r.outDenom : ℚ) = w.bank r.sender r.outDenom + out := by exact_mod_cast p2
  cases side
  · simp only [denomOut, denomIn] at q1 q2
    rw [q1] at p1'; rw [q2] at p2'
    simp only [value] at g3
    rw [div_le_iff₀ hpos] at g3
    have : ((w'.bank r.sender base : ℚ) + ((r.tokenIn.amount : ℚ) - refund')) * price t0 = w.bank r.sender base * price t0 := by rw [p1']
    rw [p2']
    linarith
  · simp only [denomOut, denomIn] at q1 q2
    rw [q1] at p1'; rw [q2] at p2'
    simp only [value] at g3
    rw [p2']
    linarith

theorem worth_transfer {ch : Chain} {w w' : World} {src dst : Addr} {c : Coin} {resp : Response}
    (hs : step ch w (.transfer src dst c) = .ok (w', resp)) {S : Finset Addr} (hS : ch.contract ∉ S) (hin : dst ∈ S → src ∈ S) (d : Denom) :
    ∑ a ∈ S, (w'.bank a d : ℚ) ≤ ∑ a ∈ S, (w.bank a d : ℚ) := by
  have hmsgs : resp.msgs = [] := by
    simp only [step] at hs
    split at hs
    · cases hs
    · simp only [Except.bind_eq_ok'] at hs
      obtain ⟨_, _, _, rfl⟩ := hs
      rfl
  have key : ∀ a ∈ S, (w'.bank a d : ℚ) + (if a = src then (amountOf d [c] : ℚ) else 0) = w.bank a d + (if a = dst then (amountOf d [c] : ℚ) else 0) := by
    intro a ha
    have h := C63_balances (fun _ _ => by simp) hs a d
    rw [if_neg (show a ≠ ch.contract by rintro rfl; exact hS ha), hmsgs] at h
    simp only [paysIn, getsPaid, payment, received, List.map_nil, List.sum_nil, Nat.add_zero] at h
    by_cases e1 : a = src <;> by_cases e2 : a = dst <;> simp only [e1, e2, if_true, if_false] at h ⊢ <;> exact_mod_cast h
  have h := Finset.sum_congr (rfl : S = S) key
  rw [Finset.sum_add_distrib, Finset.sum_add_distrib, Finset.sum_ite_eq', Finset.sum_ite_eq'] at h
  have hnn : (0 : ℚ) ≤ (amountOf d [c] : ℚ) := Nat.cast_nonneg _
  by_cases e2 : dst ∈ S
  · rw [if_pos e2, if_pos (hin e2)] at h; linarith
  · rw [if_neg e2] at h
    split at h <;> linarith

/-- Whoever has no part in an operation does not gain by it. -/
theorem bystander {ch : Chain} {w w' : World} (hw : Reachable ch w) {op : Op} {resp : Response} (hs : step ch w op = .ok (w', resp))
    {a : Addr} (ha : a ≠ ch.contract) (hnp : ¬ Party w.store op a) (hm : ∀ c, op ≠ .mint a c) (d : Denom) : w'.bank a d ≤ w.bank a d := by
  by_cases hop : ∀ dst c, op ≠ .mint dst c
  · obtain ⟨n, hn⟩ := hw
    obtain ⟨b, h⟩ := hn.traced
    have hf := C63_balances hop hs a d
    have hz : received a d resp.msgs = 0 := received_none fun m hm e => hnp (e ▸ (h.step hs).parties h.rel m hm)
    rw [if_neg ha, hz] at hf
    have hg : getsPaid ch op a d = 0 := by
      unfold getsPaid
      cases hp : payment ch op with
      | none => rfl
      | some x =>
        obtain ⟨src, dst, cs⟩ := x
        simp only
        rw [if_neg]
        rintro rfl
        cases op with
        | execute sender funds time msg => simp only [payment, Option.some.injEq, Prod.mk.injEq] at hp; exact ha hp.2.1.symm
        | «sudo» time msg => cases msg <;> simp only [payment, Option.some.injEq, Prod.mk.injEq, reduceCtorEq] at hp <;> exact ha hp.2.1.symm
        | transfer src' dst' c =>
          simp only [payment, Option.some.injEq, Prod.mk.injEq] at hp
          exact hnp (Or.inr hp.2.1.symm)
        | _ => simp [payment] at hp
    omega
  · simp only [ne_eq, not_forall, not_not] at hop
    obtain ⟨dst, c, rfl⟩ := hop
    simp only [step, Except.ok.injEq, Prod.mk.injEq] at hs
    obtain ⟨rfl, -⟩ := hs
    have : a ≠ dst := by rintro rfl; exact hm c rfl
    simp [this]

/-- C95: no money machine. As long as nobody bids above or asks below some price, accounts that only swap - as often as they like, in any
order, between any operations of others, and passing coins among themselves - never hold together more than before, counted at that price. (Above a
price of 10^18 they must not use `swap_to_tick`: see the last example.) -/
theorem C95_no_money_machine {ch : Chain} {w : World} (hw : Reachable ch w) {quote base : Denom} (hd : denoms w.store = .ok (quote, base))
    {t0 : Int} (hv : ValidTick t0) (hb : Between w.store t0) {ops : List Op} (hp : PlacedAround ops t0)
    {S : Finset Addr} (hS : ch.contract ∉ S) (ho : OnlySwap ch w ops S)
    (hf : price t0 ≤ 10 ^ 18 ∨ ∀ time a c out min fee t, Op.sudo time (.swapToTick a c out min fee t) ∈ ops → a ∉ S) :
    holdings quote base t0 S (run ch w ops).bank ≤ holdings quote base t0 S w.bank := by
  induction ops generalizing w with
  | nil => exact le_refl _
  | cons op ops ih =>
    have hrun : run ch w (op :: ops) = run ch (apply ch w op) ops := rfl
    rw [hrun]
    have hp' : PlacedAround ops t0 := fun s f t k d q c h => hp s f t k d q c (by simp [h])
    have ho' : OnlySwap ch (apply ch w op) ops S := fun pre o post e => ho (op :: pre) o post (by rw [e]; rfl)
    have hf' : price t0 ≤ 10 ^ 18 ∨ ∀ time a c out min fee t, Op.sudo time (.swapToTick a c out min fee t) ∈ ops → a ∉ S :=
      hf.imp id fun h time a c out min fee t hm => h time a c out min fee t (by simp [hm])
    have hw' : Reachable ch (apply ch w op) := Reachable.run hw [op]
    have hd' : denoms (apply ch w op).store = .ok (quote, base) := by
      have := C39_denoms_fixed hw [op]
      rw [show run ch w [op] = apply ch w op from rfl] at this
      rw [this, hd]
    cases hs : step ch w op with
    | error e =>
      have e1 : apply ch w op = w := by unfold apply; rw [hs]
      rw [e1] at ho' ⊢
      exact ih hw hd hb hp' ho' hf'
    | ok x =>
      obtain ⟨w1, resp⟩ := x
      have e1 : apply ch w op = w1 := by unfold apply; rw [hs]
      rw [e1] at ho' hw' hd' ⊢
      have hb' : Between w1.store t0 := by
        intro t d hl
        rcases liquidity_origin hw hs hl with h | ⟨sender, funds, time, q, bounty, rfl⟩
        · exact hb t d h
        · exact hp sender funds time t d q bounty (by simp)
      refine (ih hw' hd' hb' hp' ho' hf').trans ?_
      obtain ⟨k1, k2⟩ := ho [] op ops rfl
      change ∀ a ∈ S, Party w.store op a → _ at k1
      obtain ⟨v0, v1⟩ := validTick_iff.1 hv
      have hpos := spec_price_pos v0 v1
      by_cases hsw : ∃ r time, op = SwapReq.op r time
      · obtain ⟨r, time, rfl⟩ := hsw
        refine Finset.sum_le_sum fun a ha => C95_swap hw hd hs hv hb (by rintro rfl; exact hS ha) (hf.imp id fun h e => ?_)
        cases ht : r.target with
        | none => rfl
        | some t =>
          refine absurd (e ▸ ha) (h time r.sender r.tokenIn r.outDenom r.minOut r.fee t ?_)
          simp [SwapReq.op, ht]
      by_cases htr : ∃ src dst c, op = .transfer src dst c ∧ (dst ∈ S → src ∈ S)
      · obtain ⟨src, dst, c, rfl, hin⟩ := htr
        unfold holdings
        simp only [Finset.sum_add_distrib, ← Finset.sum_mul]
        exact add_le_add (worth_transfer hs hS hin quote) (mul_le_mul_of_nonneg_right (worth_transfer hs hS hin base) hpos.le)
      · refine Finset.sum_le_sum fun a ha => ?_
        have hnp : ¬ Party w.store op a := fun hc => (k1 a ha hc).elim hsw htr
        have hm : ∀ c, op ≠ .mint a c := fun c e => k2 a c e ha
        have hac : a ≠ ch.contract := by rintro rfl; exact hS ha
        have b1 : (w1.bank a quote : ℚ) ≤ w.bank a quote := by exact_mod_cast bystander hw hs hac hnp hm quote
        have b2 : (w1.bank a base : ℚ) ≤ w.bank a base := by exact_mod_cast bystander hw hs hac hnp hm base
        exact add_le_add b1 (mul_le_mul_of_nonneg_right b2 hpos.le)

/-- Swaps of frank and zed, with a bid of erin in between. -/
def Demo.takers : List Op :=
  [Demo.sell "zed" 5000 1, Demo.place "erin" 0 .bid 7 none, Demo.buy "frank" 1000 1, .transfer "zed" "frank" ⟨"q", 3⟩]

-- The demo book has bids up to tick 0 and an ask at tick 10. Frank and zed may swap as they like (all of it goes through), and hold no more than before.
example : (Demo.takers.foldl (fun x op => (x.1 && (step Demo.ch x.2 op).toOption.isSome, apply Demo.ch x.2 op)) (true, Demo.after)).1 = true ∧
    holdings "q" "b" 5 {"frank", "zed"} (run Demo.ch Demo.after Demo.takers).bank ≤ holdings "q" "b" 5 {"frank", "zed"} Demo.after.bank := by
  refine ⟨by decide +kernel, C95_no_money_machine ⟨_, (Demo.traced Demo.history).reachable⟩ (t0 := 5) (ops := Demo.takers) (S := {"frank", "zed"})
    (quote := "q") (base := "b") (w := Demo.after) (ch := Demo.ch) ?_ ⟨by norm_num, by norm_num⟩ ?_ ?_ (by decide) ?_ (Or.inl ?_)⟩
  · decide +kernel
  · intro t d hl
    by_cases hm : t ∈ [(-5000000 : Int), 0, 10]
    · simp only [List.mem_cons, List.not_mem_nil, or_false] at hm
      rcases hm with rfl | rfl | rfl <;> cases d <;> simp only [Better] <;> try omega
      · exact absurd (show tickLiquidity Demo.after.store (-5000000) .ask = 0 by decide +kernel) hl
      · exact absurd (show tickLiquidity Demo.after.store 0 .ask = 0 by decide +kernel) hl
      · exact absurd (show tickLiquidity Demo.after.store 10 .bid = 0 by decide +kernel) hl
    · exact absurd (Demo.absent (by decide +kernel) hm d) hl
  · intro sender funds time tick dir q bounty hm
    simp only [Demo.takers, Demo.sell, Demo.buy, Demo.place, List.mem_cons, List.not_mem_nil, or_false, reduceCtorEq, false_or, Op.execute.injEq,
      ExecuteMsg.placeLimit.injEq] at hm
    obtain ⟨-, -, -, rfl, rfl, -⟩ := hm
    simp [Better]
  · intro pre op post e
    have hin : op ∈ Demo.takers := by rw [e]; simp
    simp only [Demo.takers, List.mem_cons, List.not_mem_nil, or_false] at hin
    rcases hin with rfl | rfl | rfl | rfl
    · exact ⟨fun a _ _ => Or.inl ⟨⟨"zed", ⟨"b", 5000⟩, "q", 1, 0, none⟩, _, rfl⟩, by simp [Demo.sell]⟩
    · refine ⟨fun a ha hc => ?_, by simp [Demo.place]⟩
      have : a = "erin" := hc
      subst this
      simp at ha
    · exact ⟨fun a _ _ => Or.inl ⟨⟨"frank", ⟨"q", 1000⟩, "b", 1, 0, none⟩, _, rfl⟩, by simp [Demo.buy]⟩
    · exact ⟨fun a _ _ => Or.inr ⟨_, _, _, rfl, by simp⟩, by simp⟩
  · norm_num [price]

-- The hypotheses are needed. On a crossed book (the contract does not match limit orders) a taker gains in quote and loses nothing in base.
example : let w := run Demo.ch Demo.after [Demo.place "alice" 9000000 .bid 400000 none]
    let w' := run Demo.ch w [Demo.buy "zed" 20001 1, Demo.sell "zed" 20000 1]
    w'.bank "zed" "q" = w.bank "zed" "q" + 179999 ∧ w'.bank "zed" "b" = w.bank "zed" "b" := by decide +kernel

-- Above a price of 10^18 emptying a bid tick may cost less than the bid is worth (finding 1); the refund of `swap_to_tick` makes a riskless gain of it:
-- here at price 10^20, 10 units of quote. With a plain swap that gain is not possible (C95).
example : let w := run Demo.ch Demo.w0 [Demo.place "alice" 180000000 .bid (5 * 10 ^ 20 + 10) none, Demo.place "bob" 180000000 .ask 5 none]
    let w' := run Demo.ch w [.sudo 1 (.swapToTick "zed" ⟨"b", 6⟩ "q" 1 0 180000000), Demo.buy "zed" (5 * 10 ^ 20) 1]
    w'.bank "zed" "q" = w.bank "zed" "q" + 10 ∧ w'.bank "zed" "b" = w.bank "zed" "b" := by decide +kernel

end OB
