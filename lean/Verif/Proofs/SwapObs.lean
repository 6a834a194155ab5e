import Verif.Proofs.ClaimObs
import Verif.SpecSwap
import Verif.Proofs.Text
/- Swaps: from the fills of the model to what a user can observe. -/
namespace OB
open Spec

theorem overTicks_eq (g : Int → Nat) : overTicks g = total g := by
  unfold overTicks total tickRange MIN_TICK MAX_TICK
  rfl

theorem charge_eq {side : Dir} {a : Nat} {t : Int} (h0 : MIN_TICK ≤ t) (h1 : t ≤ MAX_TICK) :
    valUp side a (priceNat t) = charge side a t := by
  cases side
  · unfold charge
    simp only
    have hp := priceNat_pos h0 h1
    have hpq : ((priceNat t : ℕ) : ℚ) ≠ 0 := by exact_mod_cast hp.ne'
    have e : value .bid a t * 10 ^ 18 = ((a * (D * D) : ℕ) : ℚ) / ((priceNat t : ℕ) : ℚ) := by
      rw [value_eq h0 h1, ← D_cast]
      simp only
      push_cast
      field_simp
    rw [e, Nat.floor_div_eq_div, ← D_cast, ceil_div_cast _ _ D_pos]
    rfl
  · exact valUp_ask_spec h0 h1

theorem better_iff {side : Dir} {t t' : Int} : Better side t t' ↔ WorseThan side.opposite t t' := by
  cases side <;> rfl

theorem swapReq_op_eq (r : SwapReq) (time : Nat) : ∃ msg, r.op time = .sudo time msg ∧
    msg.swapArgs = some (r.sender, r.tokenIn, r.outDenom, r.minOut, r.fee, r.target) ∧ msg.deposit = some (r.sender, r.tokenIn) := by
  obtain ⟨a, c, o, m, f, t⟩ := r
  cases t <;> exact ⟨_, rfl, rfl, rfl⟩

theorem sudo_swap {env : Env} {msg : SudoMsg} {r : SwapReq} {s s' : Store} {resp : Response}
    (ha : msg.swapArgs = some (r.sender, r.tokenIn, r.outDenom, r.minOut, r.fee, r.target)) :
    «sudo» env msg s = .ok resp s' ↔ isActive s = true ∧
      dispatchSwapExactAmountIn env r.sender r.tokenIn r.outDenom r.minOut r.fee r.target s = .ok resp s' := by
  unfold «sudo»
  rw [EM.bind_eq_ok]
  cases msg <;> simp [SudoMsg.swapArgs] at ha
  · obtain ⟨rfl, rfl, rfl, rfl, rfl, h⟩ := ha
    rw [← h]
    constructor
    · rintro ⟨u, s1, h1, h2⟩
      obtain ⟨h3, rfl⟩ := ensureIsActive_eq_ok.1 h1
      exact ⟨h3, h2⟩
    · rintro ⟨h1, h2⟩
      exact ⟨(), s, ensureIsActive_eq_ok.2 ⟨h1, rfl⟩, h2⟩
  · obtain ⟨rfl, rfl, rfl, rfl, rfl, h⟩ := ha
    rw [← h]
    constructor
    · rintro ⟨u, s1, h1, h2⟩
      obtain ⟨h3, rfl⟩ := ensureIsActive_eq_ok.1 h1
      exact ⟨h3, h2⟩
    · rintro ⟨h1, h2⟩
      exact ⟨(), s, ensureIsActive_eq_ok.2 ⟨h1, rfl⟩, h2⟩

/-- Well-formed numbers of a request. -/
def SwapReqOk (r : SwapReq) : Prop :=
  r.tokenIn.amount < U128 ∧ r.minOut < U128 ∧ r.fee < U128 ∧ ∀ t, r.target = some t → i64Ok t = true

theorem step_swap_ok {ch : Chain} {w w' : World} {r : SwapReq} {time : Nat} {resp : Response} :
    step ch w (r.op time) = .ok (w', resp) ↔
      SwapReqOk r ∧ r.sender ≠ ch.contract ∧ ∃ bank1, w.bank.send r.sender ch.contract r.tokenIn = .ok bank1 ∧ isActive w.store = true ∧
        dispatchSwapExactAmountIn (ch.env time) r.sender r.tokenIn r.outDenom r.minOut r.fee r.target w.store = .ok resp w'.store ∧
        bank1.dispatch ch.contract resp.msgs = .ok w'.bank := by
  obtain ⟨msg, h1, h2, h3⟩ := swapReq_op_eq r time
  have hw : msg.wellTyped = true ↔ SwapReqOk r := by
    obtain ⟨a, c, o, m, f, t⟩ := r
    cases t <;> simp only [SwapReq.op, Op.sudo.injEq, true_and] at h1 <;> subst h1 <;>
      simp [SudoMsg.wellTyped, SwapReqOk, and_assoc]
  rw [h1]
  simp only [step, h3]
  by_cases h4 : msg.wellTyped = true
  · by_cases hs : r.sender = ch.contract
    · simp [hs, h4]
    · simp only [h4, hs, Bool.not_true, Bool.false_eq_true, if_false, Except.bind_eq_ok', runTx_eq_ok, sudo_swap h2, hw.1 h4, ne_eq,
        not_false_eq_true, true_and, and_assoc]
  · have h4' : msg.wellTyped = false := by simpa using h4
    simp only [h4', Bool.not_false, if_true, reduceCtorEq, false_iff, not_and]
    intro hc
    exact absurd (hw.2 hc) h4

/-- Everything about an accepted swap. -/
theorem Traced.swap_inv {ch : Chain} {n : Nat} {w w' : World} {b : Book} (h : Traced ch n w b) {r : SwapReq} {time : Nat} {resp : Response}
    (hs : OB.step ch w (r.op time) = .ok (w', resp)) {ob : Orderbook} (hob : w.store.orderbook = some ob) :
    ∃ dir F q' dust lp bank1, isActive w.store = true ∧ r.sender ≠ ch.contract ∧ r.tokenIn.amount < U128 ∧
      SwapOk (ch.env time) w.store b ob r.sender r.tokenIn r.outDenom r.minOut r.fee r.target dir F q' dust lp ∧
      resp = swapResponse r.sender r.tokenIn r.outDenom r.minOut (sumAmount F) q' ∧
      w'.store = swappedStore w.store dir.opposite F ob ∧
      w.bank.send r.sender ch.contract r.tokenIn = .ok bank1 ∧ bank1.dispatch ch.contract resp.msgs = .ok w'.bank ∧
      FillsOk b F dir.opposite ∧ (∀ f ∈ F, f.tick ∈ tickRange) ∧
      (∀ t, taken w.store w'.store t dir.opposite = fillAt F t) ∧ (∀ t, taken w.store w'.store t dir = 0) := by
  obtain ⟨h1, h2, bank1, h3, h4, h5, h6⟩ := step_swap_ok.1 hs
  obtain ⟨dir, F, q', dust, lp, g1, g2, g3⟩ := dispatchSwap_eq_ok h.rel hob h1.1 h5
  have hF := g1.run.fillsOk h.rel hob
  refine ⟨dir, F, q', dust, lp, bank1, h4, h2, h1.1, g1, g2, g3, h3, h6, hF, ?_, ?_, ?_⟩
  · intro f hf
    exact mem_tickRange.2 (sweepTicks_range h.rel _ (g1.run.sweep.sublist.subset (List.mem_map_of_mem hf)))
  · intro t
    unfold taken
    rw [g3, taken_observed h.rel hF]
    simp [takenBy]
  · intro t
    unfold taken
    rw [g3, taken_observed h.rel hF]
    unfold takenBy
    rw [if_neg]
    cases dir <;> simp [Dir.opposite]

theorem total_taken {F : List Fill} {side : Dir} {b : Book} (hF : FillsOk b F side) (hr : ∀ f ∈ F, f.tick ∈ tickRange) {s s' : Store}
    (ht : ∀ t, taken s s' t side = fillAt F t) : overTicks (fun t => taken s s' t side) = sumAmount F := by
  rw [overTicks_eq]
  simp only [ht]
  rw [total_fillAt (g := fun _ a => a) hF.nodup hr (fun _ => rfl)]
  rfl

theorem valUp_zero (side : Dir) (p : Nat) : valUp side 0 p = 0 := by
  have : (0 + (D - 1)) / D = 0 := Nat.div_eq_of_lt (by have := D_pos; omega)
  cases side <;> simp only [valUp, Nat.zero_mul, Nat.zero_div, this]

theorem total_charge {F : List Fill} {side : Dir} {b : Book} (hF : FillsOk b F side) (hr : ∀ f ∈ F, f.tick ∈ tickRange) {s s' : Store}
    (ht : ∀ t, taken s s' t side = fillAt F t) (hc : ∀ f ∈ F, f.charge = valUp side f.amount (priceNat f.tick)) :
    overTicks (fun t => charge side (taken s s' t side) t) = sumCharge F := by
  rw [overTicks_eq]
  have e : total (fun t => charge side (taken s s' t side) t) = total (fun t => valUp side (fillAt F t) (priceNat t)) := by
    refine total_congr fun t htr => ?_
    obtain ⟨h0, h1⟩ := mem_tickRange.1 htr
    rw [charge_eq h0 h1, ht]
  rw [e, total_fillAt (g := fun t a => valUp side a (priceNat t)) hF.nodup hr (fun _ => valUp_zero _ _)]
  unfold sumCharge
  congr 1
  exact List.map_congr_left fun f hf => (hc f hf).symm

theorem exchanged_of {b b1 b' : Bank} {contract sender : Addr} {c : Coin} {out : Denom} {x q' : Nat} (hne : sender ≠ contract)
    (hd : c.denom ≠ out) (h1 : b.send sender contract c = .ok b1) (h2 : b1.dispatch contract (swapMsgs sender c out x q') = .ok b') :
    Exchanged b b' contract sender c.denom c.amount q' out x ∧ x ≠ 0 := by
  have hs := Bank.dispatch_settled h2
  have hx : x ≠ 0 := by
    unfold swapMsgs at h2
    rw [Bank.dispatch.eq_def] at h2
    simp only at h2
    split at h2
    · rename_i h3; exact (Bank.send_eq_ok.1 h3).1
    · simp at h2
  obtain ⟨-, g2, rfl⟩ := Bank.send_eq_ok.1 h1
  have hsp : ∀ d, spent d (swapMsgs sender c out x q') = (if out = d then x else 0) + (if c.denom = d then q' else 0) := by
    intro d
    unfold swapMsgs spent
    split <;> simp_all
  have hrc : ∀ a d, received a d (swapMsgs sender c out x q') = (if sender = a ∧ out = d then x else 0) + (if sender = a ∧ c.denom = d then q' else 0) := by
    intro a d
    unfold swapMsgs received
    split <;> simp_all
  have hne' : contract ≠ sender := Ne.symm hne
  have hd' : out ≠ c.denom := Ne.symm hd
  refine ⟨⟨?_, ?_, ?_, ?_, ?_⟩, hx⟩
  · have := hs sender c.denom
    rw [hsp, hrc] at this
    simp only [hne, hd', if_true, if_false, and_true, false_and, true_and, and_false, and_self] at this
    omega
  · have := hs contract c.denom
    rw [hsp, hrc] at this
    simp only [hne, hne', hd', if_true, if_false, and_true, false_and, true_and, and_false, and_self] at this
    omega
  · have := hs sender out
    rw [hsp, hrc] at this
    simp only [hne, hd, hd', if_true, if_false, and_true, false_and, true_and, and_false, and_self] at this
    omega
  · have := hs contract out
    rw [hsp, hrc] at this
    simp only [hne, hne', hd, hd', if_true, if_false, and_true, false_and, true_and, and_false, and_self] at this
    omega
  · intro a d hor
    have := hs a d
    rw [hsp, hrc] at this
    rcases hor with ⟨h3, h4⟩ | ⟨h3, h4⟩
    · have h5 : sender ≠ a := Ne.symm h3
      simp only [h3, h4, h5, if_true, if_false, and_true, false_and, true_and, and_false, and_self] at this
      omega
    · have h5 := Ne.symm h3
      have h6 := Ne.symm h4
      simp only [h3, h4, h5, h6, if_true, if_false, and_true, false_and, true_and, and_false, and_self] at this
      split at this <;> omega

theorem SwapOk.pair {env : Env} {s : Store} {b : Book} {ob : Orderbook} {r : SwapReq} {dir : Dir} {F : List Fill} {q' dust lp : Nat}
    (h : SwapOk env s b ob r.sender r.tokenIn r.outDenom r.minOut r.fee r.target dir F q' dust lp) :
    r.pair ob.quoteDenom ob.baseDenom dir.opposite := by
  refine ⟨h.denoms.1.trans ?_, h.denoms.2.trans ?_⟩ <;> cases dir <;> rfl

theorem pair_unique {r : SwapReq} {quote base : Denom} (hne : quote ≠ base) {side side' : Dir} (h : r.pair quote base side)
    (h' : r.pair quote base side') : side' = side := by
  obtain ⟨h1, h2⟩ := h
  obtain ⟨h3, h4⟩ := h'
  cases side <;> cases side' <;> simp only [denomIn, denomOut] at h1 h2 h3 h4
  · rfl
  · exact absurd (h3.symm.trans h1) hne
  · exact absurd (h1.symm.trans h3) hne
  · rfl

/-- The swap leaves no trade undone: where liquidity remains, the unused input buys nothing. -/
theorem Sweep.exhausts {dir : Dir} {L : Int → Nat} {ts : List Int} {q lp : Nat} {F : List Fill} {q' dust lp' : Nat}
    (h : Sweep dir L ts q lp F q' dust lp') (hr : ∀ t ∈ ts, MIN_TICK ≤ t ∧ t ≤ MAX_TICK)
    (hs : ts.Pairwise (WorseThan dir)) :
    ∀ t ∈ ts, L t ≠ 0 → (∃ g ∈ F, g.tick = t ∧ g.amount = L t) ∨ valDown dir (q' + dust) (priceNat t) = 0 := by
  induction h with
  | nil => simp
  | @skip t _ q _ _ _ _ _ h1 hsw ih =>
    rw [List.pairwise_cons] at hs
    intro t' ht' hl
    rcases List.mem_cons.1 ht' with rfl | ht'
    · exact absurd h1 hl
    · exact ih (fun t ht => hr t (by simp [ht])) hs.2 t' ht' hl
  | @dust t ts q lp h1 h2 =>
    rw [List.pairwise_cons] at hs
    intro t' ht' hl
    right
    rw [Nat.zero_add]
    rcases List.mem_cons.1 ht' with rfl | ht'
    · exact h2
    · exact worseThan_price (q := 0) (hs.1 t' ht') (hr t (by simp)) (hr t' (by simp [ht'])) h2
  | @fill t ts q _ F q' dust _ h1 h2 h3 h4 hsw ih =>
    rw [List.pairwise_cons] at hs
    have hr' : ∀ t ∈ ts, MIN_TICK ≤ t ∧ t ≤ MAX_TICK := fun t ht => hr t (by simp [ht])
    have hrt := hr t (by simp)
    intro t' ht' hl
    rcases List.mem_cons.1 ht' with rfl | ht'
    · by_cases hm : min (valDown dir q (priceNat t')) (L t') = L t'
      · left; exact ⟨_, List.mem_cons_self .., rfl, hm⟩
      · right
        have hmin : min (valDown dir q (priceNat t')) (L t') = valDown dir q (priceNat t') := by omega
        have hz := partial_done (dir := dir) (q := q) hrt.1 hrt.2
        have hin := hsw.input hr'
        rw [hmin] at hin
        refine Nat.eq_zero_of_le_zero (le_trans (valDown_mono dir _ ?_) (le_of_eq hz))
        omega
    · rcases ih hr' hs.2 t' ht' hl with ⟨g, hg, hg'⟩ | hz
      · left; exact ⟨g, List.mem_cons_of_mem _ hg, hg'⟩
      · right; exact hz

/-- If the leftover is worthless at the price used last, it is so at the last filled tick. -/
theorem Sweep.last {dir : Dir} {L : Int → Nat} {ts : List Int} {q lp : Nat} {F : List Fill} {q' dust lp' : Nat}
    (h : Sweep dir L ts q lp F q' dust lp') (hs : ts.Pairwise (WorseThan dir)) (hz : valDown dir q' lp' = 0) :
    (F = [] → q' = 0 ∨ valDown dir q' lp = 0) ∧
    (F ≠ [] → ∃ f ∈ F, valDown dir q' (priceNat f.tick) = 0 ∧ ∀ g ∈ F, g.tick = f.tick ∨ WorseThan dir g.tick f.tick) := by
  induction h with
  | nil => exact ⟨fun _ => Or.inr hz, by simp⟩
  | skip h1 hsw ih => exact ih (List.pairwise_cons.1 hs).2 hz
  | dust => exact ⟨fun _ => Or.inl rfl, by simp⟩
  | @fill t ts q _ F q' dust _ h1 h2 h3 h4 hsw ih =>
    rw [List.pairwise_cons] at hs
    obtain ⟨ih1, ih2⟩ := ih hs.2 hz
    refine ⟨by simp, fun _ => ?_⟩
    by_cases hF : F = []
    · refine ⟨_, List.mem_cons_self .., ?_, ?_⟩
      · rcases ih1 hF with rfl | h
        · exact valDown_zero _ _
        · exact h
      · subst hF; simp
    · obtain ⟨f, hf, hv, hg⟩ := ih2 hF
      refine ⟨f, List.mem_cons_of_mem _ hf, hv, fun g hg' => ?_⟩
      rcases List.mem_cons.1 hg' with rfl | hg'
      · right; exact hs.1 _ (hsw.sublist.subset (List.mem_map_of_mem hf))
      · exact hg g hg'

theorem swapped_liq_at {s : Store} {b : Book} (h : Rel s b) {F : List Fill} {d : Dir} (hF : FillsOk b F d) (ob : Orderbook) (t : Int) (d' : Dir) :
    tickLiquidity (swappedStore s d F ob) t d' + takenBy F d t d' = tickLiquidity s t d' := by
  have e : ∀ s, tickLiquidity s t d' = toUintFloor (tv s t d').tal := fun _ => rfl
  have h1 := h.tal_eq t d'
  have h2 := hF.taken_le t d'
  rw [e, e, swapped_tv_taken hF.nodup]
  simp only
  rw [h1, ← Nat.mul_sub, floor_mul_D, floor_mul_D]
  unfold leftAt
  omega

theorem floor_value_zero {dir : Dir} {a : Nat} {t : Int} (h0 : MIN_TICK ≤ t) (h1 : t ≤ MAX_TICK) (hz : valDown dir a (priceNat t) = 0) :
    value dir a t < 1 := by
  rw [valDown_spec h0 h1, Nat.floor_eq_zero] at hz
  exact hz

/-! ### Quotes -/

theorem internal_owner {s : Store} {q : Nat} {dir : Dir} {a a' : Addr} {bound : Int} :
    runMarketOrderInternal s ⟨q, dir, a⟩ bound = runMarketOrderInternal s ⟨q, dir, a'⟩ bound := rfl

theorem quote_eq_ok {s : Store} {ob : Orderbook} (hob : s.orderbook = some ob) {c : Coin} {out : Denom} {fee : Nat} {x : Coin}
    (h : calcOutAmountGivenIn s c out fee = .ok x) :
    fee = 0 ∧ ∃ dir post, ob.directionFromPair c.denom out = .ok dir ∧
      runMarketOrderInternal s ⟨c.amount, dir, "querier"⟩ (defaultBound dir) = .ok post ∧ x = post.output ∧ x.amount < U128 := by
  unfold calcOutAmountGivenIn at h
  rw [Except.bind_eq_ok'] at h
  obtain ⟨u, h1, h⟩ := h
  unfold ensureSwapFee EXPECTED_SWAP_FEE at h1
  split at h1
  · simp only [hob] at h
    rw [Except.bind_eq_ok'] at h
    obtain ⟨dir, h2, h⟩ := h
    rw [Except.bind_eq_ok'] at h
    obtain ⟨post, h3, h⟩ := h
    rw [coin256ToCoin_eq] at h
    split at h
    · rename_i hlt
      obtain rfl := Except.ok.inj h
      exact ⟨‹_›, dir, post, h2, h3, rfl, hlt⟩
    · simp at h
  · simp at h1

theorem quote_input_pos {s : Store} {c : Coin} {out : Denom} {fee : Nat} {x : Coin} (h : calcOutAmountGivenIn s c out fee = .ok x) :
    c.amount ≠ 0 := by
  intro hc
  cases hob : s.orderbook with
  | none =>
    unfold calcOutAmountGivenIn at h
    rw [Except.bind_eq_ok'] at h
    obtain ⟨u, h1, h⟩ := h
    simp [hob] at h
  | some ob =>
    obtain ⟨-, dir, post, -, h1, -⟩ := quote_eq_ok hob h
    unfold runMarketOrderInternal at h1
    simp [hc] at h1

theorem quote_of_swap {env : Env} {s : Store} {b : Book} (h : Rel s b) {ob : Orderbook} (hob : s.orderbook = some ob)
    {sender : Addr} {c : Coin} {out : Denom} {m fee : Nat} (hq : c.amount < U128) {resp : Response} {s' : Store}
    (hok : dispatchSwapExactAmountIn env sender c out m fee none s = .ok resp s') :
    ∃ x, calcOutAmountGivenIn s c out fee = (if x < U128 then .ok ⟨out, x⟩ else .error .panic) ∧ resp.data = some x := by
  have hok0 := hok
  unfold dispatchSwapExactAmountIn at hok
  rw [EM.bind_eq_ok] at hok
  obtain ⟨u, s1, h1, hok⟩ := hok
  rw [EM.lift_eq_ok] at h1
  obtain ⟨h1, rfl⟩ := h1
  rw [EM.bind_eq_ok] at hok
  obtain ⟨u2, s2, h2, hok⟩ := hok
  rw [EM.ensure_eq_ok] at h2
  obtain ⟨h2, rfl⟩ := h2
  rw [EM.bind_ok_of (loadOrderbook_some hob)] at hok
  rw [EM.bind_eq_ok] at hok
  obtain ⟨dir, s3, h3, hok⟩ := hok
  rw [EM.lift_eq_ok] at h3
  obtain ⟨h3, rfl⟩ := h3
  rw [EM.bind_eq_ok] at hok
  obtain ⟨u4, s4, h4, hok⟩ := hok
  rw [EM.ensure_eq_ok] at h4
  obtain ⟨h4, rfl⟩ := h4
  rw [EM.bind_eq_ok] at hok
  obtain ⟨⟨o, q'⟩, s5, h5, hok⟩ := hok
  simp only at hok
  rw [EM.bind_eq_ok] at hok
  obtain ⟨u6, s6, h6, hok⟩ := hok
  rw [EM.pure_eq_ok] at hok
  have h5' := h5
  unfold runMarketOrder at h5
  simp only [EM.get_bind] at h5
  rw [EM.bind_eq_ok] at h5
  obtain ⟨post, s7, h7, -⟩ := h5
  rw [EM.lift_eq_ok] at h7
  have h8 : runMarketOrderInternal s4 ⟨c.amount, dir, "querier"⟩ (defaultBound dir) = .ok post := by
    rw [internal_owner (a' := sender)]; exact h7.1
  obtain ⟨F, q'', dust, lp, -, ho, hrun⟩ := runMarketOrder_of_internal h hob (by exact hq) h7.1
  rw [Option.getD_none] at h5'
  rw [Option.getD_none] at hrun
  rw [h5'] at hrun
  simp only [Res.ok.injEq, Prod.mk.injEq] at hrun
  have hne := filledBook_rel h hob
  have hdd := (directionFromPair_eq_ok hne).1 h3
  refine ⟨sumAmount F, ?_, ?_⟩
  · unfold calcOutAmountGivenIn
    rw [h1]
    simp only [Except.ok_bind', hob, h3, h8]
    rw [ho]
    rw [coin256ToCoin_eq]
    simp only
    rw [hdd.2]
  · rw [hok.1, hrun.1.1]

theorem swap_inflow {r : SwapReq} {time : Nat} (d : Denom) :
    coinSum d (r.op time).inflow = if r.tokenIn.denom = d then r.tokenIn.amount else 0 := by
  obtain ⟨a, c, o, m, f, t⟩ := r
  cases t <;> simp [SwapReq.op, Op.inflow, SudoMsg.deposit]

theorem swap_of_quote {ch : Chain} {time : Nat} {s : Store} {b : Book} (h : Rel s b) {ob : Orderbook} (hob : s.orderbook = some ob)
    (ha : isActive s = true) {r : SwapReq} (htg : r.target = none) (hv : ch.addrValid r.sender = true) (hq : r.tokenIn.amount < U128) {x : Nat}
    (hx : calcOutAmountGivenIn s r.tokenIn r.outDenom r.fee = .ok ⟨r.outDenom, x⟩) (hm : r.minOut ≤ x) :
    ∃ resp s', dispatchSwapExactAmountIn (ch.env time) r.sender r.tokenIn r.outDenom r.minOut r.fee r.target s = .ok resp s' ∧
      ∃ b', StoreStep ch (r.op time) s b resp s' b' ∧ (x ≠ 0 → ∀ m ∈ resp.msgs, m.coin.amount ≠ 0) := by
  obtain ⟨hfee, dir, post, h1, h2, h3, -⟩ := quote_eq_ok hob hx
  have hne := filledBook_rel h hob
  have hdd := (directionFromPair_eq_ok hne).1 h1
  rw [internal_owner (a' := r.sender)] at h2
  obtain ⟨F, q', dust, lp, hr, ho, hrun⟩ := runMarketOrder_of_internal h hob (order := ⟨r.tokenIn.amount, dir, r.sender⟩) hq h2
  rw [ho] at h3
  simp only [Coin.mk.injEq] at h3
  obtain ⟨-, rfl⟩ := h3
  have hdn : r.tokenIn.denom ≠ r.outDenom := by
    rw [hdd.1, hdd.2]
    cases dir <;> simp only [Orderbook.expectedDenom, Orderbook.oppositeDenom]
    · exact hne
    · exact Ne.symm hne
  have hSO : SwapOk (ch.env time) s b ob r.sender r.tokenIn r.outDenom r.minOut r.fee r.target dir F q' dust lp :=
    ⟨hfee, hdd, hv, by rw [htg]; exact hr, hm⟩
  refine ⟨swapResponse r.sender r.tokenIn r.outDenom r.minOut (sumAmount F) q', swappedStore s dir.opposite F ob, ?_,
    filledBook b F dir.opposite, ?_, ?_⟩
  · unfold dispatchSwapExactAmountIn
    have e1 : ensureSwapFee r.fee = .ok () := by unfold ensureSwapFee EXPECTED_SWAP_FEE; rw [if_pos hfee]
    rw [e1, EM.lift_ok_bind, decide_eq_true (p := r.tokenIn.denom ≠ r.outDenom) hdn, EM.ensure_true_bind,
      EM.bind_ok_of (loadOrderbook_some hob), h1, EM.lift_ok_bind]
    have e2 : (ch.env time).addrValid r.sender = true := hv
    rw [e2, EM.ensure_true_bind]
    simp only [htg, Option.getD_none]
    rw [EM.bind_ok_of hrun]
    simp only
    have e3 : validateOutputAmount r.tokenIn.amount r.minOut ⟨r.tokenIn.denom, r.tokenIn.amount⟩ ⟨ob.oppositeDenom dir, sumAmount F⟩ = .ok () := by
      unfold validateOutputAmount
      rw [if_neg (by simp), if_neg (by simpa using hm), if_neg]
      simp only [ne_eq, Decidable.not_not]
      rw [← hdd.2]
      exact Ne.symm hdn
    rw [e3, EM.lift_ok_bind, EM.pure_apply]
    unfold swapResponse swapMsgs
    rw [hdd.2]
  · obtain ⟨msg, g1, g2, -⟩ := swapReq_op_eq r time
    rw [g1]
    exact .swap ha hob g2 hq hSO
  · intro hx0 m hm'
    simp only [swapResponse, swapMsgs, List.mem_cons] at hm'
    rcases hm' with rfl | hm'
    · exact hx0
    · split at hm'
      · simp at hm'
      · simp only [List.mem_cons, List.not_mem_nil, or_false] at hm'
        subst hm'; assumption

theorem floor_sub {x a o : Nat} (hx : x = D * o) (h : a * D ≤ x) : toUintFloor (x - a * D) + a = toUintFloor x := by
  subst hx
  have hD := D_pos
  unfold toUintFloor
  generalize D = D at *
  have : a ≤ o := by
    rw [Nat.mul_comm] at h
    exact Nat.le_of_mul_le_mul_left h hD
  rw [Nat.mul_comm a, ← Nat.mul_sub, Nat.mul_div_cancel_left _ hD, Nat.mul_div_cancel_left _ hD]
  omega

theorem swapped_dirLiq {s : Store} {b : Book} (h : Rel s b) {F : List Fill} {d : Dir} (hF : FillsOk b F d) (ob : Orderbook) :
    dirLiquidity (swappedStore s d F ob) d + sumAmount F = dirLiquidity s d := by
  have e := swapped_liq (s := s) (d := d) (d' := d) (F := F) (ob := ob)
  rw [if_pos rfl] at e
  unfold dirLiquidity
  rw [e]
  exact floor_sub (h.liq_open d) (hF.amount_le h)

theorem swapMsgs_pos {sender : Addr} {c : Coin} {out : Denom} {m x q' : Nat} (hx : x ≠ 0) :
    ∀ y ∈ (swapResponse sender c out m x q').msgs, y.coin.amount ≠ 0 := by
  intro y hm'
  simp only [swapResponse, swapMsgs, List.mem_cons] at hm'
  rcases hm' with rfl | hm'
  · exact hx
  · split at hm'
    · simp at hm'
    · simp only [List.mem_cons, List.not_mem_nil, or_false] at hm'
      subst hm'; assumption

/-- The handler succeeds when its conditions are met. -/
theorem dispatchSwap_of {env : Env} {s : Store} {b : Book} (h : Rel s b) {ob : Orderbook} (hob : s.orderbook = some ob) {r : SwapReq} {dir : Dir}
    {F : List Fill} {q' dust lp : Nat} (hSO : SwapOk env s b ob r.sender r.tokenIn r.outDenom r.minOut r.fee r.target dir F q' dust lp)
    (hrun : runMarketOrder ⟨r.tokenIn.amount, dir, r.sender⟩ (r.target.getD (defaultBound dir)) s =
      .ok (⟨ob.oppositeDenom dir, sumAmount F⟩, q') (swappedStore s dir.opposite F ob)) :
    dispatchSwapExactAmountIn env r.sender r.tokenIn r.outDenom r.minOut r.fee r.target s =
      .ok (swapResponse r.sender r.tokenIn r.outDenom r.minOut (sumAmount F) q') (swappedStore s dir.opposite F ob) := by
  have hne := filledBook_rel h hob
  have hdd := hSO.denoms
  have h1 := (directionFromPair_eq_ok hne).2 hdd
  have hdn : r.tokenIn.denom ≠ r.outDenom := by
    rw [hdd.1, hdd.2]
    cases dir <;> simp only [Orderbook.expectedDenom, Orderbook.oppositeDenom]
    · exact hne
    · exact Ne.symm hne
  unfold dispatchSwapExactAmountIn
  have e1 : ensureSwapFee r.fee = .ok () := by unfold ensureSwapFee EXPECTED_SWAP_FEE; rw [if_pos hSO.fee]
  rw [e1, EM.lift_ok_bind, decide_eq_true (p := r.tokenIn.denom ≠ r.outDenom) hdn, EM.ensure_true_bind,
    EM.bind_ok_of (loadOrderbook_some hob), h1, EM.lift_ok_bind]
  rw [hSO.sender, EM.ensure_true_bind]
  simp only
  rw [EM.bind_ok_of hrun]
  simp only
  have e3 : validateOutputAmount r.tokenIn.amount r.minOut ⟨r.tokenIn.denom, r.tokenIn.amount⟩ ⟨ob.oppositeDenom dir, sumAmount F⟩ = .ok () := by
    unfold validateOutputAmount
    rw [if_neg (by simp), if_neg (by simpa using hSO.minOut), if_neg]
    simp only [ne_eq, Decidable.not_not]
    rw [← hdd.2]
    exact Ne.symm hdn
  rw [e3, EM.lift_ok_bind, EM.pure_apply]
  unfold swapResponse swapMsgs
  rw [hdd.2]

end OB
