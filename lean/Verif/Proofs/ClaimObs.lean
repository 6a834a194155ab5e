import Verif.Proofs.Observe
/- Claims: reference split, independence of the caller, batches, totals over histories. -/
namespace OB
open Spec

/-! ### The split -/

theorem claimMsgs_eq_split (sender owner rc : Addr) (denom : Denom) (cb : Option Nat) (mf raw : Nat) :
    claimMsgs sender owner rc denom cb mf raw = split sender owner rc denom cb mf raw := by
  have e1 : bountyOf cb raw = raw * cb.getD 0 / 10 ^ 18 := by
    unfold bountyOf D; cases cb <;> simp
  have e2 : ∀ bounty, feeOf mf raw (raw - bounty) = if raw ≤ bounty then 0 else raw * mf / 10 ^ 18 := by
    intro bounty; unfold feeOf D; simp only [Nat.sub_eq_zero_iff_le]
  unfold claimMsgs split
  simp only [e2, e1, REPLY_ID_CLAIM, REPLY_ID_CLAIM_BOUNTY, REPLY_ID_MAKER_FEE]
  generalize raw * cb.getD 0 / 10 ^ 18 = bounty
  generalize (if raw ≤ bounty then 0 else raw * mf / 10 ^ 18) = fee
  generalize raw - bounty - fee = a
  by_cases h1 : a = 0 <;> by_cases h2 : bounty = 0 <;> by_cases h3 : fee = 0 <;> simp [List.filter_cons, h1, h2, h3]

theorem ownerAmount_eq (cb : Option Nat) (mf raw : Nat) :
    ownerAmount cb mf raw = raw - raw * cb.getD 0 / 10 ^ 18 - (if raw ≤ raw * cb.getD 0 / 10 ^ 18 then 0 else raw * mf / 10 ^ 18) := by
  unfold ownerAmount feeOf bountyOf D
  cases cb <;> simp [Nat.sub_eq_zero_iff_le]

theorem split_facts {caller owner rc : Addr} {denom : Denom} {r : Option Nat} {f v : Nat} (hr : ∀ x, r = some x → x ≤ 10 ^ 16)
    (hf : f ≤ 5 * 10 ^ 16) :
    sentAll (split caller owner rc denom r f v) = v ∧
    sent 3 (split caller owner rc denom r f v) * 100 ≤ v ∧
    sent 4 (split caller owner rc denom r f v) * 20 ≤ v ∧
    94 * v ≤ 100 * sent 2 (split caller owner rc denom r f v) ∧
    sent 2 (split caller owner rc denom r f v) = v - v * r.getD 0 / 10 ^ 18 - (if v ≤ v * r.getD 0 / 10 ^ 18 then 0 else v * f / 10 ^ 18) := by
  have hb : v * r.getD 0 / 10 ^ 18 * 100 ≤ v := by
    have : r.getD 0 ≤ 10 ^ 16 := by cases r with
      | none => simp
      | some x => exact hr x rfl
    have h1 : v * r.getD 0 ≤ v * 10 ^ 16 := Nat.mul_le_mul_left _ this
    omega
  have hfe : (if v ≤ v * r.getD 0 / 10 ^ 18 then 0 else v * f / 10 ^ 18) * 20 ≤ v := by
    split
    · omega
    · have h1 : v * f ≤ v * (5 * 10 ^ 16) := Nat.mul_le_mul_left _ hf
      omega
  unfold split
  simp only
  generalize v * r.getD 0 / 10 ^ 18 = bounty at *
  generalize (if v ≤ bounty then 0 else v * f / 10 ^ 18) = fee at *
  obtain ⟨a, ha⟩ : ∃ a, a = v - bounty - fee := ⟨_, rfl⟩
  simp only [← ha]
  by_cases h1 : a = 0 <;> by_cases h2 : bounty = 0 <;> by_cases h3 : fee = 0 <;>
    simp [List.filter_cons, h1, h2, h3, sent, sentAll] <;> omega

/-- What a successful claim transaction is. -/
theorem Traced.claim_inv {ch : Chain} {n : Nat} {w : World} {b : Book} (h : Traced ch n w b) {sender : Addr} {funds : List Coin} {time : Nat}
    {tick : Int} {id : Nat} {w' : World} {resp : Response} (hs : OB.step ch w (.execute sender funds time (.claimLimit tick id)) = .ok (w', resp)) :
    ∃ dir p x q ob rc s1, b tick dir = p ++ x :: q ∧ x.id = id ∧ x.Live ∧ x.claimed < x.filled ∧ funds = [] ∧ w.store.orderbook = some ob ∧
      w.store.makerFeeRecipient = some rc ∧ isActive w.store = true ∧ Synced w.store s1 b tick ∧
      w'.store = claimedStore s1 tick (orderOf tick dir (sumBy Entry.placed p) { x with claimed := x.filled }) ∧
      resp = claimResp sender tick dir x ob rc (getMakerFee w.store) ∧
      w.bank.dispatch ch.contract resp.msgs = .ok w'.bank ∧
      b.observe (.execute sender funds time (.claimLimit tick id)) w.store w'.store resp =
        b.set tick dir (p ++ { x with claimed := x.filled } :: q) := by
  obtain ⟨-, -, bank1, hsend, -, hdisp⟩ := step_execute_ok.1 hs
  have hst := h.step hs
  generalize hbo : b.observe _ _ _ _ = b' at hst
  generalize hs' : w'.store = s' at hst
  cases hst with
  | config h1 => simp [Op.isConfig] at h1
  | @claim _ _ _ _ _ _ ob r _ _ h1 h2 h3 h4 =>
    obtain ⟨g1, g2, g3, g4, g5, g6, g7⟩ := h4
    rename_i s1 dir p q x ob' rc
    obtain rfl := orderbook_inj h2 g4
    have e : bank1 = w.bank := by
      have : (Except.ok w.bank : Except Err Bank) = .ok bank1 := hsend
      exact (Except.ok.inj this).symm
    rw [e] at hdisp
    subst g3
    exact ⟨dir, p, x, q, ob', rc, s1, g1, rfl, g2, g7, rfl, g4, g5, h1, g6, rfl, rfl, hdisp, rfl⟩

theorem payout_eq {dir : Dir} {a : Nat} {t : Int} (h : MIN_TICK ≤ t ∧ t ≤ MAX_TICK) : valDown dir a (priceNat t) = payout dir a t :=
  valDown_spec h.1 h.2

/-! ### Independence of the caller -/

def Res.Sim {σ α β : Type} (P : α → β → Prop) : Res σ α → Res σ β → Prop
  | .ok a s, .ok b s' => s = s' ∧ P a b
  | .err e s, .err e' s' => e = e' ∧ s = s'
  | _, _ => False

theorem sim_bind {σ α β γ : Type} {P : β → γ → Prop} {x : EM σ α} {f : α → EM σ β} {g : α → EM σ γ} {s : σ}
    (h : ∀ a s', (f a s').Sim P (g a s')) : ((x >>= f) s).Sim P ((x >>= g) s) := by
  show ((EM.bind x f) s).Sim P ((EM.bind x g) s)
  unfold EM.bind
  cases x s with
  | ok a s' => exact h a s'
  | err e s' => exact ⟨rfl, rfl⟩

theorem sim_fail {σ α β : Type} {P : α → β → Prop} {e : Err} {s : σ} : ((EM.fail e : EM σ α) s).Sim P ((EM.fail e : EM σ β) s) := ⟨rfl, rfl⟩

def rerouted (c : Addr) (ms : List SendMsg) : List SendMsg := ms.map fun m => if m.replyId = 3 then { m with «to» := c } else m

theorem claimOrder_sim (c1 c2 : Addr) (tick : Int) (id : Nat) (s : Store) :
    (claimOrder c1 tick id s).Sim (fun r r' => r' = (r.1, rerouted c2 r.2.1, r.2.2) ∧ ∀ m ∈ r.2.1, m.replyId = 3 → m.to = c1)
      (claimOrder c2 tick id s) := by
  unfold claimOrder
  refine sim_bind fun orderbook _ => ?_
  refine sim_bind fun s0 _ => ?_
  cases s0.ticks.get? tick with
  | none => exact sim_fail
  | some ts =>
    simp only
    cases s0.orders.get? (tick, id) with
    | none => exact sim_fail
    | some order =>
      simp only
      refine sim_bind fun _ _ => ?_
      refine sim_bind fun s1 _ => ?_
      cases s1.ticks.get? tick with
      | none => exact sim_fail
      | some ts1 =>
        simp only
        refine sim_bind fun _ _ => ?_
        refine sim_bind fun diff _ => ?_
        refine sim_bind fun qDec _ => ?_
        refine sim_bind fun amountFilled _ => ?_
        refine sim_bind fun quantity _ => ?_
        refine sim_bind fun etas _ => ?_
        split
        all_goals
          refine sim_bind fun _ _ => ?_
          refine sim_bind fun tickPrice _ => ?_
          refine sim_bind fun rawAmount _ => ?_
          refine sim_bind fun ba _ => ?_
          obtain ⟨bounty, amount⟩ := ba
          refine sim_bind fun s2 _ => ?_
          refine sim_bind fun fa _ => ?_
          obtain ⟨fee, amount⟩ := fa
          simp only
          split
          · refine ⟨rfl, ?_, ?_⟩
            · split <;> split <;> simp [rerouted, REPLY_ID_CLAIM, REPLY_ID_CLAIM_BOUNTY]
            · intro m hm
              rw [List.mem_append] at hm
              rcases hm with hm | hm <;> split at hm <;> simp only [List.not_mem_nil, List.mem_singleton] at hm <;> subst hm <;>
                simp [REPLY_ID_CLAIM]
          · cases s2.makerFeeRecipient with
            | none => exact sim_fail
            | some rc =>
              refine ⟨rfl, ?_, ?_⟩
              · simp only
                split <;> split <;> simp [rerouted, REPLY_ID_CLAIM, REPLY_ID_CLAIM_BOUNTY, REPLY_ID_MAKER_FEE]
              · intro m hm
                simp only [List.mem_append] at hm
                rcases hm with (hm | hm) | hm
                · split at hm <;> simp only [List.not_mem_nil, List.mem_singleton] at hm; subst hm; simp [REPLY_ID_CLAIM]
                · split at hm <;> simp only [List.not_mem_nil, List.mem_singleton] at hm; subst hm; simp
                · simp only [List.mem_singleton] at hm; subst hm; simp [REPLY_ID_MAKER_FEE]

theorem claimLimit_sim (env : Env) (c1 c2 : Addr) (tick : Int) (id : Nat) (s : Store) :
    (claimLimit env ⟨c1, []⟩ tick id s).Sim (fun r r' => r' = forCaller c2 r ∧ ∀ m ∈ r.msgs, m.replyId = 3 → m.to = c1)
      (claimLimit env ⟨c2, []⟩ tick id s) := by
  unfold claimLimit
  refine sim_bind fun _ s0 => ?_
  have h := claimOrder_sim c1 c2 tick id s0
  revert h
  cases h1 : claimOrder c1 tick id s0 with
  | err e s1 =>
    cases h2 : claimOrder c2 tick id s0 with
    | err e' s2 =>
      intro h
      rw [EM.bind_err_of (x := claimOrder _ tick id) h1, EM.bind_err_of (x := claimOrder _ tick id) h2]
      exact h
    | ok r' s2 => intro h; exact absurd h (by simp [Res.Sim])
  | ok r s1 =>
    cases h2 : claimOrder c2 tick id s0 with
    | err e' s2 => intro h; exact absurd h (by simp [Res.Sim])
    | ok r' s2 =>
      rintro ⟨rfl, rfl, hm⟩
      rw [EM.bind_ok_of (x := claimOrder _ tick id) h1, EM.bind_ok_of (x := claimOrder _ tick id) h2]
      obtain ⟨a, ms, o⟩ := r
      simp only
      refine sim_bind fun ob _ => ?_
      exact ⟨rfl, rfl, hm⟩

theorem dispatch_agree {c : Addr} {ms ms' : List SendMsg} {b1 b2 : Bank} (hm : List.Forall₂ (fun m m' => m.coin = m'.coin ∧ (m.to = c ↔ m'.to = c)) ms ms')
    (hb : ∀ d, b1 c d = b2 c d) {b1' : Bank} (h : b1.dispatch c ms = .ok b1') : ∃ b2', b2.dispatch c ms' = .ok b2' := by
  induction hm generalizing b1 b2 with
  | nil => exact ⟨b2, rfl⟩
  | @cons m m' ms ms' hmm _ ih =>
    obtain ⟨hcoin, hto⟩ := hmm
    unfold Bank.dispatch at h ⊢
    cases hs : b1.send c m.to m.coin with
    | error e => simp [hs] at h
    | ok b =>
      simp only [hs] at h
      obtain ⟨g1, g2, g3⟩ := Bank.send_eq_ok.1 hs
      obtain ⟨bb, hbb⟩ : ∃ bb, b2.send c m'.to m'.coin = .ok bb :=
        ⟨_, Bank.send_eq_ok.2 ⟨by rw [← hcoin]; exact g1, by rw [← hcoin, ← hb]; exact g2, rfl⟩⟩
      simp only [hbb]
      refine ih ?_ h
      intro d
      obtain ⟨-, -, k3⟩ := Bank.send_eq_ok.1 hbb
      rw [g3, k3, ← hcoin]
      have hto' : c = m.to ↔ c = m'.to := by rw [eq_comm, hto, eq_comm]
      simp only [hb, hto', true_and]

/-! ### Batches -/

theorem Bank.dispatch_append {c : Addr} {ms ms' : List SendMsg} {b b' : Bank} :
    b.dispatch c (ms ++ ms') = .ok b' ↔ ∃ b1, b.dispatch c ms = .ok b1 ∧ b1.dispatch c ms' = .ok b' := by
  induction ms generalizing b with
  | nil => simp [Bank.dispatch]
  | cons m ms ih =>
    rw [List.cons_append]
    cases hs : b.send c m.to m.coin with
    | error e =>
      have e1 : ∀ l, b.dispatch c (m :: l) = .error (.replyError m.replyId) := fun l => by
        rw [Bank.dispatch.eq_def]; simp only [hs]
      simp [e1]
    | ok b2 =>
      have e1 : ∀ l, b.dispatch c (m :: l) = b2.dispatch c l := fun l => by
        rw [Bank.dispatch.eq_def]; simp only [hs]
      rw [e1, e1]; exact ih

theorem Bank.dispatch_settled {c : Addr} {ms : List SendMsg} {b b' : Bank} (h : b.dispatch c ms = .ok b') : Settled b b' c ms := by
  induction ms generalizing b with
  | nil =>
    rw [Bank.dispatch_nil] at h
    obtain rfl := Except.ok.inj h
    intro a d; simp [spent, received]
  | cons m ms ih =>
    cases hs : b.send c m.to m.coin with
    | error e =>
      rw [Bank.dispatch.eq_def] at h; simp [hs] at h
    | ok b1 =>
      rw [Bank.dispatch.eq_def] at h
      simp only [hs] at h
      obtain ⟨g1, g2, g3⟩ := Bank.send_eq_ok.1 hs
      intro a d
      have := ih h a d
      subst g3
      unfold spent received at *
      simp only [List.map_cons, List.sum_cons] at this ⊢
      by_cases h3 : d = m.coin.denom
      · subst h3
        simp only [and_true] at this ⊢
        by_cases h1 : a = c
        · subst h1
          by_cases h2 : a = m.to
          · simp only [← h2, if_true] at this ⊢; omega
          · simp only [h2, Ne.symm h2, if_true, if_false] at this ⊢; omega
        · by_cases h2 : a = m.to
          · simp only [← h2, h1, if_true, if_false] at this ⊢; omega
          · simp only [h2, Ne.symm h2, h1, if_false] at this ⊢; omega
      · simp only [h3, Ne.symm h3, and_false, if_false, Nat.zero_add] at this ⊢; omega

theorem ClaimSame.mono {k l : Nat} {s s' : Store} {b b' : Book} (h : ClaimSame k s s' b b') (hk : k ≤ l) : ClaimSame l s s' b b' :=
  ⟨h.id, h.liq, h.placed, fun t => le_trans (h.cnt t) (by omega), h.cnt_mono⟩

theorem batchLoop_total {sender : Addr} {ob : Orderbook} {l : List (Int × Nat)} {s : Store} {b : Book} (hr : Rel s b)
    (hc : ∀ t, s.trees.cnt t + 2 * l.length < U64) : ∃ r s', batchLoop sender ob l s = .ok r s' := by
  induction l generalizing s b with
  | nil => exact ⟨_, _, rfl⟩
  | cons k l ih =>
    obtain ⟨tick, id⟩ := k
    unfold batchLoop
    have hlen : ((tick, id) :: l).length = l.length + 1 := rfl
    rcases claimOrder_cases hr sender tick id with ⟨h0, -⟩ | ⟨e, s1, h1, h2, h3, h4⟩ | ⟨⟨a, m, o⟩, s1, b1, h1, h2⟩
    · exfalso; apply h0
      have := hc tick
      rw [hlen] at this; omega
    · simp only [h1]
      obtain ⟨r, s', hrs⟩ := ih (h4.rel hr) (fun t => by have := hc t; have := h4.same.cnt t; rw [hlen] at *; omega)
      refine ⟨r, s', ?_⟩
      cases e <;> first | exact absurd rfl h2 | exact absurd rfl h3 | exact hrs
    · simp only [h1]
      obtain ⟨r, s', hrs⟩ := ih h2.rel (fun t => by have := hc t; have := h2.same.cnt t; rw [hlen] at *; omega)
      obtain ⟨ms, es⟩ := r
      exact ⟨_, s', EM.bind_eq_ok.2 ⟨_, _, hrs, EM.pure_eq_ok.2 ⟨rfl, rfl⟩⟩⟩

theorem ClaimRun.nonzero {sender : Addr} {ob : Orderbook} {l : List (Int × Nat)} {s s' : Store} {b b' : Book} {ms : List SendMsg}
    {es : List Event} (h : ClaimRun sender ob l s b ms es s' b') (hr : Rel s b) : ∀ m ∈ ms, m.coin.amount ≠ 0 := by
  induction h with
  | nil => simp
  | ok _ h _ ih =>
    intro m hm
    rcases List.mem_append.1 hm with hm | hm
    · obtain ⟨ob', hob', -⟩ := hr.ptr
      obtain ⟨_, _, _, _, -, -, -, -, -, -, g1, -⟩ := h.msgs_sum hr hob'
      exact (g1 m hm).1
    · exact ih h.rel m hm
  | skip _ h _ ih => exact ih (h.rel hr)

/-- Configuration that claims read. -/
structure SameConf (s s' : Store) : Prop where
  orderbook : s'.orderbook = s.orderbook
  fee : s'.makerFee = s.makerFee
  recipient : s'.makerFeeRecipient = s.makerFeeRecipient
  active : s'.isActive = s.isActive
  admin : s'.admin = s.admin
  adminOffer : s'.adminOffer = s.adminOffer
  moderator : s'.moderator = s.moderator
  moderatorOffer : s'.moderatorOffer = s.moderatorOffer
  orderId : s'.orderId = s.orderId
  dirLiq : s'.dirLiq = s.dirLiq

theorem SameConf.refl (s : Store) : SameConf s s := ⟨rfl, rfl, rfl, rfl, rfl, rfl, rfl, rfl, rfl, rfl⟩
theorem SameConf.trans {s s1 s2 : Store} (h : SameConf s s1) (g : SameConf s1 s2) : SameConf s s2 :=
  ⟨g.1.trans h.1, g.2.trans h.2, g.3.trans h.3, g.4.trans h.4, g.5.trans h.5, g.6.trans h.6, g.7.trans h.7, g.8.trans h.8, g.9.trans h.9, g.10.trans h.10⟩
theorem SameConf.symm {s s1 : Store} (h : SameConf s s1) : SameConf s1 s :=
  ⟨h.1.symm, h.2.symm, h.3.symm, h.4.symm, h.5.symm, h.6.symm, h.7.symm, h.8.symm, h.9.symm, h.10.symm⟩

theorem Synced.conf {s s' : Store} {b : Book} {tick : Int} (h : Synced s s' b tick) : SameConf s s' := by
  have e := h.store
  constructor <;> rw [e]

theorem claimedStore_conf (s : Store) (tick : Int) (o : LimitOrder) : SameConf s (claimedStore s tick o) := by
  unfold claimedStore; split <;> exact ⟨rfl, rfl, rfl, rfl, rfl, rfl, rfl, rfl, rfl, rfl⟩

theorem ClaimStep.conf {sender : Addr} {tick : Int} {id : Nat} {s s' : Store} {b b' : Book} {r : Nat × List SendMsg × LimitOrder}
    (h : ClaimStep sender tick id s b r s' b') : SameConf s s' := by
  obtain ⟨-, -, -, -, -, h6, -⟩ := h
  exact h6.conf.trans (claimedStore_conf _ _ _)

theorem ClaimFail.conf {s s' : Store} {b : Book} {tick : Int} {id : Nat} (h : ClaimFail s s' b tick id) : SameConf s s' := by
  rcases h.store with rfl | h
  · exact .refl _
  · exact h.conf

theorem ClaimRun.conf {sender : Addr} {ob : Orderbook} {l : List (Int × Nat)} {s s' : Store} {b b' : Book} {ms : List SendMsg}
    {es : List Event} (h : ClaimRun sender ob l s b ms es s' b') : SameConf s s' := by
  induction h with
  | nil => exact .refl _
  | ok _ h _ ih => exact h.conf.trans ih
  | skip _ h _ ih => exact h.conf.trans ih

theorem log_cons_ok {ch : Chain} {w w' : World} {op : Op} {ops : List Op} {resp : Response} (h : step ch w op = .ok (w', resp)) :
    log ch w (op :: ops) = resp.events ++ log ch w' ops ∧ run ch w (op :: ops) = run ch w' ops := by
  have e : apply ch w op = w' := by unfold apply; rw [h]
  refine ⟨?_, ?_⟩
  · rw [log, h]
  · unfold run; rw [List.foldl_cons, e]

theorem log_cons_err {ch : Chain} {w : World} {op : Op} {ops : List Op} (h : Rejected ch w op) :
    log ch w (op :: ops) = log ch w ops ∧ run ch w (op :: ops) = run ch w ops := by
  obtain ⟨⟨e, he⟩, ha⟩ := h
  refine ⟨?_, ?_⟩
  · rw [log, he]
  · unfold run; rw [List.foldl_cons, ha]

/-- A batch next to the single claims, from a world in the same state up to syncs. -/
theorem batch_singles {ch : Chain} {sender : Addr} {ob : Orderbook} {l : List (Int × Nat)} {s s' : Store} {b b' : Book} {ms : List SendMsg}
    {es : List Event} (hc : ClaimRun sender ob l s b ms es s' b') (time : Nat) (hsd : sender ≠ ch.contract) (hob : s.orderbook = some ob)
    (hact : isActive s = true)
    {n : Nat} {w : World} (h : Traced ch n w b) (hn : Room (2 * l.length + 4) w.store) (hconf : SameConf s w.store) {bank' : Bank}
    (hd : w.bank.dispatch ch.contract ms = .ok bank') :
    Traced ch (n + l.length) (run ch w (singles sender time l)) b' ∧ (run ch w (singles sender time l)).bank = bank' ∧
      log ch w (singles sender time l) = es ∧ SameConf s' (run ch w (singles sender time l)).store := by
  induction hc generalizing n w with
  | nil =>
    rw [Bank.dispatch_nil] at hd
    exact ⟨h, Except.ok.inj hd, rfl, hconf⟩
  | @ok tick id rest s b r s1 b1 ms es s' b' h1 h2 h3 ih =>
    have hlen : ((tick, id) :: rest).length = rest.length + 1 := rfl
    obtain ⟨bank1, hd1, hd2⟩ := Bank.dispatch_append.1 hd
    have hcf := h2.conf
    obtain ⟨g1, g2, g3, g4, g5, g6, g7⟩ := (show ClaimStep _ _ _ _ _ _ _ _ from h2)
    rename_i s2 dir p q x ob' rc
    subst g3
    obtain rfl := orderbook_inj hob g4
    have hx : x ∈ b tick dir := by rw [g1]; simp
    have hact' : isActive w.store = true := by unfold isActive; rw [hconf.active]; exact hact
    have hresp := h.claim_resp (hn.mono (by omega)) hsd hact' hx g2 g7 time (by rw [hconf.orderbook]; exact hob)
      (by rw [hconf.recipient]; exact g5)
    obtain ⟨w1, hw1⟩ := respOf_eq_some.1 hresp
    obtain ⟨e1, e2⟩ := log_cons_ok (ops := singles sender time rest) hw1
    have hfee : getMakerFee w.store = getMakerFee s := by unfold getMakerFee; rw [hconf.fee]
    have ht1 := Traced.ok h hw1
    obtain ⟨dir', p', x', q', ob2, rc2, s3, k1, k2, k3, k4, -, k5, k6, -, k7, k8, k9, k10, k11⟩ := h.claim_inv hw1
    obtain ⟨-, rfl, rfl⟩ := h.rel.same_entry k1 hx k2.symm
    obtain ⟨rfl, -, rfl⟩ := entry_unique (h.rel.ids.inc tick dir) g1 k1 rfl
    rw [k11] at ht1
    have hb1 : w1.bank = bank1 := by
      rw [k9] at k10
      have : (claimResp sender tick dir x ob2 rc2 (getMakerFee w.store)).msgs =
          claimMsgs sender x.owner rc (ob'.oppositeDenom dir) x.bounty (getMakerFee s) (valDown dir (x.filled - x.claimed) (priceNat tick)) := by
        obtain rfl : ob' = ob2 := by rw [hconf.orderbook, hob] at k5; exact Option.some.inj k5
        obtain rfl : rc = rc2 := by rw [hconf.recipient, g5] at k6; exact Option.some.inj k6
        unfold claimResp; rw [hfee]
      rw [this, hd1] at k10
      exact (Except.ok.inj k10).symm
    have hconf1 : SameConf (claimedStore s2 tick (orderOf tick dir (sumBy Entry.placed p') { x with claimed := x.filled })) w1.store :=
      hcf.symm.trans (hconf.trans (k7.conf.trans (k8 ▸ claimedStore_conf _ _ _)))
    have hroom1 : Room (2 * rest.length + 4) w1.store := by
      obtain ⟨c1, -, c3, -, -⟩ := claimedStore_same s3 tick (orderOf tick dir (sumBy Entry.placed p') { x with claimed := x.filled })
      rw [← k8] at c1 c3
      refine ⟨by rw [c1, k7.same.id]; exact hn.1, fun t => ?_⟩
      have a1 := k7.cnt_le t
      have a2 := hn.2 t
      rw [c3]
      rw [hlen] at a2
      omega
    obtain ⟨j1, j2, j3, j4⟩ := ih (by rw [(claimedStore_conf _ _ _).orderbook, g6.conf.orderbook]; exact hob)
      (by unfold isActive; rw [(claimedStore_conf _ _ _).active, g6.conf.active]; exact hact) ht1 hroom1 hconf1 (by rw [hb1]; exact hd2)
    have er : run ch w (singles sender time ((tick, x.id) :: rest)) = run ch w1 (singles sender time rest) := e2
    have el : log ch w (singles sender time ((tick, x.id) :: rest)) = _ := e1
    rw [er, el]
    refine ⟨by rw [hlen, show n + (rest.length + 1) = n + 1 + rest.length by omega]; exact j1, j2, ?_, j4⟩
    rw [j3]
    obtain rfl : ob' = ob2 := by rw [hconf.orderbook, hob] at k5; exact Option.some.inj k5
    unfold claimResp
    rw [hfee]
    simp only [List.singleton_append, List.cons.injEq, and_true]
    rfl
  | @skip tick id rest s b e s1 ms es s' b' h1 h2 h3 ih =>
    have hlen : ((tick, id) :: rest).length = rest.length + 1 := rfl
    have hcf := h2.conf
    have hrej : Rejected ch w (.execute sender [] time (.claimLimit tick id)) := by
      rw [rejected_iff_respOf]
      exact h.claim_resp_none (Or.inr (Or.inr fun d x hx hid hl => le_of_eq (h2.none d x hx hl hid)))
    obtain ⟨e1, e2⟩ := log_cons_err (ops := singles sender time rest) hrej
    obtain ⟨⟨e0, he0⟩, -⟩ := (show Rejected _ _ _ from hrej)
    obtain ⟨j1, j2, j3, j4⟩ := ih (by rw [hcf.orderbook]; exact hob) (by unfold isActive; rw [hcf.active]; exact hact)
      (Traced.failed h he0) (hn.mono (by rw [hlen]; omega)) (hcf.symm.trans hconf) hd
    have er : run ch w (singles sender time ((tick, id) :: rest)) = run ch w (singles sender time rest) := e2
    have el : log ch w (singles sender time ((tick, id) :: rest)) = _ := e1
    rw [er, el]
    exact ⟨by rw [hlen, show n + (rest.length + 1) = n + 1 + rest.length by omega]; exact j1, j2, j3, j4⟩

theorem fifo_zero {q : List Entry} (h : Fifo 0 q) : ∀ x ∈ q, x.filled = 0 := by
  induction q with
  | nil => simp
  | cons x q ih =>
    obtain ⟨h1, h2⟩ := h
    rw [Nat.zero_sub] at h2
    intro y hy
    rcases List.mem_cons.1 hy with rfl | hy
    · rw [h1]; simp
    · exact ih h2 y hy

theorem split_rates {caller owner rc : Addr} {denom : Denom} {r : Option Nat} {f v : Nat} :
    10 ^ 18 * sent 3 (split caller owner rc denom r f v) ≤ r.getD 0 * v ∧
    10 ^ 18 * sent 4 (split caller owner rc denom r f v) ≤ f * v ∧
    ∀ m ∈ split caller owner rc denom r f v, (m.replyId = 2 → m.to = owner) ∧ (m.replyId = 3 → m.to = caller) ∧ (m.replyId = 4 → m.to = rc) := by
  have hb : 10 ^ 18 * (v * r.getD 0 / 10 ^ 18) ≤ r.getD 0 * v := by
    rw [Nat.mul_comm (r.getD 0)]; exact Nat.mul_div_le _ _
  have hfe : 10 ^ 18 * (if v ≤ v * r.getD 0 / 10 ^ 18 then 0 else v * f / 10 ^ 18) ≤ f * v := by
    split
    · exact Nat.zero_le _
    · rw [Nat.mul_comm f]; exact Nat.mul_div_le _ _
  unfold split
  simp only
  generalize v * r.getD 0 / 10 ^ 18 = bounty at *
  generalize (if v ≤ bounty then 0 else v * f / 10 ^ 18) = fee at *
  generalize v - bounty - fee = a
  refine ⟨?_, ?_, ?_⟩
  · by_cases h1 : a = 0 <;> by_cases h2 : bounty = 0 <;> by_cases h3 : fee = 0 <;>
      simp [List.filter_cons, h1, h2, h3, sent] <;> exact hb
  · by_cases h1 : a = 0 <;> by_cases h2 : bounty = 0 <;> by_cases h3 : fee = 0 <;>
      simp [List.filter_cons, h1, h2, h3, sent] <;> exact hfe
  · intro m hm
    rw [List.mem_filter] at hm
    simp only [List.mem_cons, List.not_mem_nil, or_false] at hm
    obtain ⟨rfl | rfl | rfl, -⟩ := hm <;> simp

/-! ### Totals over histories -/

theorem claimedOut_append (id : Nat) (a b : List Event) : claimedOut id (a ++ b) = claimedOut id a + claimedOut id b := by
  unfold claimedOut; simp
theorem refunded_append (id : Nat) (a b : List Event) : refunded id (a ++ b) = refunded id a + refunded id b := by
  unfold refunded; simp

theorem claimTimes_append (id : Nat) (a b : List Event) : claimTimes id (a ++ b) = claimTimes id a + claimTimes id b := by
  unfold claimTimes; simp

/-- `k` claims of together `c` units at tick `t` have paid the owner `o`: at most the value, at least 94% of it less one unit a claim. -/
def Paid (d : Dir) (t : Int) (c k o : Nat) : Prop :=
  o ≤ valDown d c (priceNat t) ∧ ((c = 0 ∧ k = 0) ∨ 94 * (valDown d c (priceNat t) + 1) ≤ 100 * o + 94 * k)

/-- What has been refunded for the order. -/
def Entry.refund (x : Entry) : Nat := if x.cancelled then x.placed - x.claimed else 0

/-- The events agree with the book. -/
structure Booked (L : List Event) (b : Book) : Prop where
  places : ∀ owner tick id dir q d1 d2, Event.placeLimit owner tick id dir q d1 d2 ∈ L →
    ∃ x ∈ b tick dir, x.id = id ∧ x.placed = q ∧ x.owner = owner
  amounts : ∀ t d, ∀ x ∈ b t d, Paid d t x.claimed (claimTimes x.id L) (claimedOut x.id L) ∧ refunded x.id L = x.refund
  fresh : ∀ id, (∀ t d, ∀ x ∈ b t d, x.id ≠ id) → claimedOut id L = 0 ∧ refunded id L = 0 ∧ claimTimes id L = 0

theorem Booked.init : Booked [] Book.empty :=
  ⟨by simp, by simp [Book.empty], fun id _ => ⟨rfl, rfl, rfl⟩⟩

theorem Booked.step {L E : List Event} {b b' : Book} (h : Booked L b)
    (h1 : ∀ t d, ∀ x ∈ b t d, ∃ x' ∈ b' t d, x'.id = x.id ∧ x'.placed = x.placed ∧ x'.owner = x.owner)
    (h2 : ∀ t d, ∀ x' ∈ b' t d, ∃ x ∈ b t d, x'.id = x.id ∧
      (∀ k o, Paid d t x.claimed k o → Paid d t x'.claimed (k + claimTimes x.id E) (o + claimedOut x.id E)) ∧
      refunded x.id E + x.refund = x'.refund)
    (h3 : ∀ owner tick id dir q d1 d2, Event.placeLimit owner tick id dir q d1 d2 ∉ E)
    (h4 : ∀ id, (∀ t d, ∀ x ∈ b t d, x.id ≠ id) → claimedOut id E = 0 ∧ refunded id E = 0 ∧ claimTimes id E = 0) : Booked (L ++ E) b' := by
  refine ⟨?_, ?_, ?_⟩
  · intro owner tick id dir q d1 d2 he
    rcases List.mem_append.1 he with he | he
    · obtain ⟨x, hx, g1, g2, g3⟩ := h.places _ _ _ _ _ _ _ he
      obtain ⟨x', hx', k1, k2, k3⟩ := h1 _ _ x hx
      exact ⟨x', hx', k1.trans g1, k2.trans g2, k3.trans g3⟩
    · exact absurd he (h3 _ _ _ _ _ _ _)
  · intro t d x' hx'
    obtain ⟨x, hx, g1, g2, g3⟩ := h2 t d x' hx'
    obtain ⟨k1, k2⟩ := h.amounts t d x hx
    rw [g1, claimedOut_append, refunded_append, claimTimes_append]
    exact ⟨g2 _ _ k1, by omega⟩
  · intro id hid
    have hid' : ∀ t d, ∀ x ∈ b t d, x.id ≠ id := by
      intro t d x hx hc
      obtain ⟨x', hx', k1, -⟩ := h1 t d x hx
      exact hid t d x' hx' (k1.trans hc)
    obtain ⟨g1, g2, g3⟩ := h.fresh id hid'
    obtain ⟨k1, k2, k3⟩ := h4 id hid'
    rw [claimedOut_append, refunded_append, claimTimes_append]
    omega

/-- One entry of the book is replaced. -/
theorem Booked.set {L : List Event} {b : Book} (h : Booked L b) {s : Store} (hr : Rel s b) {tick : Int} {dir : Dir} {p q : List Entry} {x x' : Entry}
    (hsp : b tick dir = p ++ x :: q) (e1 : x'.id = x.id) (e2 : x'.placed = x.placed) (e3 : x'.owner = x.owner) {e : Event}
    (e4 : ∀ k o, Paid dir tick x.claimed k o → Paid dir tick x'.claimed (k + claimTimes x.id [e]) (o + claimedOut x.id [e]))
    (e5 : refunded x.id [e] + x.refund = x'.refund) (e6 : ∀ owner tick id dir q d1 d2, e ≠ Event.placeLimit owner tick id dir q d1 d2)
    (e7 : ∀ id, id ≠ x.id → claimedOut id [e] = 0 ∧ refunded id [e] = 0 ∧ claimTimes id [e] = 0) : Booked (L ++ [e]) (b.set tick dir (p ++ x' :: q)) := by
  have hx : x ∈ b tick dir := by rw [hsp]; simp
  refine h.step ?_ ?_ ?_ ?_
  · intro t d y hy
    by_cases he : t = tick ∧ d = dir
    · obtain ⟨rfl, rfl⟩ := he
      rw [Book.set_self]
      rw [hsp] at hy
      rcases List.mem_append.1 hy with hy | hy
      · exact ⟨y, by simp [hy], rfl, rfl, rfl⟩
      · rcases List.mem_cons.1 hy with rfl | hy
        · exact ⟨x', by simp, e1, e2, e3⟩
        · exact ⟨y, by simp [hy], rfl, rfl, rfl⟩
    · rw [Book.set_ne _ _ (by tauto)]; exact ⟨y, hy, rfl, rfl, rfl⟩
  · have hother : ∀ t d, ∀ y ∈ b t d, y ≠ x → y.id ≠ x.id := by
      intro t d y hy hne hid
      exact hne (hr.same_entry hsp hy hid).2.2
    have hnodup : x ∉ p ∧ x ∉ q := by
      have := hr.ids.inc tick dir
      rw [hsp, List.pairwise_append] at this
      obtain ⟨-, a2, a3⟩ := this
      rw [List.pairwise_cons] at a2
      exact ⟨fun hc => absurd (a3 x hc x (by simp)) (lt_irrefl _), fun hc => absurd (a2.1 x hc) (lt_irrefl _)⟩
    have hsame : ∀ t d, ∀ y ∈ b t d, y ≠ x → ∃ z ∈ b t d, y.id = z.id ∧
        (∀ k o, Paid d t z.claimed k o → Paid d t y.claimed (k + claimTimes z.id [e]) (o + claimedOut z.id [e])) ∧
        refunded z.id [e] + z.refund = y.refund := by
      intro t d y hy hne
      obtain ⟨k1, k2, k3⟩ := e7 y.id (hother t d y hy hne)
      exact ⟨y, hy, rfl, fun k o h => by rw [k1, k3]; exact h, by omega⟩
    intro t d y hy
    by_cases he : t = tick ∧ d = dir
    · obtain ⟨rfl, rfl⟩ := he
      rw [Book.set_self] at hy
      rcases List.mem_append.1 hy with hy | hy
      · exact hsame t d y (by rw [hsp]; simp [hy]) (by rintro rfl; exact hnodup.1 hy)
      · rcases List.mem_cons.1 hy with rfl | hy
        · exact ⟨x, hx, e1, e4, e5⟩
        · exact hsame t d y (by rw [hsp]; simp [hy]) (by rintro rfl; exact hnodup.2 hy)
    · rw [Book.set_ne _ _ (by tauto)] at hy
      refine hsame t d y hy ?_
      rintro rfl
      obtain ⟨rfl, rfl⟩ := hr.ids.disj _ _ _ _ _ _ hy hx rfl
      exact he ⟨rfl, rfl⟩
  · intro owner tick id dir q d1 d2 hm
    rw [List.mem_singleton] at hm
    exact e6 _ _ _ _ _ _ _ hm.symm
  · intro id hid
    exact e7 id (fun hc => hid tick dir x hx hc.symm)

theorem ownerAmount_le (cb : Option Nat) (mf raw : Nat) : ownerAmount cb mf raw ≤ raw := by
  unfold ownerAmount; omega

theorem ownerAmount_ge {r : Option Nat} {f v : Nat} (hr : ∀ x, r = some x → x ≤ 10 ^ 16) (hf : f ≤ 5 * 10 ^ 16) :
    94 * v ≤ 100 * ownerAmount r f v := by
  obtain ⟨-, -, -, h1, h2⟩ := split_facts (caller := "") (owner := "") (rc := "") (denom := "") (v := v) hr hf
  rw [ownerAmount_eq, ← h2]
  exact h1

theorem ClaimStep.booked {sender : Addr} {tick : Int} {id : Nat} {s s' : Store} {b b' : Book} {r : Nat × List SendMsg × LimitOrder}
    (h : ClaimStep sender tick id s b r s' b') (hr : Rel s b) {L : List Event} (hb : Booked L b) (d1 d2 : Denom) :
    Booked (L ++ [claimedEvent sender r.2.2 r.1 d1 d2]) b' := by
  obtain ⟨g1, g2, g3, g4, g5, g6, g7⟩ := h
  rename_i dir p q x ob rc
  refine hb.set hr (x' := { x with claimed := x.filled }) g1 rfl rfl rfl ?_ ?_ ?_ ?_
  · intro k o hpaid
    have hk : claimTimes x.id [claimedEvent sender (orderOf tick dir (sumBy Entry.placed p) { x with claimed := x.filled })
        (ownerAmount x.bounty (getMakerFee s) (valDown dir (x.filled - x.claimed) (priceNat tick))) d1 d2] = 1 := by
      simp [claimTimes, claimedEvent, orderOf]
    have hx : x ∈ b tick dir := by rw [g1]; simp
    have hge := ownerAmount_ge (v := valDown dir (x.filled - x.claimed) (priceNat tick)) (bountyOk_iff.1 (hr.bounty tick dir x hx)) hr.conf.fee
    have hrange := hr.range tick dir (List.ne_nil_of_mem hx)
    have h5 := valDown_add_ge dir (x.filled - x.claimed) x.claimed (priceNat tick) (priceNat_pos hrange.1 hrange.2)
    have h1 : claimedOut x.id [claimedEvent sender (orderOf tick dir (sumBy Entry.placed p) { x with claimed := x.filled })
        (ownerAmount x.bounty (getMakerFee s) (valDown dir (x.filled - x.claimed) (priceNat tick))) d1 d2] =
        ownerAmount x.bounty (getMakerFee s) (valDown dir (x.filled - x.claimed) (priceNat tick)) := by
      simp [claimedOut, claimedEvent, orderOf]
    rw [h1, hk]
    have h2 := ownerAmount_le x.bounty (getMakerFee s) (valDown dir (x.filled - x.claimed) (priceNat tick))
    have h3 := valDown_add_le dir (x.filled - x.claimed) x.claimed (priceNat tick)
    have h4 : x.filled - x.claimed + x.claimed = x.filled := by omega
    rw [h4] at h3 h5
    obtain ⟨p1, p2⟩ := hpaid
    refine ⟨?_, Or.inr ?_⟩
    · show _ ≤ valDown dir x.filled (priceNat tick)
      omega
    · show 94 * (valDown dir x.filled (priceNat tick) + 1) ≤ _
      rcases p2 with ⟨p3, p4⟩ | p2
      · have h6 : x.filled - x.claimed = x.filled := by omega
        rw [h6] at hge ⊢
        omega
      · omega
  · have : x.cancelled = false := g2.1
    simp [refunded, claimedEvent, Entry.refund, this]
  · intros; simp [claimedEvent]
  · intro i hi
    have hne : x.id ≠ i := Ne.symm hi
    simp [claimedOut, refunded, claimTimes, claimedEvent, orderOf, hne]

theorem ClaimRun.booked {sender : Addr} {ob : Orderbook} {l : List (Int × Nat)} {s s' : Store} {b b' : Book} {ms : List SendMsg}
    {es : List Event} (h : ClaimRun sender ob l s b ms es s' b') (hr : Rel s b) {L : List Event} (hb : Booked L b) : Booked (L ++ es) b' := by
  induction h generalizing L with
  | nil => simpa using hb
  | @ok tick id rest s b r s1 b1 ms es s' b' _ h _ ih =>
    have := ih h.rel (h.booked hr hb (ob.expectedDenom r.2.2.dir) (ob.oppositeDenom r.2.2.dir))
    rw [List.append_assoc] at this
    exact this
  | skip _ h _ ih => exact ih (h.rel hr) hb

theorem StoreStep.booked {ch : Chain} {op : Op} {s s' : Store} {b b' : Book} {resp : Response} (h : StoreStep ch op s b resp s' b')
    (hr : Rel s b) {L : List Event} (hb : Booked L b) : Booked (L ++ resp.events) b' := by
  cases h with
  | @place sender funds time tick dir q cb s b ob h1 h2 h3 h4 =>
    have hz : ∀ i, claimedOut i [Event.placeLimit sender tick (s.orderId.getD 0) dir q (ob.expectedDenom dir) (ob.oppositeDenom dir)] = 0 ∧
        refunded i [Event.placeLimit sender tick (s.orderId.getD 0) dir q (ob.expectedDenom dir) (ob.oppositeDenom dir)] = 0 ∧
        claimTimes i [Event.placeLimit sender tick (s.orderId.getD 0) dir q (ob.expectedDenom dir) (ob.oppositeDenom dir)] = 0 :=
      fun i => ⟨rfl, rfl, rfl⟩
    have hsub : ∀ t d, ∀ x ∈ b t d, x ∈ b.set tick dir (b tick dir ++ [newEntry s sender q cb time]) t d := by
      intro t d x hx
      by_cases he : t = tick ∧ d = dir
      · obtain ⟨rfl, rfl⟩ := he
        rw [Book.set_self]; simp [hx]
      · rw [Book.set_ne _ _ (by tauto)]; exact hx
    refine ⟨?_, ?_, ?_⟩
    · intro owner t i d q' d1 d2 he
      rcases List.mem_append.1 he with he | he
      · obtain ⟨x, hx, g⟩ := hb.places _ _ _ _ _ _ _ he
        exact ⟨x, hsub _ _ x hx, g⟩
      · simp only [List.mem_singleton, Event.placeLimit.injEq] at he
        obtain ⟨rfl, rfl, rfl, rfl, rfl, rfl, rfl⟩ := he
        exact ⟨newEntry s owner q' cb time, by rw [Book.set_self]; simp, rfl, rfl, rfl⟩
    · intro t d x hx
      rw [claimedOut_append, refunded_append, claimTimes_append, (hz x.id).1, (hz x.id).2.1, (hz x.id).2.2]
      have hold : x ∈ b t d → Paid d t x.claimed (claimTimes x.id L + 0) (claimedOut x.id L + 0) ∧ refunded x.id L + 0 = x.refund := hb.amounts t d x
      by_cases he : t = tick ∧ d = dir
      · obtain ⟨rfl, rfl⟩ := he
        rw [Book.set_self] at hx
        rcases List.mem_append.1 hx with hx | hx
        · exact hold hx
        · rw [List.mem_singleton] at hx
          subst hx
          obtain ⟨g1, g2, g3⟩ := hb.fresh (newEntry s sender q cb time).id (by
            intro t d x hx hc
            have := hr.ids.lt t d x hx
            rw [hc] at this
            exact lt_irrefl _ this)
          rw [g1, g2, g3]
          exact ⟨⟨Nat.zero_le _, Or.inl ⟨rfl, rfl⟩⟩, rfl⟩
      · rw [Book.set_ne _ _ (by tauto)] at hx; exact hold hx
    · intro i hi
      rw [claimedOut_append, refunded_append, claimTimes_append, (hz i).1, (hz i).2.1, (hz i).2.2]
      exact hb.fresh i (fun t d x hx => hi t d x (hsub t d x hx))
  | @cancel time tick dir s s1 b ob p q x tr ts1 h1 h2 h3 h4 h5 h6 h7 h8 h9 =>
    refine hb.set hr (x' := { x with cancelled := true }) h3 rfl rfl rfl ?_ ?_ ?_ ?_
    · intro k o h; simpa [claimedOut, claimTimes] using h
    · simp [refunded, Entry.refund, h4.1]
    · intros; simp
    · intro i hi
      have hne : x.id ≠ i := Ne.symm hi
      simp [claimedOut, refunded, claimTimes, hne]
  | claim h1 h2 h3 h4 => exact h4.booked hr hb _ _
  | @batch sender time l s b ob ms es s' b' h1 h2 h3 h4 =>
    have h0 : Booked (L ++ [.method "batchClaimLimit" [("sender", .str sender)]]) b :=
      hb.step (fun t d x hx => ⟨x, hx, rfl, rfl, rfl⟩) (fun t d x hx => ⟨x, hx, rfl, fun k o h => by simpa [claimedOut, claimTimes] using h, by simp [refunded]⟩)
        (by simp) (fun id _ => ⟨rfl, rfl, rfl⟩)
    have := h4.booked hr h0
    simpa using this
  | @swap time msg sender c out m fee target s b ob dir F q' dust lp h1 h2 h3 h4 h5 =>
    have hfill : ∀ f (l : List Entry), (∀ x ∈ l, ∃ x' ∈ fillQ f l, x'.id = x.id ∧ x'.placed = x.placed ∧ x'.owner = x.owner) ∧
        (∀ x' ∈ fillQ f l, ∃ x ∈ l, x'.id = x.id ∧ x'.claimed = x.claimed ∧ x'.refund = x.refund) := by
      intro f l
      induction l generalizing f with
      | nil => simp [fillQ]
      | cons x l ih =>
        obtain ⟨a1, a2⟩ := ih (f - min f x.left)
        rw [fillQ]
        constructor
        · intro y hy
          rcases List.mem_cons.1 hy with rfl | hy
          · exact ⟨_, List.mem_cons_self, rfl, rfl, rfl⟩
          · obtain ⟨z, hz, g⟩ := a1 y hy
            exact ⟨z, List.mem_cons_of_mem _ hz, g⟩
        · intro y hy
          rcases List.mem_cons.1 hy with rfl | hy
          · exact ⟨x, List.mem_cons_self, rfl, rfl, rfl⟩
          · obtain ⟨z, hz, g⟩ := a2 y hy
            exact ⟨z, List.mem_cons_of_mem _ hz, g⟩
    refine hb.step (fun t d x hx => (hfill _ _).1 x hx) ?_ (by simp [swapResponse]) (fun id _ => ⟨rfl, rfl, rfl⟩)
    intro t d x' hx'
    obtain ⟨x, hx, g1, g2, g3⟩ := (hfill _ _).2 x' hx'
    refine ⟨x, hx, g1, ?_, ?_⟩
    · intro k o h; rw [g2]; simpa [claimedOut, claimTimes, swapResponse] using h
    · rw [g3]; simp [refunded, swapResponse]
  | config h1 h2 h3 h4 h5 =>
    have hz : ∀ i, claimedOut i resp.events = 0 ∧ refunded i resp.events = 0 ∧ claimTimes i resp.events = 0 := by
      intro i
      unfold claimedOut refunded claimTimes
      generalize resp.events = l at h5
      induction l with
      | nil => exact ⟨rfl, rfl, rfl⟩
      | cons e l ih =>
        obtain ⟨m, a, rfl⟩ := h5 e (by simp)
        have := ih (fun e he => h5 e (by simp [he]))
        simpa using this
    refine hb.step (fun t d x hx => ⟨x, hx, rfl, rfl, rfl⟩) (fun t d x hx => ⟨x, hx, rfl, ?_, ?_⟩) ?_ (fun id _ => hz id)
    · intro k o h; rw [(hz x.id).1, (hz x.id).2.2]; exact h
    · rw [(hz x.id).2.1]; omega
    · intro owner tick id dir q d1 d2 hm
      obtain ⟨m, hm⟩ := h5 _ hm
      simp at hm

theorem Booked.run {ch : Chain} {n : Nat} {w : World} {b : Book} {L : List Event} (hb : Booked L b) (h : Traced ch n w b) (ops : List Op) :
    ∃ b', Traced ch (n + ops.length) (OB.run ch w ops) b' ∧ Booked (L ++ log ch w ops) b' := by
  induction ops generalizing n w b L with
  | nil => exact ⟨b, h, by simpa [log] using hb⟩
  | cons op ops ih =>
    have hlen : n + (op :: ops).length = n + 1 + ops.length := by simp; omega
    cases hs : OB.step ch w op with
    | ok r =>
      obtain ⟨w', resp⟩ := r
      obtain ⟨e1, e2⟩ := log_cons_ok (ops := ops) hs
      obtain ⟨b', g1, g2⟩ := ih ((h.step hs).booked h.rel hb) (.ok h hs)
      refine ⟨b', ?_, ?_⟩
      · rw [hlen, e2]; exact g1
      · rw [e1]; simpa using g2
    | error e =>
      have hrej : Rejected ch w op := rejected_of fun w' r hc => by rw [hs] at hc; simp at hc
      obtain ⟨e1, e2⟩ := log_cons_err (ops := ops) hrej
      obtain ⟨b', g1, g2⟩ := ih hb (.failed h hs)
      refine ⟨b', ?_, ?_⟩
      · rw [hlen, e2]; exact g1
      · rw [e1]; exact g2

end OB
