import Verif.Proofs.Commute
import Verif.Props.Funds
/- C65: the sequence of claims does not matter. -/
namespace OB
open Spec

theorem received_perm {a : Addr} {d : Denom} {ms ms' : List SendMsg} (h : ms.Perm ms') : received a d ms = received a d ms' :=
  (h.map _).sum_eq

theorem spent_perm {d : Denom} {ms ms' : List SendMsg} (h : ms.Perm ms') : spent d ms = spent d ms' :=
  (h.map _).sum_eq

theorem Settled.unique {b b1 b2 : Bank} {c : Addr} {ms ms' : List SendMsg} (h1 : Settled b b1 c ms) (h2 : Settled b b2 c ms') (h : ms.Perm ms') :
    b1 = b2 := by
  funext a d
  have e1 := h1 a d
  have e2 := h2 a d
  rw [received_perm h, spent_perm h] at e1
  omega

/-- C65: the sequence in which a batch claim lists its orders does not matter: with any rearrangement the very same world results (every
balance and every cell of the contract's storage), by the same transfers and events up to their order. -/
theorem C65_batch_order {ch : Chain} {n : Nat} {w : World} {b : Book} (h : Traced ch n w b) (hn : w.HasRoom) {sender : Addr}
    {funds : List Coin} {time : Nat} {l l' : List (Int × Nat)} (hp : l.Perm l') {w' : World} {resp : Response}
    (hs : step ch w (.execute sender funds time (.batchClaim l)) = .ok (w', resp)) :
    ∃ resp', step ch w (.execute sender funds time (.batchClaim l')) = .ok (w', resp') ∧
      resp.msgs.Perm resp'.msgs ∧ resp.events.Perm resp'.events := by
  have hst : StoreStep ch (.execute sender funds time (.batchClaim l)) _ _ _ _ _ := h.step hs
  obtain ⟨hne, hwt, bank1, hsend, hex, hdisp⟩ := step_execute_ok.1 hs
  generalize b.observe _ _ _ _ = b' at hst
  obtain ⟨s', bank'⟩ := w'
  simp only at hst hdisp
  cases hst with
  | config h1 => simp [Op.isConfig] at h1
  | @batch _ _ _ _ _ ob ms es _ _ ha hob hlen hrun =>
    rw [execute_active ha] at hex
    have hex' : batchClaimLimits ⟨sender, []⟩ (ch.env time) l w.store = _ := hex
    unfold batchClaimLimits at hex'
    rw [EM.bind_ok_of (x := EM.lift (nonpayable (MessageInfo.mk sender []).funds)) (a := ()) (s' := w.store) rfl,
      EM.bind_ok_of (x := EM.ensure _ _) (a := ()) (s' := w.store) (EM.ensure_eq_ok.2 ⟨(decide_eq_true (p := l.length ≤ MAX_BATCH_CLAIM) hlen), rfl⟩),
      EM.bind_ok_of (loadOrderbook_some hob), EM.bind_eq_ok] at hex'
    obtain ⟨⟨ms1, es1⟩, s1, hloop, hpure⟩ := hex'
    rw [EM.pure_eq_ok] at hpure
    simp only [Response.mk.injEq, List.cons.injEq, true_and] at hpure
    obtain ⟨⟨rfl, rfl, -⟩, rfl⟩ := hpure
    have hcnt : ∀ t, w.store.trees.cnt t + 2 * l.length < U64 := fun t => by
      have := hn.room.cnt_lt t
      unfold MAX_BATCH_CLAIM at hlen
      omega
    obtain ⟨ms', es', hloop', pm, pe⟩ := batchLoop_perm hp h.rel hob hcnt hloop
    obtain ⟨b2, hrun'⟩ := batchLoop_ok h.rel hloop'
    have hlen' : l'.length ≤ MAX_BATCH_CLAIM := by rw [← hp.length_eq]; exact hlen
    have hwt' : (ExecuteMsg.batchClaim l').wellTyped = true := by
      simp only [ExecuteMsg.wellTyped, List.all_eq_true] at hwt ⊢
      exact fun k hk => hwt k (hp.mem_iff.2 hk)
    have hss : StoreStep ch (.execute sender [] time (.batchClaim l')) w.store b
        { msgs := ms', events := .method "batchClaimLimit" [("sender", .str sender)] :: es' } s' b2 :=
      StoreStep.batch ha hob hlen' hrun'
    obtain ⟨bank2, hb2⟩ := h.dispatch hn.room.lt_D hss (bank1 := w.bank) (fun d => by simp [Op.inflow])
      (hrun'.nonzero h.rel)
    have e1 : bank1 = w.bank := by
      have : (Except.ok w.bank : Except Err Bank) = .ok bank1 := hsend
      exact (Except.ok.inj this).symm
    subst e1
    obtain rfl : bank' = bank2 := Settled.unique (Bank.dispatch_settled hdisp) (Bank.dispatch_settled hb2) pm
    let resp' : Response := { msgs := ms', events := .method "batchClaimLimit" [("sender", .str sender)] :: es' }
    have hex2 : execute (ch.env time) ⟨sender, []⟩ (.batchClaim l') w.store = Res.ok resp' s' := ?_
    · exact ⟨resp', step_execute_ok.2 ⟨hne, hwt', w.bank, rfl, hex2, hb2⟩, pm, pe.cons _⟩
    rw [execute_active ha]
    show batchClaimLimits ⟨sender, []⟩ (ch.env time) l' w.store = _
    unfold batchClaimLimits
    rw [EM.bind_ok_of (x := EM.lift (nonpayable (MessageInfo.mk sender []).funds)) (a := ()) (s' := w.store) rfl]
    rw [EM.bind_ok_of (x := EM.ensure _ _) (a := ()) (s' := w.store) (EM.ensure_eq_ok.2 ⟨(decide_eq_true (p := l'.length ≤ MAX_BATCH_CLAIM) hlen'), rfl⟩)]
    rw [EM.bind_ok_of (loadOrderbook_some hob)]
    rw [EM.bind_ok_of hloop']
    rfl

/-- A single accepted claim as an attempt. -/
theorem claim_att {ch : Chain} {n : Nat} {w : World} {b : Book} (h : Traced ch n w b) {sender : Addr} {funds : List Coin} {time : Nat}
    {tick : Int} {id : Nat} {w' : World} {resp : Response} (hs : step ch w (.execute sender funds time (.claimLimit tick id)) = .ok (w', resp)) :
    (∃ es, Att sender (tick, id) w.store b resp.msgs es w'.store) ∧ Settled w.bank w'.bank ch.contract resp.msgs ∧
    Traced ch (n + 1) w' (mark (tick, id) b) ∧ isActive w.store = true := by
  have ht := Traced.ok h hs
  have hst : StoreStep ch (.execute sender funds time (.claimLimit tick id)) _ _ _ _ _ := h.step hs
  obtain ⟨hne, hwt, bank1, hsend, hex, hdisp⟩ := step_execute_ok.1 hs
  generalize hb : b.observe _ _ _ _ = b' at hst ht
  obtain ⟨s', bank'⟩ := w'
  simp only at hst hdisp ⊢
  cases hst with
  | config h1 => simp [Op.isConfig] at h1
  | @claim _ _ _ _ _ _ ob r _ _ ha hob hc hstep =>
    have hloop : batchLoop sender ob [(tick, id)] w.store =
        .ok (r.2.1, [claimedEvent sender r.2.2 r.1 (ob.expectedDenom r.2.2.dir) (ob.oppositeDenom r.2.2.dir)]) s' := by
      obtain ⟨a, m, o⟩ := r
      simp only [batchLoop, hc]
      exact EM.bind_eq_ok.2 ⟨([], []), s', rfl, by rw [EM.pure_eq_ok]; exact ⟨by simp, rfl⟩⟩
    have hatt := attempt h.rel hob hloop
    have e1 : bank1 = w.bank := by
      have : (Except.ok w.bank : Except Err Bank) = .ok bank1 := hsend
      exact (Except.ok.inj this).symm
    subst e1
    refine ⟨⟨_, hatt⟩, Bank.dispatch_settled hdisp, ?_, ha⟩
    have : b' = mark (tick, id) b := by
      obtain ⟨g1, g2, g3, g4, g5, g6, g7⟩ := hstep
      subst g3
      rw [mark_hit h.rel g1]
    rw [← this]; exact ht

theorem Hit.iff {b : Book} {tick : Int} {id : Nat} :
    (∃ d x, Hit b (tick, id) d x) ↔ ∃ d, ∃ x ∈ b tick d, x.id = id ∧ x.Live ∧ x.claimed < x.filled := by
  unfold Hit
  constructor
  · rintro ⟨d, x, h1, h2, h3, h4⟩; exact ⟨d, x, h1, h2, h3, h4⟩
  · rintro ⟨d, x, h1, h2, h3, h4⟩; exact ⟨d, x, h1, h2, h3, h4⟩

/-- C65: claims of different orders commute, whoever makes them and whether or not they are accepted: both sequences lead to the very
same world. -/
theorem C65_claims_commute {ch : Chain} {n : Nat} {w : World} {b : Book} (h : Traced ch n w b) (hn : w.HasRoom)
    {s1 s2 : Addr} {f1 f2 : List Coin} {t1 t2 : Nat} {k1 k2 : Int × Nat} (hne : k1 ≠ k2) :
    run ch w [.execute s1 f1 t1 (.claimLimit k1.1 k1.2), .execute s2 f2 t2 (.claimLimit k2.1 k2.2)] =
      run ch w [.execute s2 f2 t2 (.claimLimit k2.1 k2.2), .execute s1 f1 t1 (.claimLimit k1.1 k1.2)] := by
  -- acceptance of one does not depend on the other
  have key : ∀ {sa sc : Addr} {fa fc : List Coin} {ta tc : Nat} {a c : Int × Nat} {w1 : World} {r1 : Response}, a ≠ c →
      step ch w (.execute sa fa ta (.claimLimit a.1 a.2)) = .ok (w1, r1) →
      (Accepted ch w1 (.execute sc fc tc (.claimLimit c.1 c.2)) ↔ Accepted ch w (.execute sc fc tc (.claimLimit c.1 c.2))) := by
    intro sa sc fa fc ta tc a c w1 r1 hac ha
    obtain ⟨⟨es1, a1⟩, -, a3, a4⟩ := claim_att h ha
    have hact1 : isActive w1.store = true := by unfold isActive at a4 ⊢; rw [a1.conf.active]; exact a4
    by_cases hcn : sc = ch.contract
    · constructor <;> rintro ⟨w2, r2, hh⟩ <;> exact absurd hcn (step_execute_ok.1 hh).1
    · have g := claim_iff_room h hn.few a4 hcn fc tc c.1 c.2
      have g1 := claim_iff_room a3 (((h.step ha).counts.forth hn).mono (by omega)) hact1 hcn fc tc c.1 c.2
      rw [g, g1, ← Hit.iff, ← Hit.iff]
      refine and_congr_right fun _ => exists_congr fun d => exists_congr fun x => ?_
      exact Hit.mark_iff (Ne.symm hac) d x
  have hrun : ∀ o o' : Op, run ch w [o, o'] = apply ch (apply ch w o) o' := fun _ _ => rfl
  rw [hrun, hrun]
  generalize ho1 : Op.execute s1 f1 t1 (.claimLimit k1.1 k1.2) = o1
  generalize ho2 : Op.execute s2 f2 t2 (.claimLimit k2.1 k2.2) = o2
  cases e1 : step ch w o1 with
  | error x1 =>
    have a1 : apply ch w o1 = w := by unfold apply; rw [e1]
    rw [a1]
    cases e2 : step ch w o2 with
    | error x2 =>
      have a2 : apply ch w o2 = w := by unfold apply; rw [e2]
      rw [a2, a1]
    | ok y2 =>
      obtain ⟨w3, r3⟩ := y2
      have a2 : apply ch w o2 = w3 := by unfold apply; rw [e2]
      rw [a2]
      have hrej : ¬ Accepted ch w3 o1 := by
        subst ho1 ho2
        rw [key (Ne.symm hne) e2]
        rintro ⟨w', r', hh⟩
        rw [e1] at hh; simp at hh
      exact ((rejected_iff.2 hrej).2).symm
  | ok y1 =>
    obtain ⟨w1, r1⟩ := y1
    have a1 : apply ch w o1 = w1 := by unfold apply; rw [e1]
    rw [a1]
    cases e2 : step ch w o2 with
    | error x2 =>
      have a2 : apply ch w o2 = w := by unfold apply; rw [e2]
      have hrej : ¬ Accepted ch w1 o2 := by
        subst ho1 ho2
        rw [key hne e1]
        rintro ⟨w', r', hh⟩
        rw [e2] at hh; simp at hh
      rw [a2, a1]
      exact (rejected_iff.2 hrej).2
    | ok y2 =>
      obtain ⟨w3, r3⟩ := y2
      have a2 : apply ch w o2 = w3 := by unfold apply; rw [e2]
      rw [a2]
      subst ho1 ho2
      obtain ⟨w2, r2, e3⟩ := (key (sc := s2) (fc := f2) (tc := t2) hne e1).2 ⟨_, _, e2⟩
      obtain ⟨w4, r4, e4⟩ := (key (sc := s1) (fc := f1) (tc := t1) (Ne.symm hne) e2).2 ⟨_, _, e1⟩
      have a3 : apply ch w1 (.execute s2 f2 t2 (.claimLimit k2.1 k2.2)) = w2 := by unfold apply; rw [e3]
      have a4 : apply ch w3 (.execute s1 f1 t1 (.claimLimit k1.1 k1.2)) = w4 := by unfold apply; rw [e4]
      rw [a3, a4]
      obtain ⟨⟨es1, p1⟩, q1, u1, -⟩ := claim_att h e1
      obtain ⟨⟨es2, p2⟩, q2, -, -⟩ := claim_att u1 e3
      obtain ⟨⟨es3, p3⟩, q3, u3, -⟩ := claim_att h e2
      obtain ⟨⟨es4, p4⟩, q4, -, -⟩ := claim_att u3 e4
      obtain ⟨hst, hm1, -, hm2, -⟩ := Att.comm h.rel p1 p2 p3 p4 hne
      have hbank : w2.bank = w4.bank := by
        funext a d
        have b1 := q1 a d
        have b2 := q2 a d
        have b3 := q3 a d
        have b4 := q4 a d
        rw [hm1] at b1
        rw [hm2] at b2
        omega
      cases w2; cases w4
      simp only at hst hbank
      rw [hst, hbank]

/-- Demo: after a purchase bob's ask has a fill too. -/
def Demo.both : List Op := Demo.history ++ [Demo.buy "frank" 20000 1]

/-- C65 on a demo book where orders (0, 3) and (10, 1) have fills and (0, 9) does not exist: both sequences are accepted, both orders are
paid, and the responses are rearrangements of each other but not equal. -/
example : Traced Demo.ch 11 (Demo.trace Demo.both).1 (Demo.trace Demo.both).2 ∧
    [(0, 3), (0, 9), (10, 1), ((0 : Int), 3)].Perm [(10, 1), (0, 3), (0, 3), (0, 9)] ∧
    (let w := (Demo.trace Demo.both).1
     let r := respOf Demo.ch w (.execute "zed" [] 9 (.batchClaim [(0, 3), (0, 9), (10, 1), (0, 3)]))
     let r' := respOf Demo.ch w (.execute "zed" [] 9 (.batchClaim [(10, 1), (0, 3), (0, 3), (0, 9)]))
     (r.map fun x => (x.msgs.length, x.events.length)) = some (6, 3) ∧ (r'.map fun x => (x.msgs.length, x.events.length)) = some (6, 3) ∧
       (r.map Response.msgs) ≠ (r'.map Response.msgs)) := by
  refine ⟨Demo.traced Demo.both, by decide, ?_⟩
  decide +kernel

end OB
