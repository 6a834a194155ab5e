import Verif.Proofs.Exchange
/- C86: independent operations can be exchanged. -/
namespace OB
open Spec OB.Exch

/-- What an operation brings to an account: a payment or a mint. -/
def brings (ch : Chain) (op : Op) (a : Addr) (d : Denom) : Nat :=
  match op with
  | .mint dst c => if a = dst ∧ d = c.denom then c.amount else 0
  | op => getsPaid ch op a d

theorem step_brings {ch : Chain} {w w' : World} {op : Op} {resp : Response} (hs : step ch w op = .ok (w', resp)) (a : Addr) (d : Denom) :
    w'.bank a d + paysIn ch op a d + (if a = ch.contract then spent d resp.msgs else 0) =
      w.bank a d + brings ch op a d + received a d resp.msgs := by
  by_cases hop : ∀ dst c, op ≠ .mint dst c
  · have := step_flow hop hs a d
    cases op <;> first | exact this | exact absurd rfl (hop _ _)
  · simp only [ne_eq, not_forall, not_not] at hop
    obtain ⟨dst, c, rfl⟩ := hop
    simp only [step, Except.ok.injEq, Prod.mk.injEq] at hs
    obtain ⟨rfl, rfl⟩ := hs
    simp only [paysIn, payment, brings, spent, received]
    by_cases h : a = dst ∧ d = c.denom
    · simp [h]
    · simp [h]

/-- The payment of the second operation is still there after the first. -/
theorem still_owns {ch : Chain} {w w1 w2 : World} {op1 op2 : Op} {r1 r2 : Response} (h1 : step ch w op1 = .ok (w1, r1))
    (h2 : step ch w op2 = .ok (w2, r2)) (hpay : ∀ a d, paysIn ch op1 a d = 0 ∨ paysIn ch op2 a d = 0)
    {src dst : Addr} {cs : List Coin} (hp : payment ch op2 = some (src, dst, cs))
    (hown : Owns w.bank src cs) (hne : src ≠ ch.contract) : Owns w1.bank src cs := by
  refine ⟨hown.1, fun d => ?_⟩
  have hn := (C63_no_loss h1 hne d).1
  have hd := hown.2 d
  have e : paysIn ch op2 src d = amountOf d cs := by unfold paysIn; rw [hp]; simp
  rcases hpay src d with h | h
  · rw [h] at hn; exact le_trans hd hn
  · rw [← e, h]; exact Nat.zero_le _

theorem accepted_owns {ch : Chain} {r : Ref} {op : Op} (hv : verdict (r.checks ch op) = none) {src dst : Addr} {cs : List Coin}
    (hp : payment ch op = some (src, dst, cs)) : Owns r.bank src cs ∧ src ≠ ch.contract := by
  rw [verdict_none] at hv
  have swap : ∀ s : SwapReq, (∀ p ∈ r.swapChecks ch s, p.1) → Owns r.bank s.sender [s.tokenIn] ∧ s.sender ≠ ch.contract := by
    intro s hs
    unfold Ref.swapChecks at hs
    exact ⟨hs (Owns r.bank s.sender [s.tokenIn], .bank) (by simp), hs (s.sender ≠ ch.contract, .std) (by simp)⟩
  cases op with
  | execute sender funds time msg =>
    cases hp
    unfold Ref.checks Ref.senderChecks at hv
    exact ⟨hv (Owns r.bank src cs, .bank) (by simp), hv (src ≠ ch.contract, .std) (by simp)⟩
  | «sudo» time msg =>
    cases msg <;> cases hp
    · exact swap ⟨_, _, _, _, _, none⟩ hv
    · exact swap ⟨_, _, _, _, _, some _⟩ hv
  | migrate => cases hp
  | transfer a b c =>
    cases hp
    unfold Ref.checks at hv
    exact ⟨hv (Owns r.bank src [c], .bank) (by simp), hv (src ≠ ch.contract, .std) (by simp)⟩
  | mint => cases hp

theorem refOf_wf {s : Store} {b : Book} (h : Rel s b) (k : Bank) : WF (refS s b k) := by
  intro t
  show ((b t .bid ++ b t .ask).map Entry.id).Nodup
  have hside : ∀ d, ((b t d).map Entry.id).Nodup := by
    intro d
    have := h.ids.inc t d
    rw [List.Nodup, List.pairwise_map]
    exact this.imp fun h => Nat.ne_of_lt h
  rw [List.map_append, List.nodup_append]
  refine ⟨hside .bid, hside .ask, ?_⟩
  intro i hi j hj he
  obtain ⟨x, hx, rfl⟩ := List.mem_map.1 hi
  obtain ⟨y, hy, rfl⟩ := List.mem_map.1 hj
  have := (h.ids.disj t .bid t .ask x y hx hy he).2
  cases this

theorem step_verdict {ch : Chain} {n : Nat} {w w' : World} {b : Book} (h : Traced ch n w b) (hn : w.HasRoom) {op : Op} {resp : Response}
    (hs : step ch w op = .ok (w', resp)) : verdict ((refOf w b).checks ch op) = none := by
  cases hv : verdict ((refOf w b).checks ch op) with
  | none => rfl
  | some e => rw [(ref_decision h hn op e).2 hv] at hs; cases hs

/-- The state after an operation, from its effect. -/
theorem effect_state {ch : Chain} {n : Nat} {w w1 : World} {b : Book} (h : Traced ch n w b) {op : Op} {resp resp' : Response} {r' : Ref}
    (h1 : step ch w op = .ok (w1, resp)) (e : (refOf w b).effect op = (r', resp')) :
    resp' = resp ∧ ∃ b1, Traced ch (n + 1) w1 b1 ∧ refOf w1 b1 = bankAs r' w1.bank := by
  have g1 := ref_effect h h1
  rw [e] at g1
  obtain ⟨g2, g3⟩ := Prod.mk.inj g1
  exact ⟨g3, _, Traced.ok h h1, (congrArg (fun r => bankAs r w1.bank) g2).symm⟩

/-- The second operation is accepted after the first. -/
theorem second {ch : Chain} {n : Nat} {w w1 w2 : World} {b b1 : Book} (h : Traced ch n w b) (hn : w.HasRoom) (t1 : Traced ch (n + 1) w1 b1) (hn1 : w1.HasRoom)
    {op1 op2 : Op} {r1 r2 : Response} (h1 : step ch w op1 = .ok (w1, r1)) (h2 : step ch w op2 = .ok (w2, r2))
    (hpay : ∀ a d, paysIn ch op1 a d = 0 ∨ paysIn ch op2 a d = 0) (hview : View op2 (refOf w b) (refOf w1 b1)) :
    ∃ w12 r12, step ch w1 op2 = .ok (w12, r12) := by
  have hv2 := step_verdict h hn h2
  have hv12 : verdict ((refOf w1 b1).checks ch op2) = none := by
    refine checks_view hview ?_ hv2
    intro src dst cs hp
    obtain ⟨o1, o2⟩ := accepted_owns hv2 hp
    exact still_owns h1 h2 hpay hp o1 o2
  cases hs : step ch w1 op2 with
  | error e => rw [(ref_decision t1 hn1 op2 e).1 hs] at hv12; cases hv12
  | ok y => exact ⟨y.1, y.2, rfl⟩

theorem independent_apart {w : World} {b : Book} (h : Rel w.store b) {base : Denom} (hb : (refOf w b).base = base) {op op' : Op}
    (hi : Independent base (fun k => w.store.orders.get? k) (w.store.orderId.getD 0) op op') : Apart (refOf w b) op op' := by
  subst hb
  induction hi with
  | orders h1 h2 h3 => exact .orders h1 h2 h3
  | new h1 h2 h3 => exact .new h1 h2 h3
  | swapOrders h1 h2 h3 =>
    refine .swapOrders h1 h2 fun k hk d x hx => ?_
    obtain ⟨g1, g2, g3⟩ := (refOf_order h).1 hx
    obtain ⟨p, q, hsp⟩ := List.append_of_mem g1
    have := (h.orders k.1 k.2 _).2 ⟨d, p, x, q, hsp, g3, g2, rfl⟩
    exact h3 k hk _ this
  | swapNew h1 h2 h3 => exact .swapNew h1 h2 h3
  | swaps h1 h2 h3 => exact .swaps h1 h2 h3
  | outside h1 => exact .outside h1
  | roles h1 h2 => exact .roles h1 h2
  | fee h1 h2 h3 => exact .fee h1 h2 h3
  | symm _ ih => exact .symm ih

/-- Reference states determine what is stored of the orders, the liquidity and the book. -/
theorem ref_same {ch : Chain} {n m : Nat} {w w' : World} {b b' : Book} (h : Traced ch n w b) (h' : Traced ch m w' b') (he : refOf w b = refOf w' b') :
    w.bank = w'.bank ∧ roles w.store = roles w'.store ∧ w.store.orderId.getD 0 = w'.store.orderId.getD 0 ∧
    (∀ k, w.store.orders.get? k = w'.store.orders.get? k) ∧ (∀ t d, tickLiquidity w.store t d = tickLiquidity w'.store t d) ∧
    answer w.store .orderbookState = answer w'.store .orderbookState := by
  have hq : b = b' := congrArg Ref.queues he
  subst hq
  refine ⟨congrArg Ref.bank he, congrArg Ref.conf he, congrArg Ref.nextId he, ?_, ?_, ?_⟩
  · rintro ⟨t, i⟩
    apply option_ext
    intro o
    rw [h.rel.orders, h'.rel.orders]
  · intro t d
    rw [(C26_tick_liquidity h t d).2, (C26_tick_liquidity h' t d).2]
  · obtain ⟨ob, hob, -⟩ := h.rel.ptr
    obtain ⟨ob', hob', -⟩ := h'.rel.ptr
    have c := current_zero h hob
    have c' := current_zero h' hob'
    have g1 := congrArg Ref.quote he
    have g2 := congrArg Ref.base he
    have g3 := congrArg (fun r => Ref.best r .bid) he
    have g4 := congrArg (fun r => Ref.best r .ask) he
    simp only [refS, hob, hob', Option.map_some, Option.getD_some] at g1 g2 g3 g4
    rw [answer_orderbookState hob, answer_orderbookState hob']
    have : ob = ob' := by
      cases ob; cases ob'
      simp only at g1 g2 g3 g4 c c'
      subst g1 g2 g3 g4 c c'; rfl
    rw [this]

/-- C86: two operations that are independent, are both accepted and are not paid from the same pocket can be exchanged. In either
order both are accepted and each gives the response it gives alone; the two orders lead to the same balances, live orders, liquidity,
best-tick pointers and configuration, and to the same answers and balances ever after. -/
theorem C86_exchange {ch : Chain} {w0 : World} (hi : Initial ch w0) {quote base : Denom} (hd : denoms w0.store = .ok (quote, base))
    (pre : List Op) {op1 op2 : Op} (rest : List Op) (hlen : pre.length + 2 + rest.length < 10 ^ 16) {w w1 w2 : World} {r1 r2 : Response}
    (hw : run ch w0 pre = w)
    (hind : Independent base (fun k => w.store.orders.get? k) (w.store.orderId.getD 0) op1 op2)
    (hpay : ∀ a d, paysIn ch op1 a d = 0 ∨ paysIn ch op2 a d = 0)
    (h1 : step ch w op1 = .ok (w1, r1)) (h2 : step ch w op2 = .ok (w2, r2)) :
    ∃ w12 w21, step ch w1 op2 = .ok (w12, r2) ∧ step ch w2 op1 = .ok (w21, r1) ∧
      answers ch w12 rest = answers ch w21 rest ∧
      ∀ ops, ops <+: rest →
        let v := run ch w12 ops
        let v' := run ch w21 ops
        v.bank = v'.bank ∧ roles v.store = roles v'.store ∧ v.store.orderId.getD 0 = v'.store.orderId.getD 0 ∧
        (∀ k, v.store.orders.get? k = v'.store.orders.get? k) ∧
        (∀ t d, tickLiquidity v.store t d = tickLiquidity v'.store t d) ∧
        answer v.store .orderbookState = answer v'.store .orderbookState := by
  have room : ∀ (l : List Op), l.length ≤ 2 + rest.length → (run ch w l).HasRoom := by
    intro l hl
    rw [← hw, ← run_append]
    exact (C72_room hi _).2.1 (by rw [List.length_append]; omega)
  obtain ⟨b, hb⟩ : ∃ b, Traced ch (0 + pre.length) w b := by
    rw [← hw]; exact (Traced.init hi).run pre
  have hn : w.HasRoom := room [] (by simp)
  have a1 : ∀ l, run ch w (op1 :: l) = run ch w1 l := fun l => by rw [run_cons]; unfold apply; rw [h1]
  have a2 : ∀ l, run ch w (op2 :: l) = run ch w2 l := fun l => by rw [run_cons]; unfold apply; rw [h2]
  have hn1 : w1.HasRoom := by have := room [op1] (by rw [List.length_singleton]; omega); rwa [a1] at this
  have hn2 : w2.HasRoom := by have := room [op2] (by rw [List.length_singleton]; omega); rwa [a2] at this
  have hbase : (refOf w b).base = base := by
    have h0 := fresh_ref hi hd
    have := (ref_run (ops := pre) (Traced.init hi) (by rw [hw]; exact hn)).2
    obtain ⟨ob, hob, -⟩ := hb.rel.ptr
    have hk := C39_denoms_fixed hi.reachable pre
    rw [hw, hd] at hk
    unfold denoms at hk
    rw [hob] at hk
    simp only [Except.ok.injEq, Prod.mk.injEq] at hk
    simp only [refS, hob, Option.map_some, Option.getD_some]
    exact hk.2
  have hap := independent_apart hb.rel hbase hind
  have hwf : WF (refOf w b) := refOf_wf hb.rel _
  have vself : ∀ op, View op (refOf w b) (refOf w b) := fun op =>
    ⟨rfl, rfl, fun _ _ _ _ => rfl, Or.inl rfl, fun _ => rfl, fun _ => ⟨rfl, rfl⟩, fun _ _ _ _ => rfl, fun _ _ h => h, fun _ _ => ⟨fun _ => rfl, rfl⟩⟩
  obtain ⟨δ0, q1, f1, -, K1⟩ := acts op1 hwf hwf (vself op1)
  obtain ⟨ε0, q2, f2, -, K2⟩ := acts op2 hwf hwf (vself op2)
  obtain ⟨rfl, b1, t1, s1⟩ := effect_state hb h1 f1
  obtain ⟨rfl, b2, t2, s2⟩ := effect_state hb h2 f2
  obtain ⟨v2, v1, -⟩ := apart hap K1 K2
  have V2 : View op2 (refOf w b) (refOf w1 b1) := by rw [s1]; exact v2 _
  have V1 : View op1 (refOf w b) (refOf w2 b2) := by rw [s2]; exact v1 _
  obtain ⟨w12, r12, h12⟩ := second hb hn t1 hn1 h1 h2 hpay V2
  obtain ⟨w21, r21, h21⟩ := second hb hn t2 hn2 h2 h1 (fun a d => (hpay a d).symm) V1
  obtain ⟨ε, p2, g1, g2, K2'⟩ := acts op2 hwf (refOf_wf t1.rel _) V2
  obtain ⟨δ, p1, g3, g4, K1'⟩ := acts op1 hwf (refOf_wf t2.rel _) V1
  obtain ⟨-, -, hc⟩ := apart hap K1' K2'
  obtain ⟨ee1, rfl⟩ := Prod.mk.inj (g1.symm.trans f2)
  obtain ⟨ee2, rfl⟩ := Prod.mk.inj (g3.symm.trans f1)
  obtain ⟨rfl, b12, t12, s12⟩ := effect_state t1 h12 g2
  obtain ⟨rfl, b21, t21, s21⟩ := effect_state t2 h21 g4
  have hbank : w12.bank = w21.bank := by
    funext a d
    have k1 := step_brings h1 a d
    have k2 := step_brings h12 a d
    have k3 := step_brings h2 a d
    have k4 := step_brings h21 a d
    omega
  have href : refOf w12 b12 = refOf w21 b21 := by
    rw [s12, s21, show refS w1.store b1 w1.bank = _ from s1, show refS w2.store b2 w2.bank = _ from s2, ← ee1, ← ee2, hbank]
    exact hc.on _ _ _ _
  have a12 : ∀ l, run ch w (op1 :: op2 :: l) = run ch w12 l := fun l => by rw [a1, run_cons]; unfold apply; rw [h12]
  have a21 : ∀ l, run ch w (op2 :: op1 :: l) = run ch w21 l := fun l => by rw [a2, run_cons]; unfold apply; rw [h21]
  have n12 : ∀ l : List Op, l.length ≤ rest.length → (run ch w12 l).HasRoom := fun l hl => by
    rw [← a12]; exact room _ (by simp only [List.length_cons]; omega)
  have n21 : ∀ l : List Op, l.length ≤ rest.length → (run ch w21 l).HasRoom := fun l hl => by
    rw [← a21]; exact room _ (by simp only [List.length_cons]; omega)
  refine ⟨w12, w21, h12, h21, ?_, ?_⟩
  · rw [(ref_run t12 (n12 rest le_rfl)).1, (ref_run t21 (n21 rest le_rfl)).1, href]
  · intro ops hops v v'
    have hl := hops.length_le
    obtain ⟨-, c1, T1, E1⟩ := ref_run t12 (n12 ops hl)
    obtain ⟨-, c2, T2, E2⟩ := ref_run t21 (n21 ops hl)
    exact ref_same T1 T2 (by rw [← E1, ← E2, href])

/-! ### Non-vacuity -/

theorem Demo.does {w : World} {op : Op} (h : (step Demo.ch w op).toOption.isSome = true) : ∃ w1 r1, step Demo.ch w op = .ok (w1, r1) := by
  cases hs : step Demo.ch w op with
  | error e => rw [hs] at h; cases h
  | ok x => exact ⟨x.1, x.2, rfl⟩

/-- Zed's claim of Dave's bid and Frank's purchase, and Frank's purchase and Bob's sale, can be exchanged after the demo history, with the same
future (here: what remains of Demo.longer). -/
example : let w := run Demo.ch Demo.w0 Demo.history
    ∀ p ∈ [(Demo.claim "zed" 0 3, Demo.buy "frank" 20000 1), (Demo.buy "frank" 20000 1, Demo.sell "bob" 20000 1),
      (Demo.place "alice" (-2) .bid 20000 none, Demo.buy "frank" 20000 1)],
    (apply Demo.ch (apply Demo.ch w p.1) p.2).bank = (apply Demo.ch (apply Demo.ch w p.2) p.1).bank ∧
    answers Demo.ch (apply Demo.ch (apply Demo.ch w p.1) p.2) [Demo.claim "zed" 10 1, Demo.cancel "erin" (-5000000) 4] =
      answers Demo.ch (apply Demo.ch (apply Demo.ch w p.2) p.1) [Demo.claim "zed" 10 1, Demo.cancel "erin" (-5000000) 4] := by
  intro w p hp
  have key : ∀ op1 op2, Independent "b" (fun k => w.store.orders.get? k) (w.store.orderId.getD 0) op1 op2 →
      (∀ a d, paysIn Demo.ch op1 a d = 0 ∨ paysIn Demo.ch op2 a d = 0) →
      (step Demo.ch w op1).toOption.isSome = true → (step Demo.ch w op2).toOption.isSome = true →
      (apply Demo.ch (apply Demo.ch w op1) op2).bank = (apply Demo.ch (apply Demo.ch w op2) op1).bank ∧
      answers Demo.ch (apply Demo.ch (apply Demo.ch w op1) op2) [Demo.claim "zed" 10 1, Demo.cancel "erin" (-5000000) 4] =
      answers Demo.ch (apply Demo.ch (apply Demo.ch w op2) op1) [Demo.claim "zed" 10 1, Demo.cancel "erin" (-5000000) 4] := by
    intro op1 op2 hi hp h1 h2
    have hw : run Demo.ch Demo.w0 Demo.history = w := rfl
    clear_value w
    obtain ⟨w1, r1, h1⟩ := Demo.does h1
    obtain ⟨w2, r2, h2⟩ := Demo.does h2
    obtain ⟨w12, w21, g1, g2, g3, g4⟩ := C86_exchange Demo.initial (quote := "q") (base := "b") rfl Demo.history
      [Demo.claim "zed" 10 1, Demo.cancel "erin" (-5000000) 4] (by decide +kernel) hw hi hp h1 h2
    have e1 : apply Demo.ch w op1 = w1 := by unfold apply; rw [h1]
    have e2 : apply Demo.ch w op2 = w2 := by unfold apply; rw [h2]
    have e3 : apply Demo.ch w1 op2 = w12 := by unfold apply; rw [g1]
    have e4 : apply Demo.ch w2 op1 = w21 := by unfold apply; rw [g2]
    rw [e1, e2, e3, e4]
    exact ⟨(g4 [] (List.nil_prefix)).1, g3⟩
  simp only [List.mem_cons, List.not_mem_nil, or_false] at hp
  rcases hp with rfl | rfl | rfl
  · refine key _ _ (.symm (.swapOrders (side := .ask) rfl rfl ?_)) (fun a d => Or.inl ?_) (by decide +kernel) (by decide +kernel)
    · intro x hx o ho
      have hx : x = (0, 3) := by simpa using hx
      subst hx
      have e : (w.store.orders.get? (0, 3)).map LimitOrder.dir = some .bid := by decide +kernel
      rw [ho] at e
      simp only [Option.map_some, Option.some.injEq] at e
      rw [e]; simp
    · simp [paysIn, payment, Demo.claim, amountOf]
  · refine key _ _ (.swaps (side := .ask) (side' := .bid) rfl rfl (by simp)) (fun a d => ?_) (by decide +kernel) (by decide +kernel)
    by_cases ha : a = "frank"
    · right; subst ha; simp [paysIn, payment, Demo.sell]
    · left; simp [paysIn, payment, Demo.buy, ha]
  · refine key _ _ (.symm (.swapNew (side := .ask) (d := .bid) rfl rfl (by simp))) (fun a d => ?_) (by decide +kernel) (by decide +kernel)
    by_cases ha : a = "frank"
    · left; subst ha; simp [paysIn, payment, Demo.place]
    · right; simp [paysIn, payment, Demo.buy, ha]

end OB
