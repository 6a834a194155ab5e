import Verif.Proofs.Outcome
import Verif.Proofs.SpecPrice
import Verif.SpecObs
/- Helper lemmas connecting the model with the vocabulary of SpecObs. -/
namespace OB
open Spec

theorem denoms_eq {s : Store} {quote base : Denom} (h : denoms s = .ok (quote, base)) :
    ∃ ob, s.orderbook = some ob ∧ ob.quoteDenom = quote ∧ ob.baseDenom = base := by
  unfold denoms at h
  split at h
  · simp at h
  · rename_i ob hob
    simp only [Except.ok.injEq, Prod.mk.injEq] at h
    exact ⟨ob, hob, h.1, h.2⟩

theorem denomIn_eq (ob : Orderbook) (d : Dir) : denomIn ob.quoteDenom ob.baseDenom d = ob.expectedDenom d := by
  cases d <;> rfl
theorem denomOut_eq (ob : Orderbook) (d : Dir) : denomOut ob.quoteDenom ob.baseDenom d = ob.oppositeDenom d := by
  cases d <;> rfl

theorem denoms_of {s : Store} {ob : Orderbook} (h : s.orderbook = some ob) : denoms s = .ok (ob.quoteDenom, ob.baseDenom) := by
  unfold denoms; rw [h]

theorem rejected_of {ch : Chain} {w : World} {op : Op} (h : ∀ w' resp, step ch w op ≠ .ok (w', resp)) : Rejected ch w op := by
  unfold Rejected apply
  cases hs : step ch w op with
  | ok r => exact absurd hs (h r.1 r.2)
  | error e => exact ⟨⟨e, rfl⟩, rfl⟩

theorem rejected_iff {ch : Chain} {w : World} {op : Op} : Rejected ch w op ↔ ¬ Accepted ch w op := by
  constructor
  · rintro ⟨⟨e, he⟩, -⟩ ⟨w', resp, h⟩; rw [he] at h; simp at h
  · intro h; exact rejected_of fun w' resp hs => h ⟨w', resp, hs⟩

theorem rejected_iff_respOf {ch : Chain} {w : World} {op : Op} : Rejected ch w op ↔ respOf ch w op = none := by
  rw [respOf_eq_none]
  constructor
  · rintro ⟨h, -⟩; exact h
  · rintro ⟨e, he⟩; exact rejected_of fun w' resp h => by rw [he] at h; simp at h

theorem accepted_iff_respOf {ch : Chain} {w : World} {op : Op} : Accepted ch w op ↔ ∃ r, respOf ch w op = some r := by
  constructor
  · rintro ⟨w', resp, h⟩; exact ⟨resp, respOf_eq_some.2 ⟨w', h⟩⟩
  · rintro ⟨r, h⟩; obtain ⟨w', h⟩ := respOf_eq_some.1 h; exact ⟨w', r, h⟩

theorem runTx_eq_ok {ch : Chain} {w w' : World} {bank : Bank} {x : M Response} {resp : Response} :
    runTx ch w bank x = .ok (w', resp) ↔ x w.store = .ok resp w'.store ∧ bank.dispatch ch.contract resp.msgs = .ok w'.bank := by
  rw [runTx_dispatch]
  constructor
  · intro h
    split at h
    · simp at h
    · split at h
      · simp at h
      · simp only [Except.ok.injEq, Prod.mk.injEq] at h
        obtain ⟨rfl, rfl⟩ := h
        exact ⟨by assumption, by assumption⟩
  · rintro ⟨h1, h2⟩
    rw [h1]
    simp only [h2]

theorem step_execute_ok {ch : Chain} {w w' : World} {sender : Addr} {funds : List Coin} {time : Nat} {msg : ExecuteMsg} {resp : Response} :
    step ch w (.execute sender funds time msg) = .ok (w', resp) ↔
      sender ≠ ch.contract ∧ msg.wellTyped = true ∧ ∃ bank1, w.bank.sendAll sender ch.contract funds = .ok bank1 ∧
        execute (ch.env time) ⟨sender, funds⟩ msg w.store = .ok resp w'.store ∧
        bank1.dispatch ch.contract resp.msgs = .ok w'.bank := by
  simp only [step]
  by_cases hs : sender = ch.contract
  · simp [hs]
  · by_cases hw : msg.wellTyped = true
    · simp only [hs, hw, if_false, Bool.not_true, Bool.false_eq_true, Except.bind_eq_ok', runTx_eq_ok, ne_eq, not_false_eq_true, true_and]
    · simp [hs, hw]

theorem paid_of_send {b b' : Bank} {src dst : Addr} {c : Coin} (h : b.send src dst c = .ok b') (hne : src ≠ dst) :
    Paid b b' src dst c.denom c.amount := by
  obtain ⟨h1, h2, rfl⟩ := Bank.send_eq_ok.1 h
  refine ⟨?_, ?_, ?_⟩
  · simp [hne]; omega
  · simp [Ne.symm hne]
  · rintro a d (⟨h3, h4⟩ | h3) <;> simp [*]

theorem Bank.dispatch_nil (b : Bank) (c : Addr) : b.dispatch c [] = .ok b := rfl

theorem Bank.dispatch_single {b b' : Bank} {c : Addr} {m : SendMsg} :
    b.dispatch c [m] = .ok b' ↔ b.send c m.to m.coin = .ok b' := by
  unfold Bank.dispatch
  cases b.send c m.to m.coin <;> simp [Bank.dispatch]

theorem Bank.sendAll_single {b b' : Bank} {src dst : Addr} {c : Coin} :
    b.sendAll src dst [c] = .ok b' ↔ b.send src dst c = .ok b' := by
  simp only [Bank.sendAll]
  rw [Except.bind_eq_ok']
  constructor
  · rintro ⟨x, h1, h2⟩
    rw [h1]
    exact h2
  · intro h; exact ⟨b', h, rfl⟩

theorem bountyOk_iff {cb : Option Nat} : bountyOk cb = true ↔ ∀ r, cb = some r → r ≤ 10 ^ 16 := by
  cases cb <;> simp [bountyOk, percent]

theorem floor_mul_D (x : Nat) : toUintFloor (D * x) = x := by
  unfold toUintFloor
  exact Nat.mul_div_cancel_left x (by unfold D; norm_num)

theorem Rel.tickLiq {s : Store} {b : Book} (h : Rel s b) (t : Int) (d : Dir) : tickLiquidity s t d = sumBy Entry.left (b t d) := by
  obtain ⟨r, rt, hs, -, -⟩ := h.sides t d
  have : tickLiquidity s t d = toUintFloor (tv s t d).tal := rfl
  rw [this, hs.tal, floor_mul_D]

theorem Rel.dirLiquidity {s : Store} {b : Book} (h : Rel s b) (d : Dir) : Spec.dirLiquidity s d = openOf b d := by
  unfold Spec.dirLiquidity
  rw [h.liq_open, floor_mul_D]

theorem drop_ite_aux {A B L L' q : Nat} {c : Prop} [Decidable c] (h : A + (if c then L else 0) = B + (if c then L' else 0)) (e : L' + q = L) :
    A + (if c then q else 0) = B := by
  subst e
  split at h <;> simp_all
  omega

theorem openOf_drop {b : Book} {tick : Int} {dir : Dir} {l : List Entry} {k : Nat} (ht : MIN_TICK ≤ tick ∧ tick ≤ MAX_TICK)
    (e : sumBy Entry.left l + k = sumBy Entry.left (b tick dir)) (d : Dir) :
    openOf (b.set tick dir l) d + (if d = dir then k else 0) = openOf b d :=
  drop_ite_aux (openOf_set (b := b) (tick := tick) (dir := dir) (q := l) (mem_tickRange.2 ht) d) e

/-- The response of a successful cancel of `x`. -/
def cancelResp (tick : Int) (dir : Dir) (x : Entry) (ob : Orderbook) : Response :=
  { msgs := [⟨x.owner, ⟨ob.expectedDenom dir, x.placed - x.claimed⟩, REPLY_ID_REFUND⟩],
    events := [.cancelLimit x.owner tick x.id (x.placed - x.claimed) dir x.placed (ob.expectedDenom dir) (ob.oppositeDenom dir)] }

theorem Traced.cancel_resp {ch : Chain} {n : Nat} {w : World} {b : Book} (h : Traced ch n w b) (hn : Room 4 w.store)
    (ha : isActive w.store = true) {tick : Int} {dir : Dir} {x : Entry}
    (hx : x ∈ b tick dir) (hl : x.Live) (hc : x.filled = x.claimed) (time : Nat) {ob : Orderbook} (hob : w.store.orderbook = some ob) :
    respOf ch w (.execute x.owner [] time (.cancelLimit tick x.id)) = some (cancelResp tick dir x ob) := by
  obtain ⟨w', resp, hok⟩ := h.cancel_step hn ha hx (h.owner_ne _ _ _ hx) hl hc time
  have hr := h.rel
  have hst := h.step hok
  rw [respOf_eq_some.2 ⟨w', hok⟩]
  generalize b.observe _ _ _ _ = b' at hst
  generalize w'.store = s' at hst
  clear hok
  generalize hid : x.id = id at hst
  generalize how : x.owner = owner at hst
  cases hst with
  | config h1 => simp [Op.isConfig] at h1
  | cancel h1 h2 h3 h4 h5 h6 h7 h8 h9 =>
    obtain ⟨-, rfl, rfl⟩ := hr.same_entry h3 hx hid
    rw [hob] at h2
    cases h2
    rfl

theorem Traced.cancel_resp_none {ch : Chain} {n : Nat} {w : World} {b : Book} (h : Traced ch n w b) {sender : Addr} {funds : List Coin}
    {time : Nat} {tick : Int} {id : Nat}
    (hno : ¬ ∃ d, ∃ y ∈ b tick d, y.id = id ∧ y.Live ∧ y.filled = y.claimed ∧ y.owner = sender ∧ funds = []) :
    respOf ch w (.execute sender funds time (.cancelLimit tick id)) = none := by
  refine respOf_of_not fun w' resp hok => hno ?_
  have hst := h.step hok
  generalize b.observe _ _ _ _ = b' at hst
  generalize w'.store = s' at hst
  cases hst with
  | config h1 => simp [Op.isConfig] at h1
  | cancel h1 h2 h3 h4 h5 h6 h7 h8 h9 => exact ⟨_, _, by rw [h3]; simp, rfl, h4, h5, rfl, rfl⟩


theorem orderbook_inj {s : Store} {ob ob' : Orderbook} (h : s.orderbook = some ob) (h' : s.orderbook = some ob') : ob' = ob := by
  rw [h] at h'; exact (Option.some.inj h').symm

end OB
