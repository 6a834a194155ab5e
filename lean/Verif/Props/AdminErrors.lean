import Verif.SpecAdmin
import Verif.Props.Errors
import Verif.Props.Auth
/- C59: rejection reasons of configuration messages and governance calls. -/
namespace OB
open Spec

theorem EM.get_eq_err {σ : Type} {e : Err} {s s' : σ} : (EM.get : EM σ σ) s = .err e s' ↔ False := by simp [EM.get]
theorem EM.modify_eq_err {σ : Type} {f : σ → σ} {e : Err} {s s' : σ} : (EM.modify f : EM σ Unit) s = .err e s' ↔ False := by simp [EM.modify]

theorem authDispatch_err {env : Env} {info : MessageInfo} {msg : AuthMsg} {s s' : Store} {e : Err}
    (h : authDispatch env info msg s = .err e s') :
    (¬ MayCall (roles s) info.sender msg ∧ e = .unauthorized) ∨
    (MayCall (roles s) info.sender msg ∧ ¬ Sensible env.addrValid info.sender msg ∧ e = badArgument msg) := by
  have e5 : MAX_MAKER_FEE_PERCENTAGE = 5 * 10 ^ 16 := by decide
  cases msg <;>
    simp only [authDispatch, ensureIsAdmin, ensureIsAdminOrModerator, offerAdmin, removeAdminTransfer, updateAdmin, removeAdmin,
      offerModerator, removeModeratorOffer, updateModerator, setActive, setMakerFee, setMakerFeeRecipient, EM.bind_eq_err,
      EM.bind_eq_ok, EM.get_eq_ok, EM.ensure_eq_ok, EM.modify_eq_ok, EM.pure_eq_ok, EM.get_eq_err, EM.ensure_eq_err, EM.modify_eq_err,
      EM.pure_apply, reduceCtorEq, decide_eq_true_eq, decide_eq_false_iff_not, and_false, exists_false, or_false, false_or] at h
  case transferAdmin =>
    rcases h with ⟨_, _, ⟨rfl, rfl⟩, h, rfl, rfl⟩ | ⟨_, _, ⟨_, _, ⟨rfl, rfl⟩, h, rfl⟩, h2, rfl, rfl⟩
    · exact Or.inl ⟨h, rfl⟩
    · exact Or.inr ⟨h, by simp [Sensible, h2], rfl⟩
  case offerModerator =>
    rcases h with ⟨_, _, ⟨rfl, rfl⟩, h, rfl, rfl⟩ | ⟨_, _, ⟨_, _, ⟨rfl, rfl⟩, h, rfl⟩, h2, rfl, rfl⟩
    · exact Or.inl ⟨h, rfl⟩
    · exact Or.inr ⟨h, by simp [Sensible, h2], rfl⟩
  case setMakerFeeRecipient =>
    rcases h with ⟨_, _, ⟨rfl, rfl⟩, h, rfl, rfl⟩ | ⟨_, _, ⟨_, _, ⟨rfl, rfl⟩, h, rfl⟩, h2, rfl, rfl⟩
    · exact Or.inl ⟨h, rfl⟩
    · exact Or.inr ⟨h, by simp [Sensible, h2], rfl⟩
  case setMakerFee =>
    rcases h with ⟨_, _, ⟨rfl, rfl⟩, h, rfl, rfl⟩ | ⟨_, _, ⟨_, _, ⟨rfl, rfl⟩, h, rfl⟩, h2, rfl, rfl⟩
    · exact Or.inl ⟨h, rfl⟩
    · exact Or.inr ⟨h, by simp only [Sensible, ← e5]; exact h2, rfl⟩
  case cancelAdminTransfer => obtain ⟨_, _, ⟨rfl, rfl⟩, h, rfl, rfl⟩ := h; exact Or.inl ⟨h, rfl⟩
  case renounceAdminship => obtain ⟨_, _, ⟨rfl, rfl⟩, h, rfl, rfl⟩ := h; exact Or.inl ⟨h, rfl⟩
  case setActive => obtain ⟨_, _, ⟨rfl, rfl⟩, h, rfl, rfl⟩ := h; exact Or.inl ⟨fun hc => h hc.symm, rfl⟩
  case rejectAdminTransfer => obtain ⟨_, _, ⟨rfl, rfl⟩, h, rfl, rfl⟩ := h; exact Or.inl ⟨fun hc => h hc.symm, rfl⟩
  case rejectModeratorOffer => obtain ⟨_, _, ⟨rfl, rfl⟩, h, rfl, rfl⟩ := h; exact Or.inl ⟨fun hc => h hc.symm, rfl⟩
  case claimAdmin =>
    obtain ⟨_, _, ⟨rfl, rfl⟩, ⟨h, rfl, rfl⟩ | ⟨_, _, ⟨h, rfl⟩, h2, rfl, rfl⟩⟩ := h
    · exact Or.inl ⟨fun hc => h hc.symm, rfl⟩
    · exact Or.inr ⟨h.symm, by simp [Sensible, h2], rfl⟩
  case claimModerator =>
    obtain ⟨_, _, ⟨rfl, rfl⟩, ⟨h, rfl, rfl⟩ | ⟨_, _, ⟨h, rfl⟩, h2, rfl, rfl⟩⟩ := h
    · exact Or.inl ⟨fun hc => h hc.symm, rfl⟩
    · exact Or.inr ⟨h.symm, by simp [Sensible, h2], rfl⟩

/-- C59 (configuration messages): one is rejected exactly for the first of these reasons that applies. -/
theorem C59_auth_errors (ch : Chain) (w : World) (sender : Addr) (funds : List Coin) (time : Nat) (m : AuthMsg) (e : Err) :
    step ch w (.execute sender funds time (.auth m)) = .error e ↔
      Fails [(sender ≠ ch.contract, .std), (m.wellTyped = true, .decode), ((∃ bank, w.bank.sendAll sender ch.contract funds = .ok bank), .bank),
        (MayCall (roles w.store) sender m, .unauthorized), (Sensible ch.addrValid sender m, badArgument m)] e := by
  simp only [Fails, step]
  by_cases h1 : sender = ch.contract
  · rw [if_pos h1]
    simp only [Except.error.injEq, h1, ne_eq, not_true, not_false_eq_true, true_and, false_and, or_false]
    exact eq_comm
  rw [if_neg h1]
  have hwt : ExecuteMsg.wellTyped (.auth m) = m.wellTyped := rfl
  rw [hwt]
  cases h2 : m.wellTyped
  · simp only [Bool.not_false, if_true, Except.error.injEq, ne_eq, h1, not_true, not_false_eq_true, true_and, false_and, or_false,
      false_or, Bool.false_eq_true]
    exact eq_comm
  simp only [Bool.not_true, Bool.false_eq_true, if_false, ne_eq, h1, not_true, not_false_eq_true, true_and, false_and, false_or]
  cases h3 : w.bank.sendAll sender ch.contract funds with
  | error e' =>
    simp only [Except.error_bind', Bank.sendAll_error h3, Except.error.injEq, reduceCtorEq, exists_false, not_false_eq_true, true_and,
      false_and, or_false]
    exact eq_comm
  | ok bank =>
    simp only [Except.ok_bind', Except.ok.injEq, exists_eq', not_true, true_and, false_and, false_or, execute_auth, or_false]
    cases hx : authDispatch (ch.env time) ⟨sender, funds⟩ m w.store with
    | ok resp s' =>
      have hmay := authDispatch_iff.1 ⟨resp, s', hx⟩
      have h4 : MayCall (roles w.store) sender m := hmay.1
      have h5 : Sensible ch.addrValid sender m := hmay.2
      have hm : resp.msgs = [] := (authDispatch_ok hx).2.1
      rw [runTx_ok hx (by rw [hm]; rfl)]
      simp [h4, h5]
    | err e' s' =>
      rw [runTx_err hx]
      rcases authDispatch_err hx with ⟨h4, rfl⟩ | ⟨h4, h5, rfl⟩
      · have h4 : ¬ MayCall (roles w.store) sender m := h4
        simp only [h4, not_false_eq_true, true_and, false_and, or_false, Except.error.injEq]
        exact eq_comm
      · have h4 : MayCall (roles w.store) sender m := h4
        have h5 : ¬ Sensible ch.addrValid sender m := h5
        simp only [h4, h5, not_true, not_false_eq_true, true_and, false_and, or_false, false_or, Except.error.injEq]
        exact eq_comm

/-- C59 (governance calls): handing over or removing the admin and (de)activating the book by governance are rejected exactly if the book
is inactive or, for a hand-over, the address is invalid, with these reasons. -/
theorem C59_gov_errors (ch : Chain) (w : World) (time : Nat) (m : SudoMsg) {argument : Bool} (hm : GovCall ch.addrValid m = some argument) (e : Err) :
    step ch w (.sudo time m) = .error e ↔ Fails [(isActive w.store = true, .inactive), (argument = true, .std)] e := by
  have hd : m.deposit = none := by cases m <;> simp [GovCall] at hm <;> rfl
  have hw : m.wellTyped = true := by cases m <;> simp [GovCall] at hm <;> rfl
  have hstep : step ch w (.sudo time m) = runTx ch w w.bank («sudo» (ch.env time) m) := by simp [step, hd, hw]
  rw [hstep]
  simp only [Fails]
  cases ha : isActive w.store with
  | false =>
    have hx : «sudo» (ch.env time) m w.store = .err .inactive w.store := by
      unfold «sudo» ensureIsActive
      simp only [EM.get_bind, EM.bind_eq_err, ha, EM.ensure_eq_err]
      left; refine ⟨ha, ?_⟩; simp
    rw [runTx_err hx]
    simp only [Bool.false_eq_true, not_false_eq_true, true_and, false_and, or_false, Except.error.injEq]
    exact eq_comm
  | true =>
    have hu : ensureIsActive w.store = .ok () w.store := by
      unfold ensureIsActive
      have ha' : w.store.isActive.getD true = true := ha
      simp only [EM.get_bind, ha']
      rfl
    unfold «sudo»
    simp only [not_true, true_and, false_and, false_or, or_false]
    cases m with
    | transferAdmin a =>
      obtain rfl : ch.addrValid a = argument := by simpa [GovCall] using hm
      cases hv : ch.addrValid a with
      | false =>
        rw [runTx_err (e := .std) (s := w.store)]
        · simp only [Bool.false_eq_true, not_false_eq_true, true_and, Except.error.injEq, and_self, or_false]
          exact eq_comm
        · rw [EM.bind_ok_of hu]
          unfold updateAdmin
          have : (ch.env time).addrValid a = false := hv
          simp only [EM.bind_eq_err, EM.ensure_eq_err, this]
          left; left; simp
      | true =>
        rw [runTx_ok (resp := { events := [.method "sudo_transfer_admin" [("new_admin", .str a)]] }) (s := { w.store with admin := some a }) (bank2 := w.bank)]
        · simp
        · rw [EM.bind_ok_of hu]
          unfold updateAdmin
          have : (ch.env time).addrValid a = true := hv
          show (EM.ensure ((ch.env time).addrValid a) .std >>= _ >>= _) w.store = _
          rw [this]; rfl
        · rfl
    | removeAdmin =>
      obtain rfl : argument = true := by simpa [GovCall] using hm.symm
      rw [runTx_ok (resp := { events := [.method "sudo_remove_admin" []] }) (s := { w.store with admin := none }) (bank2 := w.bank)]
      · simp
      · rw [EM.bind_ok_of hu]; rfl
      · rfl
    | setActive x =>
      obtain rfl : argument = true := by simpa [GovCall] using hm.symm
      rw [runTx_ok (resp := { events := [.method "set_active" [("active", .bool x)]] }) (s := { w.store with isActive := some x }) (bank2 := w.bank)]
      · simp
      · rw [EM.bind_ok_of hu]; rfl
      · rfl
    | _ => simp [GovCall] at hm

/-- Non-vacuity: in the demo, alice may not set the fee; governance's own fee of 6% and an invalid recipient are refused, 5% is not; an
inactive book refuses governance calls. -/
example :
    (match step Demo.ch Demo.after (.execute "alice" [] 0 (.auth (.setMakerFee 0))) with | .error e => some e | .ok _ => none) = some .unauthorized ∧
    (match step Demo.ch Demo.after (.execute Demo.gov [] 0 (.auth (.setMakerFee (6 * 10 ^ 16)))) with | .error e => some e | .ok _ => none) = some .invalidMakerFee ∧
    (match step Demo.ch Demo.after (.execute Demo.gov [] 0 (.auth (.setMakerFee (5 * 10 ^ 16)))) with | .error e => some e | .ok _ => none) = none ∧
    (match step Demo.ch Demo.after (.sudo 0 (.transferAdmin "bob")) with | .error e => some e | .ok _ => none) = none ∧
    (match step Demo.ch (apply Demo.ch Demo.after (.sudo 0 (.setActive false))) (.sudo 0 (.transferAdmin "bob")) with
      | .error e => some e | .ok _ => none) = some .inactive := by decide +kernel

end OB
