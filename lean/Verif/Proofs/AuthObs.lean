import Verif.SpecAuth
import Verif.Proofs.ClaimObs
import Verif.Proofs.SwapObs
/- Configuration messages against the reference state machine. -/
namespace OB
open Spec

theorem authDispatch_iff {env : Env} {info : MessageInfo} {msg : AuthMsg} {s : Store} :
    (∃ resp s', authDispatch env info msg s = .ok resp s') ↔ MayCall (roles s) info.sender msg ∧ Sensible env.addrValid info.sender msg := by
  cases msg <;>
    simp only [authDispatch, ensureIsAdmin, ensureIsAdminOrModerator, offerAdmin, removeAdminTransfer, updateAdmin, removeAdmin,
      offerModerator, removeModeratorOffer, updateModerator, setActive, setMakerFee, setMakerFeeRecipient,
      EM.bind_eq_ok, EM.get_eq_ok, EM.ensure_eq_ok, EM.modify_eq_ok, EM.pure_eq_ok, MayCall, Sensible, roles, authQuery, decide_eq_true_eq]
  case transferAdmin =>
    constructor
    · rintro ⟨_, _, _, _, ⟨_, _, ⟨rfl, rfl⟩, h, rfl⟩, _, _, ⟨_, _, ⟨h2, rfl⟩, rfl⟩, rfl, rfl⟩; exact ⟨h, h2⟩
    · rintro ⟨h, h2⟩; exact ⟨_, _, (), _, ⟨_, _, ⟨rfl, rfl⟩, h, rfl⟩, (), _, ⟨(), _, ⟨h2, rfl⟩, rfl⟩, rfl, rfl⟩
  case offerModerator =>
    constructor
    · rintro ⟨_, _, _, _, ⟨_, _, ⟨rfl, rfl⟩, h, rfl⟩, _, _, ⟨_, _, ⟨h2, rfl⟩, rfl⟩, rfl, rfl⟩; exact ⟨h, h2⟩
    · rintro ⟨h, h2⟩; exact ⟨_, _, (), _, ⟨_, _, ⟨rfl, rfl⟩, h, rfl⟩, (), _, ⟨(), _, ⟨h2, rfl⟩, rfl⟩, rfl, rfl⟩
  case setMakerFeeRecipient =>
    constructor
    · rintro ⟨_, _, _, _, ⟨_, _, ⟨rfl, rfl⟩, h, rfl⟩, _, _, ⟨_, _, ⟨h2, rfl⟩, rfl⟩, rfl, rfl⟩; exact ⟨h, h2⟩
    · rintro ⟨h, h2⟩; exact ⟨_, _, (), _, ⟨_, _, ⟨rfl, rfl⟩, h, rfl⟩, (), _, ⟨(), _, ⟨h2, rfl⟩, rfl⟩, rfl, rfl⟩
  case cancelAdminTransfer =>
    constructor
    · rintro ⟨_, _, _, _, ⟨_, _, ⟨rfl, rfl⟩, h, rfl⟩, _, _, rfl, rfl, rfl⟩; exact ⟨h, trivial⟩
    · rintro ⟨h, -⟩; exact ⟨_, _, (), _, ⟨_, _, ⟨rfl, rfl⟩, h, rfl⟩, (), _, rfl, rfl, rfl⟩
  case renounceAdminship =>
    constructor
    · rintro ⟨_, _, _, _, ⟨_, _, ⟨rfl, rfl⟩, h, rfl⟩, _, _, rfl, rfl, rfl⟩; exact ⟨h, trivial⟩
    · rintro ⟨h, -⟩; exact ⟨_, _, (), _, ⟨_, _, ⟨rfl, rfl⟩, h, rfl⟩, (), _, rfl, rfl, rfl⟩
  case rejectAdminTransfer =>
    constructor
    · rintro ⟨_, _, _, _, ⟨rfl, rfl⟩, _, _, ⟨h, rfl⟩, _, _, rfl, rfl, rfl⟩; exact ⟨h.symm, trivial⟩
    · rintro ⟨h, -⟩; exact ⟨_, _, _, _, ⟨rfl, rfl⟩, (), _, ⟨h.symm, rfl⟩, (), _, rfl, rfl, rfl⟩
  case rejectModeratorOffer =>
    constructor
    · rintro ⟨_, _, _, _, ⟨rfl, rfl⟩, _, _, ⟨h, rfl⟩, _, _, rfl, rfl, rfl⟩; exact ⟨h.symm, trivial⟩
    · rintro ⟨h, -⟩; exact ⟨_, _, _, _, ⟨rfl, rfl⟩, (), _, ⟨h.symm, rfl⟩, (), _, rfl, rfl, rfl⟩
  case claimAdmin =>
    constructor
    · rintro ⟨_, _, _, _, ⟨rfl, rfl⟩, _, _, ⟨h, rfl⟩, _, _, ⟨_, _, ⟨h2, rfl⟩, rfl⟩, _, _, rfl, rfl, rfl⟩; exact ⟨h.symm, h2⟩
    · rintro ⟨h, h2⟩; exact ⟨_, _, _, _, ⟨rfl, rfl⟩, (), _, ⟨h.symm, rfl⟩, (), _, ⟨(), _, ⟨h2, rfl⟩, rfl⟩, (), _, rfl, rfl, rfl⟩
  case claimModerator =>
    constructor
    · rintro ⟨_, _, _, _, ⟨rfl, rfl⟩, _, _, ⟨h, rfl⟩, _, _, ⟨_, _, ⟨h2, rfl⟩, rfl⟩, _, _, rfl, rfl, rfl⟩; exact ⟨h.symm, h2⟩
    · rintro ⟨h, h2⟩; exact ⟨_, _, _, _, ⟨rfl, rfl⟩, (), _, ⟨h.symm, rfl⟩, (), _, ⟨(), _, ⟨h2, rfl⟩, rfl⟩, (), _, rfl, rfl, rfl⟩
  case setActive =>
    constructor
    · rintro ⟨_, _, _, _, ⟨_, _, ⟨rfl, rfl⟩, h, rfl⟩, _, _, rfl, rfl, rfl⟩; exact ⟨h.symm, trivial⟩
    · rintro ⟨h, -⟩; exact ⟨_, _, (), _, ⟨_, _, ⟨rfl, rfl⟩, h.symm, rfl⟩, (), _, rfl, rfl, rfl⟩
  case setMakerFee =>
    have e : MAX_MAKER_FEE_PERCENTAGE = 5 * 10 ^ 16 := by decide
    rw [← e]
    constructor
    · rintro ⟨_, _, _, _, ⟨_, _, ⟨rfl, rfl⟩, h, rfl⟩, _, _, ⟨_, _, ⟨h2, rfl⟩, _, _, rfl, rfl, rfl⟩, rfl, rfl⟩; exact ⟨h, h2⟩
    · rintro ⟨h, h2⟩; exact ⟨_, _, (), _, ⟨_, _, ⟨rfl, rfl⟩, h, rfl⟩, _, _, ⟨(), _, ⟨h2, rfl⟩, (), _, rfl, rfl, rfl⟩, rfl, rfl⟩

theorem authDispatch_roles {env : Env} {info : MessageInfo} {msg : AuthMsg} {s s' : Store} {resp : Response}
    (hok : authDispatch env info msg s = .ok resp s') : roles s' = rolesAfter (roles s) info.sender msg := by
  cases msg <;>
    simp only [authDispatch, ensureIsAdmin, ensureIsAdminOrModerator, offerAdmin, removeAdminTransfer, updateAdmin, removeAdmin,
      offerModerator, removeModeratorOffer, updateModerator, setActive, setMakerFee, setMakerFeeRecipient,
      EM.bind_eq_ok, EM.get_eq_ok, EM.ensure_eq_ok, EM.modify_eq_ok, EM.pure_eq_ok] at hok
  case transferAdmin => obtain ⟨_, _, ⟨_, _, ⟨rfl, rfl⟩, -, rfl⟩, _, _, ⟨_, _, ⟨-, rfl⟩, rfl⟩, rfl, rfl⟩ := hok; rfl
  case cancelAdminTransfer => obtain ⟨_, _, ⟨_, _, ⟨rfl, rfl⟩, -, rfl⟩, _, _, rfl, rfl, rfl⟩ := hok; rfl
  case rejectAdminTransfer => obtain ⟨_, _, ⟨rfl, rfl⟩, _, _, ⟨-, rfl⟩, _, _, rfl, rfl, rfl⟩ := hok; rfl
  case claimAdmin => obtain ⟨_, _, ⟨rfl, rfl⟩, _, _, ⟨-, rfl⟩, _, _, ⟨_, _, ⟨-, rfl⟩, rfl⟩, _, _, rfl, rfl, rfl⟩ := hok; rfl
  case renounceAdminship => obtain ⟨_, _, ⟨_, _, ⟨rfl, rfl⟩, -, rfl⟩, _, _, rfl, rfl, rfl⟩ := hok; rfl
  case offerModerator => obtain ⟨_, _, ⟨_, _, ⟨rfl, rfl⟩, -, rfl⟩, _, _, ⟨_, _, ⟨-, rfl⟩, rfl⟩, rfl, rfl⟩ := hok; rfl
  case rejectModeratorOffer => obtain ⟨_, _, ⟨rfl, rfl⟩, _, _, ⟨-, rfl⟩, _, _, rfl, rfl, rfl⟩ := hok; rfl
  case claimModerator => obtain ⟨_, _, ⟨rfl, rfl⟩, _, _, ⟨-, rfl⟩, _, _, ⟨_, _, ⟨-, rfl⟩, rfl⟩, _, _, rfl, rfl, rfl⟩ := hok; rfl
  case setActive => obtain ⟨_, _, ⟨_, _, ⟨rfl, rfl⟩, -, rfl⟩, _, _, rfl, rfl, rfl⟩ := hok; rfl
  case setMakerFee => obtain ⟨_, _, ⟨_, _, ⟨rfl, rfl⟩, -, rfl⟩, _, _, ⟨_, _, ⟨hf, rfl⟩, _, _, rfl, rfl, rfl⟩, rfl, rfl⟩ := hok; rfl
  case setMakerFeeRecipient => obtain ⟨_, _, ⟨_, _, ⟨rfl, rfl⟩, -, rfl⟩, _, _, ⟨_, _, ⟨-, rfl⟩, rfl⟩, rfl, rfl⟩ := hok; rfl

theorem execute_auth (env : Env) (info : MessageInfo) (m : AuthMsg) : execute env info (.auth m) = authDispatch env info m := rfl

theorem SameConf.roles {s s' : Store} (h : SameConf s s') : Spec.roles s' = Spec.roles s := by
  unfold Spec.roles authQuery isActive getMakerFee
  simp only [h.2, h.3, h.4, h.5, h.6, h.7, h.8]

/-- The configuration changes only by configuration messages. -/
theorem StoreStep.roles {ch : Chain} {op : Op} {s s' : Store} {b b' : Book} {resp : Response} (h : StoreStep ch op s b resp s' b')
    (hop : op.isConfig = false) : Spec.roles s' = Spec.roles s := by
  cases h with
  | place => rfl
  | cancel _ _ _ _ _ h => exact (h.conf.roles : _)
  | claim _ _ _ h => exact h.conf.roles
  | batch _ _ _ h => exact h.conf.roles
  | swap => rfl
  | config h => rw [hop] at h; simp at h

theorem step_sudo_none {ch : Chain} {w w' : World} {time : Nat} {msg : SudoMsg} {resp : Response} (hd : msg.deposit = none) :
    step ch w (.sudo time msg) = .ok (w', resp) ↔ msg.wellTyped = true ∧ «sudo» (ch.env time) msg w.store = .ok resp w'.store ∧
      w.bank.dispatch ch.contract resp.msgs = .ok w'.bank := by
  simp only [step, hd]
  by_cases hw : msg.wellTyped = true
  · simp only [hw, Bool.not_true, Bool.false_eq_true, if_false, runTx_eq_ok, true_and]
  · simp [hw]

/-- The store after a transfer, mint or migration. -/
theorem step_other_store {ch : Chain} {w w' : World} {op : Op} {resp : Response} (hs : step ch w op = .ok (w', resp))
    (hop : op = .migrate ∨ (∃ src dst c, op = .transfer src dst c) ∨ (∃ dst c, op = .mint dst c)) : w'.store = w.store ∧ resp = {} := by
  rcases hop with rfl | ⟨src, dst, c, rfl⟩ | ⟨dst, c, rfl⟩
  · simp only [step, runTx_eq_ok] at hs
    have := hs.1
    unfold migrate at this
    rw [EM.pure_eq_ok] at this
    exact ⟨this.2, this.1⟩
  · simp only [step] at hs
    split at hs
    · simp at hs
    · rw [Except.bind_eq_ok'] at hs
      obtain ⟨bank, -, h2⟩ := hs
      simp only [Except.pure_eq', Except.ok.injEq, Prod.mk.injEq] at h2
      obtain ⟨rfl, rfl⟩ := h2
      exact ⟨rfl, rfl⟩
  · simp only [step, Except.ok.injEq, Prod.mk.injEq] at hs
    obtain ⟨rfl, rfl⟩ := hs
    exact ⟨rfl, rfl⟩

theorem sudo_eq_ok_active {env : Env} {msg : SudoMsg} {s s' : Store} {resp : Response} (hok : «sudo» env msg s = .ok resp s') :
    isActive s = true := by
  unfold «sudo» at hok
  rw [EM.bind_eq_ok] at hok
  obtain ⟨u, s1, h1, hok⟩ := hok
  exact (ensureIsActive_eq_ok.1 h1).1

theorem sudo_roles {env : Env} {msg : SudoMsg} {s s' : Store} {resp : Response} (hd : msg.deposit = none)
    (hok : «sudo» env msg s = .ok resp s') (time : Nat) : roles s' = rolesOp (roles s) (.sudo time msg) ∧ SameBook s s' := by
  unfold «sudo» at hok
  rw [EM.bind_eq_ok] at hok
  obtain ⟨u, s1, h1, hok⟩ := hok
  obtain ⟨ha, rfl⟩ := ensureIsActive_eq_ok.1 h1
  cases msg with
  | swapExactAmountIn => simp [SudoMsg.deposit] at hd
  | swapToTick => simp [SudoMsg.deposit] at hd
  | swapExactAmountOut => simp at hok
  | transferAdmin a =>
    simp only [updateAdmin, EM.bind_eq_ok, EM.ensure_eq_ok, EM.modify_eq_ok, EM.pure_eq_ok] at hok
    obtain ⟨_, _, ⟨_, _, ⟨-, rfl⟩, rfl⟩, rfl, rfl⟩ := hok
    exact ⟨rfl, rfl, rfl, rfl, rfl, rfl, rfl⟩
  | removeAdmin =>
    simp only [removeAdmin, EM.bind_eq_ok, EM.modify_eq_ok, EM.pure_eq_ok] at hok
    obtain ⟨_, _, rfl, rfl, rfl⟩ := hok
    exact ⟨rfl, rfl, rfl, rfl, rfl, rfl, rfl⟩
  | setActive a =>
    simp only [setActive, EM.bind_eq_ok, EM.modify_eq_ok, EM.pure_eq_ok] at hok
    obtain ⟨_, _, rfl, rfl, rfl⟩ := hok
    exact ⟨rfl, rfl, rfl, rfl, rfl, rfl, rfl⟩

/-- Every accepted operation follows the reference state machine. -/
theorem step_roles {ch : Chain} {w w' : World} {op : Op} {resp : Response} (hw : Reachable ch w) (hs : step ch w op = .ok (w', resp)) :
    roles w'.store = rolesOp (roles w.store) op := by
  obtain ⟨n, hn⟩ := hw
  obtain ⟨b, h⟩ := hn.traced
  have hst := h.step hs
  cases op with
  | execute a funds time msg =>
    cases msg with
    | auth m =>
      obtain ⟨-, -, bank, -, h2, -⟩ := step_execute_ok.1 hs
      rw [execute_auth] at h2
      exact authDispatch_roles h2
    | placeLimit => exact hst.roles rfl
    | cancelLimit => exact hst.roles rfl
    | claimLimit => exact hst.roles rfl
    | batchClaim => exact hst.roles rfl
  | «sudo» time msg =>
    cases hd : msg.deposit with
    | none => exact (sudo_roles hd ((step_sudo_none hd).1 hs).2.1 time).1
    | some x =>
      cases msg with
      | swapExactAmountIn => exact hst.roles rfl
      | swapToTick => exact hst.roles rfl
      | swapExactAmountOut => simp [SudoMsg.deposit] at hd
      | transferAdmin a => simp [SudoMsg.deposit] at hd
      | removeAdmin => simp [SudoMsg.deposit] at hd
      | setActive a => simp [SudoMsg.deposit] at hd
  | migrate => rw [(step_other_store hs (Or.inl rfl)).1]; rfl
  | transfer src dst c => rw [(step_other_store hs (Or.inr (Or.inl ⟨_, _, _, rfl⟩))).1]; rfl
  | mint dst c => rw [(step_other_store hs (Or.inr (Or.inr ⟨_, _, rfl⟩))).1]; rfl

theorem Reachable.step {ch : Chain} {w w' : World} {op : Op} {resp : Response} (hw : Reachable ch w) (hs : step ch w op = .ok (w', resp)) :
    Reachable ch w' := by
  obtain ⟨n, hn⟩ := hw
  obtain ⟨b, h⟩ := hn.traced
  exact ⟨_, (Traced.ok h hs).reachable⟩

theorem Reachable.run {ch : Chain} {w : World} (hw : Reachable ch w) (ops : List Op) : Reachable ch (OB.run ch w ops) := by
  obtain ⟨n, w0, pre, h1, h2, rfl⟩ := hw
  exact ⟨_, w0, pre ++ ops, h1, rfl, by unfold OB.run; rw [List.foldl_append]⟩

theorem Initial.reachable {ch : Chain} {w : World} (h : Initial ch w) : Reachable ch w := ⟨0, w, [], h, rfl, rfl⟩

theorem run_concat (ch : Chain) (w : World) (ops : List Op) (op : Op) : run ch w (ops ++ [op]) = apply ch (run ch w ops) op := by
  unfold run; rw [List.foldl_append]; rfl

theorem run_append (ch : Chain) (w : World) (a b : List Op) : run ch w (a ++ b) = run ch (run ch w a) b := by
  unfold run; rw [List.foldl_append]

theorem EM.bind_eq_err {σ α β : Type} {x : EM σ α} {f : α → EM σ β} {s s' : σ} {e : Err} :
    (x >>= f) s = .err e s' ↔ x s = .err e s' ∨ ∃ a s1, x s = .ok a s1 ∧ f a s1 = .err e s' := by
  cases h : x s with
  | ok a s1 => rw [EM.bind_ok_of h]; simp
  | err e' s1 => rw [EM.bind_err_of h]; simp

theorem EM.ensure_eq_err {σ : Type} {c : Bool} {e e' : Err} {s s' : σ} :
    (EM.ensure c e : EM σ Unit) s = .err e' s' ↔ c = false ∧ e' = e ∧ s' = s := by
  cases c <;> simp [EM.ensure, eq_comm]

theorem EM.lift_eq_err {σ α : Type} {x : Except Err α} {e : Err} {s s' : σ} :
    (EM.lift x : EM σ α) s = .err e s' ↔ x = .error e ∧ s' = s := by
  cases x <;> simp [EM.lift, eq_comm]

theorem Bank.send_error {b : Bank} {src dst : Addr} {c : Coin} {e : Err} (h : b.send src dst c = .error e) : e = .bank := by
  unfold Bank.send at h
  split at h
  · simpa using h.symm
  · split at h
    · simpa using h.symm
    · simp at h

theorem Bank.sendAll_error {b : Bank} {src dst : Addr} {cs : List Coin} {e : Err} (h : b.sendAll src dst cs = .error e) : e = .bank := by
  induction cs generalizing b with
  | nil => simp [Bank.sendAll] at h
  | cons c cs ih =>
    unfold Bank.sendAll at h
    cases h1 : b.send src dst c with
    | ok b1 => rw [h1, Except.ok_bind'] at h; exact ih h
    | error e' => rw [h1, Except.error_bind'] at h; simp only [Except.error.injEq] at h; subst h; exact Bank.send_error h1

theorem Bank.dispatch_error {b : Bank} {src : Addr} {ms : List SendMsg} {e : Err} (h : b.dispatch src ms = .error e) :
    ∃ id, e = .replyError id := by
  induction ms generalizing b with
  | nil => simp [Bank.dispatch] at h
  | cons m ms ih =>
    unfold Bank.dispatch at h
    split at h
    · exact ih h
    · simp only [Except.error.injEq] at h; exact ⟨_, h.symm⟩

/-- Why a call of the contract can fail. -/
theorem step_execute_error {ch : Chain} {w : World} {a : Addr} {funds : List Coin} {time : Nat} {msg : ExecuteMsg} {e : Err}
    (h : step ch w (.execute a funds time msg) = .error e) :
    (a = ch.contract ∧ e = .std) ∨ (msg.wellTyped = false ∧ e = .decode) ∨ (funds ≠ [] ∧ e = .bank) ∨
    (∃ s', execute (ch.env time) ⟨a, funds⟩ msg w.store = .err e s') ∨
    ∃ id, e = .replyError id ∧ ∃ resp s', execute (ch.env time) ⟨a, funds⟩ msg w.store = .ok resp s' := by
  simp only [step] at h
  split at h
  · simp only [Except.error.injEq] at h; exact Or.inl ⟨‹_›, h.symm⟩
  split at h
  · rename_i hw
    simp only [Except.error.injEq] at h; exact Or.inr (Or.inl ⟨by simpa using hw, h.symm⟩)
  right; right
  cases hb : w.bank.sendAll a ch.contract funds with
  | error e' =>
    rw [hb, Except.error_bind'] at h
    simp only [Except.error.injEq] at h; subst h
    refine Or.inl ⟨?_, Bank.sendAll_error hb⟩
    rintro rfl
    simp [Bank.sendAll] at hb
  | ok bank =>
    rw [hb, Except.ok_bind'] at h
    rw [runTx_dispatch] at h
    split at h
    · simp only [Except.error.injEq] at h; subst h
      exact Or.inr (Or.inl ⟨_, by assumption⟩)
    · rename_i resp s' hx
      split at h
      · simp only [Except.error.injEq] at h; subst h
        obtain ⟨id, hid⟩ := Bank.dispatch_error (by assumption)
        exact Or.inr (Or.inr ⟨id, hid, resp, s', hx⟩)
      · simp at h

theorem execute_error {env : Env} {info : MessageInfo} {msg : ExecuteMsg} {s s' : Store} {e : Err}
    (h : execute env info msg s = .err e s') : e = .inactive ∨ isActive s = true ∨ ∃ m, msg = .auth m := by
  cases msg with
  | auth m => exact Or.inr (Or.inr ⟨m, rfl⟩)
  | _ =>
    cases ha : isActive s with
    | true => simp
    | false =>
      left
      unfold execute at h
      rw [EM.bind_eq_err] at h
      rcases h with h | ⟨_, _, h, -⟩
      · change ensureIsActive s = _ at h
        unfold ensureIsActive at h
        rw [EM.get_bind, EM.ensure_eq_err] at h
        exact h.2.1
      · have := (ensureIsActive_eq_ok.1 h).1
        rw [ha] at this; simp at this

end OB
