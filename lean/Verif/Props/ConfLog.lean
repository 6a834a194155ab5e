import Verif.SpecConf
import Verif.Props.Log
import Verif.Props.Auth
/- C61: the events are a complete record of the configuration. -/
namespace OB
open Spec

theorem authDispatch_note {env : Env} {info : MessageInfo} {msg : AuthMsg} {s s' : Store} {resp : Response}
    (hok : authDispatch env info msg s = .ok resp s') : resp.events.foldl Roles.note (roles s) = roles s' := by
  cases msg <;>
    simp only [authDispatch, ensureIsAdmin, ensureIsAdminOrModerator, offerAdmin, removeAdminTransfer, updateAdmin, removeAdmin,
      offerModerator, removeModeratorOffer, updateModerator, setActive, setMakerFee, setMakerFeeRecipient,
      EM.bind_eq_ok, EM.get_eq_ok, EM.ensure_eq_ok, EM.modify_eq_ok, EM.pure_eq_ok, decide_eq_true_eq] at hok
  case transferAdmin => obtain ⟨_, _, ⟨_, _, ⟨rfl, rfl⟩, -, rfl⟩, _, _, ⟨_, _, ⟨-, rfl⟩, rfl⟩, rfl, rfl⟩ := hok; rfl
  case cancelAdminTransfer => obtain ⟨_, _, ⟨_, _, ⟨rfl, rfl⟩, -, rfl⟩, _, _, rfl, rfl, rfl⟩ := hok; rfl
  case rejectAdminTransfer => obtain ⟨_, _, ⟨rfl, rfl⟩, _, _, ⟨-, rfl⟩, _, _, rfl, rfl, rfl⟩ := hok; rfl
  case claimAdmin =>
    obtain ⟨x, _, ⟨rfl, rfl⟩, _, _, ⟨h, rfl⟩, _, _, ⟨_, _, ⟨-, rfl⟩, rfl⟩, _, _, rfl, rfl, rfl⟩ := hok
    simp only [List.foldl_cons, List.foldl_nil, Roles.note, roles, authQuery, ← h]; rfl
  case renounceAdminship => obtain ⟨_, _, ⟨_, _, ⟨rfl, rfl⟩, -, rfl⟩, _, _, rfl, rfl, rfl⟩ := hok; rfl
  case offerModerator => obtain ⟨_, _, ⟨_, _, ⟨rfl, rfl⟩, -, rfl⟩, _, _, ⟨_, _, ⟨-, rfl⟩, rfl⟩, rfl, rfl⟩ := hok; rfl
  case rejectModeratorOffer => obtain ⟨_, _, ⟨rfl, rfl⟩, _, _, ⟨-, rfl⟩, _, _, rfl, rfl, rfl⟩ := hok; rfl
  case claimModerator =>
    obtain ⟨x, _, ⟨rfl, rfl⟩, _, _, ⟨h, rfl⟩, _, _, ⟨_, _, ⟨-, rfl⟩, rfl⟩, _, _, rfl, rfl, rfl⟩ := hok
    simp only [List.foldl_cons, List.foldl_nil, Roles.note, roles, authQuery, ← h]; rfl
  case setActive => obtain ⟨_, _, ⟨_, _, ⟨rfl, rfl⟩, -, rfl⟩, _, _, rfl, rfl, rfl⟩ := hok; rfl
  case setMakerFee => obtain ⟨_, _, ⟨_, _, ⟨rfl, rfl⟩, -, rfl⟩, _, _, ⟨_, _, ⟨hf, rfl⟩, _, _, rfl, rfl, rfl⟩, rfl, rfl⟩ := hok; rfl
  case setMakerFeeRecipient => obtain ⟨_, _, ⟨_, _, ⟨rfl, rfl⟩, -, rfl⟩, _, _, ⟨_, _, ⟨-, rfl⟩, rfl⟩, rfl, rfl⟩ := hok; rfl

theorem sudo_note {env : Env} {msg : SudoMsg} {s s' : Store} {resp : Response} (hd : msg.deposit = none)
    (hok : «sudo» env msg s = .ok resp s') : resp.events.foldl Roles.note (roles s) = roles s' := by
  unfold «sudo» at hok
  rw [EM.bind_eq_ok] at hok
  obtain ⟨u, s1, h1, hok⟩ := hok
  obtain ⟨ha, rfl⟩ := ensureIsActive_eq_ok.1 h1
  cases msg with
  | swapExactAmountIn => simp [SudoMsg.deposit] at hd
  | swapToTick => simp [SudoMsg.deposit] at hd
  | swapExactAmountOut => simp at hok
  | transferAdmin a =>
    simp only [updateAdmin, EM.bind_eq_ok, EM.ensure_eq_ok, EM.modify_eq_ok, EM.pure_eq_ok] at hok
    obtain ⟨_, _, ⟨_, _, ⟨-, rfl⟩, rfl⟩, rfl, rfl⟩ := hok; rfl
  | removeAdmin =>
    simp only [removeAdmin, EM.bind_eq_ok, EM.modify_eq_ok, EM.pure_eq_ok] at hok
    obtain ⟨_, _, rfl, rfl, rfl⟩ := hok; rfl
  | setActive a =>
    simp only [setActive, EM.bind_eq_ok, EM.modify_eq_ok, EM.pure_eq_ok] at hok
    obtain ⟨_, _, rfl, rfl, rfl⟩ := hok; rfl

theorem ClaimRun.note_roles {sender : Addr} {ob : Orderbook} {l : List (Int × Nat)} {s s' : Store} {b b' : Book} {ms : List SendMsg}
    {es : List Event} (h : ClaimRun sender ob l s b ms es s' b') (c : Roles) : es.foldl Roles.note c = c := by
  induction h with
  | nil => rfl
  | ok _ h _ ih => exact ih
  | skip _ h _ ih => exact ih

/-- Operations that are not configuration messages announce nothing about the configuration. -/
theorem StoreStep.note_roles {ch : Chain} {op : Op} {s s' : Store} {b b' : Book} {resp : Response} (h : StoreStep ch op s b resp s' b')
    (hop : op.isConfig = false) : resp.events.foldl Roles.note (Spec.roles s) = Spec.roles s' := by
  rw [h.roles hop]
  cases h with
  | place => rfl
  | cancel => rfl
  | claim => rfl
  | batch _ _ _ h => exact h.note_roles _
  | swap => rfl
  | config h => rw [hop] at h; simp at h

/-- One accepted operation: its events tell exactly how the configuration changed. -/
theorem step_note {ch : Chain} {w w' : World} {op : Op} {resp : Response} (hw : Reachable ch w) (hs : step ch w op = .ok (w', resp)) :
    resp.events.foldl Roles.note (roles w.store) = roles w'.store := by
  obtain ⟨n, hn⟩ := hw
  obtain ⟨b, h⟩ := hn.traced
  have hst := h.step hs
  cases op with
  | execute a funds time msg =>
    cases msg with
    | auth m =>
      obtain ⟨-, -, bank, -, h2, -⟩ := step_execute_ok.1 hs
      rw [execute_auth] at h2
      exact authDispatch_note h2
    | placeLimit => exact hst.note_roles rfl
    | cancelLimit => exact hst.note_roles rfl
    | claimLimit => exact hst.note_roles rfl
    | batchClaim => exact hst.note_roles rfl
  | «sudo» time msg =>
    cases hd : msg.deposit with
    | none => exact sudo_note hd ((step_sudo_none hd).1 hs).2.1
    | some x =>
      cases msg with
      | swapExactAmountIn => exact hst.note_roles rfl
      | swapToTick => exact hst.note_roles rfl
      | swapExactAmountOut => simp [SudoMsg.deposit] at hd
      | transferAdmin a => simp [SudoMsg.deposit] at hd
      | removeAdmin => simp [SudoMsg.deposit] at hd
      | setActive a => simp [SudoMsg.deposit] at hd
  | migrate => obtain ⟨h1, rfl⟩ := step_other_store hs (Or.inl rfl); rw [h1]; rfl
  | transfer src dst c => obtain ⟨h1, rfl⟩ := step_other_store hs (Or.inr (Or.inl ⟨_, _, _, rfl⟩)); rw [h1]; rfl
  | mint dst c => obtain ⟨h1, rfl⟩ := step_other_store hs (Or.inr (Or.inr ⟨_, _, rfl⟩)); rw [h1]; rfl

theorem Reachable.note {ch : Chain} {w : World} (hw : Reachable ch w) (ops : List Op) :
    (log ch w ops).foldl Roles.note (roles w.store) = roles (OB.run ch w ops).store := by
  induction ops generalizing w with
  | nil => rfl
  | cons op ops ih =>
    have hrun : OB.run ch w (op :: ops) = OB.run ch (OB.apply ch w op) ops := rfl
    rw [hrun]
    unfold log
    cases hs : OB.step ch w op with
    | error e =>
      have : OB.apply ch w op = w := by unfold OB.apply; rw [hs]
      rw [this]
      exact ih hw
    | ok r =>
      obtain ⟨w', resp⟩ := r
      have : OB.apply ch w op = w' := by unfold OB.apply; rw [hs]
      rw [this]
      simp only [List.foldl_append]
      rw [step_note hw hs]
      exact ih (hw.step hs)

/-- C61: a client that only reads the events of accepted transactions knows at every moment exactly who is admin and moderator, which
offers are pending, whether the book is active, and the maker fee and its recipient, as the queries report them. It starts from the
fixed configuration of a fresh book. -/
theorem C61_replay {ch : Chain} {w0 : World} (hi : Initial ch w0) (ops : List Op) :
    roles (run ch w0 ops).store = (log ch w0 ops).foldl Roles.note
      ⟨some OSMOSIS_GOV_ADDR, none, some CIRCUIT_BREAKER_SUBDAO_ADDR, none, true, 0, some DEFAULT_MAKER_FEE_RECIPIENT⟩ := by
  rw [← hi.reachable.note ops, initial_roles hi]
  rfl

/-- C61: and an accepted operation that announces no change of the configuration changes nothing of it. -/
theorem C61_silent {ch : Chain} {w w' : World} {op : Op} {resp : Response} (hw : Reachable ch w) (hs : step ch w op = .ok (w', resp))
    (hq : ∀ e ∈ resp.events, ∀ name attrs, e ≠ .method name attrs) : roles w'.store = roles w.store := by
  rw [← step_note hw hs]
  generalize roles w.store = c
  generalize resp.events = es at hq
  induction es with
  | nil => rfl
  | cons e es ih =>
    have h1 : ∀ name attrs, e ≠ .method name attrs := hq e (by simp)
    have h2 : c.note e = c := by
      cases e with
      | method n a => exact absurd rfl (h1 n a)
      | _ => rfl
    rw [List.foldl_cons, h2]
    exact ih fun e' he => hq e' (by simp [he])

/-- C61: the event of an accepted instantiation names the pair the book trades, as the denoms query reports it. -/
theorem C61_pair {ch : Chain} {w : World} {time : Nat} {supply : Denom → Nat} {quote base : Denom} {resp : Response}
    (h : instantiate (ch.env time) supply quote base Store.empty = .ok resp w.store) :
    resp.events = [.method "instantiate" [("quote_denom", .str quote), ("base_denom", .str base)]] ∧
      answer w.store .denoms = some (.denoms quote base) := by
  simp only [instantiate, createOrderbook, saveOrderbook, setMakerFee, setMakerFeeRecipient,
    EM.bind_eq_ok, EM.ensure_eq_ok, EM.modify_eq_ok, EM.pure_eq_ok] at h
  obtain ⟨_, _, ⟨-, rfl⟩, _, _, rfl, _, _, ⟨-, rfl⟩, _, _, rfl, _, _, ⟨_, _, ⟨hne, rfl⟩, _, _, ⟨-, rfl⟩, _, _, ⟨-, rfl⟩, _, _, rfl,
    _, _, ⟨_, _, ⟨hfee, rfl⟩, _, _, rfl, -, rfl⟩, _, _, ⟨-, rfl⟩, rfl⟩, rfl, hs⟩ := h
  refine ⟨rfl, ?_⟩
  rw [hs]
  rfl

/-- C61 on a history in which an offered admin claims, a moderator is offered and trading is paused. -/
example :
    let ops : List Op := Demo.history ++ [.execute Demo.gov [] 0 (.auth (.transferAdmin "bob")), .execute "eve" [] 0 (.auth .claimAdmin),
      .execute "bob" [] 0 (.auth .claimAdmin), .execute "bob" [] 0 (.auth (.offerModerator "mod")),
      .execute "bob" [] 0 (.auth (.setActive false))]
    (log Demo.ch Demo.w0 ops).foldl Roles.note
      ⟨some OSMOSIS_GOV_ADDR, none, some CIRCUIT_BREAKER_SUBDAO_ADDR, none, true, 0, some DEFAULT_MAKER_FEE_RECIPIENT⟩ =
      ⟨some "bob", none, some CIRCUIT_BREAKER_SUBDAO_ADDR, some "mod", false, 2 * 10 ^ 16, some "fees"⟩ := by
  decide +kernel

end OB
