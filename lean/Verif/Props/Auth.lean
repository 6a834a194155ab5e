import Verif.Proofs.AuthObs
import Verif.Proofs.Demo
/- C36-C39: roles and configuration. -/
namespace OB
open Spec

/-- C36: a configuration message is accepted exactly if its sender has the role it needs, its arguments are acceptable and the sender can
pay the attached funds (`wellTyped`: a fee is a 256-bit number); in every world. -/
theorem C36_authority {ch : Chain} {w : World} {a : Addr} (ha : a ≠ ch.contract) {funds : List Coin} {time : Nat} {m : AuthMsg} (hm : m.wellTyped = true) :
    Accepted ch w (.execute a funds time (.auth m)) ↔
      MayCall (roles w.store) a m ∧ Sensible ch.addrValid a m ∧ ∃ bank, w.bank.sendAll a ch.contract funds = .ok bank := by
  constructor
  · rintro ⟨w', resp, hs⟩
    obtain ⟨-, -, bank, h1, h2, -⟩ := step_execute_ok.1 hs
    rw [execute_auth] at h2
    obtain ⟨h3, h4⟩ := authDispatch_iff.1 ⟨_, _, h2⟩
    exact ⟨h3, h4, bank, h1⟩
  · rintro ⟨h1, h2, bank, h3⟩
    obtain ⟨resp, s', h4⟩ := (authDispatch_iff (env := ch.env time) (info := ⟨a, funds⟩)).2 ⟨h1, h2⟩
    have h5 := (authDispatch_ok h4).2.1
    exact ⟨⟨s', bank⟩, resp, step_execute_ok.2 ⟨ha, hm, bank, h3, h4, by rw [h5]; rfl⟩⟩

/-- C36: nobody else gets anywhere. -/
theorem C36_unauthorized {ch : Chain} {w : World} {a : Addr} {funds : List Coin} {time : Nat} {m : AuthMsg} (h : ¬ MayCall (roles w.store) a m) :
    Rejected ch w (.execute a funds time (.auth m)) := by
  refine rejected_of fun w' resp hs => h ?_
  obtain ⟨-, -, bank, h1, h2, -⟩ := step_execute_ok.1 hs
  rw [execute_auth] at h2
  exact (authDispatch_iff.1 ⟨_, _, h2⟩).1

/-- C36: what an accepted configuration message does; it never touches orders or ticks and never sends money. -/
theorem C36_effect {ch : Chain} {w w' : World} {a : Addr} {funds : List Coin} {time : Nat} {m : AuthMsg} {resp : Response}
    (hs : step ch w (.execute a funds time (.auth m)) = .ok (w', resp)) :
    roles w'.store = rolesAfter (roles w.store) a m ∧ SameBook w.store w'.store ∧ resp.msgs = [] := by
  obtain ⟨-, -, bank, h1, h2, -⟩ := step_execute_ok.1 hs
  rw [execute_auth] at h2
  obtain ⟨⟨⟨c1, c2, c3, c4, c5, c6⟩, -⟩, h3, -⟩ := authDispatch_ok h2
  exact ⟨authDispatch_roles h2, ⟨c1, c2, c3, c4, c5, c6⟩, h3⟩

/-- The admin of the demo may offer a moderator; alice may not; and the offered bob, not alice, may claim. -/
example : MayCall (roles Demo.w0.store) Demo.gov (.offerModerator "bob") ∧ Sensible Demo.ch.addrValid Demo.gov (.offerModerator "bob") ∧
    ¬ MayCall (roles Demo.w0.store) "alice" (.offerModerator "bob") ∧
    MayCall (roles (run Demo.ch Demo.w0 [.execute Demo.gov [] 0 (.auth (.offerModerator "bob"))]).store) "bob" .claimModerator ∧
    ¬ MayCall (roles (run Demo.ch Demo.w0 [.execute Demo.gov [] 0 (.auth (.offerModerator "bob"))]).store) "alice" .claimModerator := by
  unfold MayCall Sensible
  decide +kernel

/-- C37: the whole configuration follows the reference state machine. -/
theorem C37_state_machine {ch : Chain} {w w' : World} (hw : Reachable ch w) {op : Op} {resp : Response} (hs : step ch w op = .ok (w', resp)) :
    roles w'.store = rolesOp (roles w.store) op := step_roles hw hs

/-- C37: the only ways to change the admin. -/
theorem C37_admin_changes {ch : Chain} {w w' : World} (hw : Reachable ch w) {op : Op} {resp : Response} (hs : step ch w op = .ok (w', resp))
    (hne : authQuery w'.store .admin ≠ authQuery w.store .admin) :
    (∃ a funds time, op = .execute a funds time (.auth .renounceAdminship) ∧ authQuery w.store .admin = some a ∧ authQuery w'.store .admin = none) ∨
    (∃ a funds time, op = .execute a funds time (.auth .claimAdmin) ∧ authQuery w.store .adminOffer = some a ∧ authQuery w'.store .admin = some a) ∨
    (∃ time a, op = .sudo time (.transferAdmin a) ∧ authQuery w'.store .admin = some a) ∨
    (∃ time, op = .sudo time .removeAdmin ∧ authQuery w'.store .admin = none) := by
  have key := congrArg Roles.admin (step_roles hw hs)
  cases op with
  | execute a funds time msg =>
    cases msg with
    | auth m =>
      have hm : MayCall (roles w.store) a m := by
        by_contra hm
        obtain ⟨⟨e, he⟩, -⟩ := C36_unauthorized (ch := ch) (funds := funds) (time := time) hm
        rw [he] at hs; simp at hs
      cases m with
      | renounceAdminship => exact Or.inl ⟨a, funds, time, rfl, hm, key⟩
      | claimAdmin => exact Or.inr (Or.inl ⟨a, funds, time, rfl, hm, key⟩)
      | _ => exact absurd key hne
    | _ => exact absurd key hne
  | «sudo» time msg =>
    cases msg with
    | transferAdmin a => exact Or.inr (Or.inr (Or.inl ⟨time, a, rfl, key⟩))
    | removeAdmin => exact Or.inr (Or.inr (Or.inr ⟨time, rfl, key⟩))
    | _ => exact absurd key hne
  | _ => exact absurd key hne

/-- C37: the only way to change the moderator. -/
theorem C37_moderator_changes {ch : Chain} {w w' : World} (hw : Reachable ch w) {op : Op} {resp : Response} (hs : step ch w op = .ok (w', resp))
    (hne : authQuery w'.store .moderator ≠ authQuery w.store .moderator) :
    ∃ a funds time, op = .execute a funds time (.auth .claimModerator) ∧ authQuery w.store .moderatorOffer = some a ∧
      authQuery w'.store .moderator = some a := by
  have key := congrArg Roles.moderator (step_roles hw hs)
  cases op with
  | execute a funds time msg =>
    cases msg with
    | auth m =>
      have hm : MayCall (roles w.store) a m := by
        by_contra hm
        obtain ⟨⟨e, he⟩, -⟩ := C36_unauthorized (ch := ch) (funds := funds) (time := time) hm
        rw [he] at hs; simp at hs
      cases m with
      | claimModerator => exact ⟨a, funds, time, rfl, hm, key⟩
      | _ => exact absurd key hne
    | _ => exact absurd key hne
  | «sudo» time msg =>
    cases msg with
    | _ => exact absurd key hne
  | _ => exact absurd key hne

theorem initial_roles {ch : Chain} {w : World} (h : Initial ch w) :
    roles w.store = ⟨some OSMOSIS_GOV_ADDR, none, some CIRCUIT_BREAKER_SUBDAO_ADDR, none, true, DEFAULT_MAKER_FEE, some DEFAULT_MAKER_FEE_RECIPIENT⟩ := by
  obtain ⟨time, supply, quote, base, resp, h⟩ := h
  simp only [instantiate, createOrderbook, saveOrderbook, setMakerFee, setMakerFeeRecipient,
    EM.bind_eq_ok, EM.ensure_eq_ok, EM.modify_eq_ok, EM.pure_eq_ok] at h
  obtain ⟨_, _, ⟨-, rfl⟩, _, _, rfl, _, _, ⟨-, rfl⟩, _, _, rfl, _, _, ⟨_, _, ⟨hne, rfl⟩, _, _, ⟨-, rfl⟩, _, _, ⟨-, rfl⟩, _, _, rfl,
    _, _, ⟨_, _, ⟨hfee, rfl⟩, _, _, rfl, -, rfl⟩, _, _, ⟨-, rfl⟩, rfl⟩, -, hs⟩ := h
  rw [hs]
  rfl

/-- Where a standing entry of the configuration comes from. -/
theorem offer_origin {ch : Chain} {w0 : World} (hi : Initial ch w0) (f : Roles → Option Addr) (x : Addr) (h0 : f (roles w0.store) = none)
    (P : Op → World → Prop)
    (hstep : ∀ (w w' : World) (op : Op) (resp : Response), Reachable ch w → step ch w op = .ok (w', resp) → f (roles w'.store) = some x →
      P op w ∨ f (roles w.store) = some x) (ops : List Op) (h : f (roles (run ch w0 ops).store) = some x) :
    ∃ pre op post, ops = pre ++ op :: post ∧ Accepted ch (run ch w0 pre) op ∧ P op (run ch w0 pre) ∧
      ∀ post1 post2, post = post1 ++ post2 → f (roles (run ch w0 (pre ++ op :: post1)).store) = some x := by
  induction ops using List.reverseRecOn with
  | nil =>
    change f (roles w0.store) = some x at h
    rw [h0] at h
    simp at h
  | append_singleton ops op ih =>
    have hext : f (roles (run ch w0 ops).store) = some x → ∃ pre op' post, ops ++ [op] = pre ++ op' :: post ∧
        Accepted ch (run ch w0 pre) op' ∧ P op' (run ch w0 pre) ∧
        ∀ post1 post2, post = post1 ++ post2 → f (roles (run ch w0 (pre ++ op' :: post1)).store) = some x := by
      intro hh
      obtain ⟨pre, op', post, h1, h2, h3, h4⟩ := ih hh
      refine ⟨pre, op', post ++ [op], by rw [h1]; simp, h2, h3, ?_⟩
      intro post1 post2 hp
      rcases List.eq_nil_or_concat post2 with rfl | ⟨p2, z, rfl⟩
      · rw [List.append_nil] at hp
        subst hp
        rw [show pre ++ op' :: (post ++ [op]) = ops ++ [op] by rw [h1]; simp]
        exact h
      · rw [List.concat_eq_append, ← List.append_assoc] at hp
        exact h4 post1 p2 (List.append_inj_left' hp (by simp))
    have hw := Reachable.run hi.reachable ops
    have h' := h
    rw [run_concat] at h'
    unfold apply at h'
    split at h'
    · rename_i w' resp hs
      rcases hstep _ _ _ _ hw hs h' with hP | hh
      · refine ⟨ops, op, [], rfl, ⟨_, _, hs⟩, hP, ?_⟩
        intro post1 post2 hp
        obtain ⟨rfl, rfl⟩ : post1 = [] ∧ post2 = [] := by simpa using hp.symm
        exact h
      · exact hext hh
    · exact hext h'

/-- C37: a pending admin offer was made by the admin of that moment and has stood ever since. -/
theorem C37_offer_origin {ch : Chain} {w0 : World} (hi : Initial ch w0) (ops : List Op) {x : Addr}
    (h : authQuery (run ch w0 ops).store .adminOffer = some x) :
    ∃ pre a funds time post, ops = pre ++ .execute a funds time (.auth (.transferAdmin x)) :: post ∧
      Accepted ch (run ch w0 pre) (.execute a funds time (.auth (.transferAdmin x))) ∧ authQuery (run ch w0 pre).store .admin = some a ∧
      ∀ post1 post2, post = post1 ++ post2 →
        authQuery (run ch w0 (pre ++ .execute a funds time (.auth (.transferAdmin x)) :: post1)).store .adminOffer = some x := by
  have hstep : ∀ (w w' : World) (op : Op) (resp : Response), Reachable ch w → step ch w op = .ok (w', resp) →
      Roles.adminOffer (roles w'.store) = some x →
      (∃ a funds time, op = .execute a funds time (.auth (.transferAdmin x)) ∧ authQuery w.store .admin = some a) ∨ Roles.adminOffer (roles w.store) = some x := by
    intro w w' op resp hw hs hx
    rw [step_roles hw hs] at hx
    cases op with
    | execute a funds time msg =>
      cases msg with
      | auth m =>
        have hm : MayCall (roles w.store) a m := by
          by_contra hm
          obtain ⟨⟨e, he⟩, -⟩ := C36_unauthorized (ch := ch) (funds := funds) (time := time) hm
          rw [he] at hs; simp at hs
        cases m with
        | transferAdmin y =>
          have hxy : some y = some x := hx
          simp only [Option.some.injEq] at hxy
          subst hxy
          exact Or.inl ⟨a, funds, time, rfl, hm⟩
        | cancelAdminTransfer => simp [rolesOp, rolesAfter] at hx
        | rejectAdminTransfer => simp [rolesOp, rolesAfter] at hx
        | claimAdmin => simp [rolesOp, rolesAfter] at hx
        | _ => exact Or.inr hx
      | _ => exact Or.inr hx
    | «sudo» time msg =>
      cases msg with
      | _ => exact Or.inr hx
    | _ => exact Or.inr hx
  obtain ⟨pre, op, post, h1, h2, ⟨a, funds, time, rfl, h3⟩, h4⟩ := offer_origin hi Roles.adminOffer x (by rw [initial_roles hi])
    (fun op w => ∃ a funds time, op = .execute a funds time (.auth (.transferAdmin x)) ∧ authQuery w.store .admin = some a) hstep ops h
  exact ⟨pre, a, funds, time, post, h1, h2, h3, h4⟩

/-- C37: the same for moderator offers. -/
theorem C37_moderator_offer_origin {ch : Chain} {w0 : World} (hi : Initial ch w0) (ops : List Op) {x : Addr}
    (h : authQuery (run ch w0 ops).store .moderatorOffer = some x) :
    ∃ pre a funds time post, ops = pre ++ .execute a funds time (.auth (.offerModerator x)) :: post ∧
      Accepted ch (run ch w0 pre) (.execute a funds time (.auth (.offerModerator x))) ∧ authQuery (run ch w0 pre).store .admin = some a ∧
      ∀ post1 post2, post = post1 ++ post2 →
        authQuery (run ch w0 (pre ++ .execute a funds time (.auth (.offerModerator x)) :: post1)).store .moderatorOffer = some x := by
  have hstep : ∀ (w w' : World) (op : Op) (resp : Response), Reachable ch w → step ch w op = .ok (w', resp) →
      Roles.moderatorOffer (roles w'.store) = some x →
      (∃ a funds time, op = .execute a funds time (.auth (.offerModerator x)) ∧ authQuery w.store .admin = some a) ∨ Roles.moderatorOffer (roles w.store) = some x := by
    intro w w' op resp hw hs hx
    rw [step_roles hw hs] at hx
    cases op with
    | execute a funds time msg =>
      cases msg with
      | auth m =>
        have hm : MayCall (roles w.store) a m := by
          by_contra hm
          obtain ⟨⟨e, he⟩, -⟩ := C36_unauthorized (ch := ch) (funds := funds) (time := time) hm
          rw [he] at hs; simp at hs
        cases m with
        | offerModerator y =>
          have hxy : some y = some x := hx
          simp only [Option.some.injEq] at hxy
          subst hxy
          exact Or.inl ⟨a, funds, time, rfl, hm⟩
        | rejectModeratorOffer => simp [rolesOp, rolesAfter] at hx
        | claimModerator => simp [rolesOp, rolesAfter] at hx
        | _ => exact Or.inr hx
      | _ => exact Or.inr hx
    | «sudo» time msg =>
      cases msg with
      | _ => exact Or.inr hx
    | _ => exact Or.inr hx
  obtain ⟨pre, op, post, h1, h2, ⟨a, funds, time, rfl, h3⟩, h4⟩ := offer_origin hi Roles.moderatorOffer x (by rw [initial_roles hi])
    (fun op w => ∃ a funds time, op = .execute a funds time (.auth (.offerModerator x)) ∧ authQuery w.store .admin = some a) hstep ops h
  exact ⟨pre, a, funds, time, post, h1, h2, h3, h4⟩

/-- A history with an offer that survives the admin's renouncement and is then claimed. -/
example :
    let offer := Op.execute Demo.gov [] 0 (.auth (.transferAdmin "bob"))
    let w := run Demo.ch Demo.w0 [offer, .execute Demo.gov [] 0 (.auth .renounceAdminship)]
    authQuery w.store .admin = none ∧ authQuery w.store .adminOffer = some "bob" ∧
    authQuery (run Demo.ch w [.execute "bob" [] 0 (.auth .claimAdmin)]).store .admin = some "bob" := by
  decide +kernel

/-- C38: while the book is inactive, in every world, every message but the configuration messages is rejected, from anybody. -/
theorem C38_frozen {ch : Chain} {w : World} (hi : isActive w.store = false) :
    (∀ a funds time msg, (∀ m, msg ≠ .auth m) → Rejected ch w (.execute a funds time msg)) ∧
    (∀ time msg, Rejected ch w (.sudo time msg)) := by
  constructor
  · intro a funds time msg hm
    refine rejected_of fun w' resp hs => ?_
    obtain ⟨-, -, bank, -, h2, -⟩ := step_execute_ok.1 hs
    unfold execute at h2
    rw [EM.bind_eq_ok] at h2
    obtain ⟨u, s1, h1, -⟩ := h2
    cases msg with
    | auth m => exact hm m rfl
    | _ =>
      have := (ensureIsActive_eq_ok.1 h1).1
      rw [hi] at this; simp at this
  · intro time msg
    refine rejected_of fun w' resp hs => ?_
    have : ∃ resp, «sudo» (ch.env time) msg w.store = .ok resp w'.store := by
      simp only [step] at hs
      split at hs
      · simp at hs
      · split at hs
        · exact ⟨_, (runTx_eq_ok.1 hs).1⟩
        · split at hs
          · simp at hs
          · rw [Except.bind_eq_ok'] at hs
            obtain ⟨bank, -, h2⟩ := hs
            exact ⟨_, (runTx_eq_ok.1 h2).1⟩
    obtain ⟨resp, h⟩ := this
    have := sudo_eq_ok_active h
    rw [hi] at this; simp at this

/-- C38: only the admin or the moderator can reactivate it. -/
theorem C38_reactivation {ch : Chain} {w w' : World} {op : Op} {resp : Response} (hi : isActive w.store = false)
    (hs : step ch w op = .ok (w', resp)) (ha : isActive w'.store = true) :
    ∃ a funds time, op = .execute a funds time (.auth (.setActive true)) ∧
      (authQuery w.store .admin = some a ∨ authQuery w.store .moderator = some a) := by
  cases op with
  | execute a funds time msg =>
    by_cases hauth : ∀ m, msg ≠ .auth m
    · obtain ⟨⟨e, he⟩, -⟩ := (C38_frozen hi (ch := ch)).1 a funds time _ hauth
      rw [he] at hs; simp at hs
    · push_neg at hauth
      obtain ⟨m, rfl⟩ := hauth
      have hm : MayCall (roles w.store) a m := by
        by_contra hm
        obtain ⟨⟨e, he⟩, -⟩ := C36_unauthorized (ch := ch) (funds := funds) (time := time) hm
        rw [he] at hs; simp at hs
      have key := congrArg Roles.active (C36_effect hs).1
      change isActive w'.store = _ at key
      rw [ha] at key
      have hne : true ≠ isActive w.store := by rw [hi]; simp
      cases m with
      | setActive x =>
        have hx : true = x := key
        subst hx
        exact ⟨a, funds, time, rfl, hm⟩
      | _ => exact absurd key hne
  | «sudo» time msg =>
    obtain ⟨⟨e, he⟩, -⟩ := (C38_frozen hi (ch := ch)).2 time msg
    rw [he] at hs; simp at hs
  | migrate => rw [(step_other_store hs (Or.inl rfl)).1, hi] at ha; simp at ha
  | transfer src dst c => rw [(step_other_store hs (Or.inr (Or.inl ⟨_, _, _, rfl⟩))).1, hi] at ha; simp at ha
  | mint dst c => rw [(step_other_store hs (Or.inr (Or.inr ⟨_, _, rfl⟩))).1, hi] at ha; simp at ha

/-- A history after which the book is inactive; the moderator can reactivate it. -/
example :
    let w := run Demo.ch Demo.w0 [.execute Demo.gov [] 0 (.auth (.setActive false))]
    isActive w.store = false ∧
    isActive (run Demo.ch w [.sudo 0 (.setActive true)]).store = false ∧
    isActive (run Demo.ch w [.execute CIRCUIT_BREAKER_SUBDAO_ADDR [] 0 (.auth (.setActive true))]).store = true := by
  decide +kernel

/-- C39: the configuration is always complete. -/
theorem C39_complete {ch : Chain} {w : World} (hw : Reachable ch w) :
    (∃ quote base, denoms w.store = .ok (quote, base) ∧ quote ≠ base) ∧
    (∃ a, authQuery w.store .moderator = some a) ∧ (∃ a, w.store.makerFeeRecipient = some a) ∧ getMakerFee w.store ≤ 5 * 10 ^ 16 := by
  obtain ⟨n, hn⟩ := hw
  obtain ⟨b, h⟩ := hn.traced
  have hr := h.rel
  obtain ⟨ob, hob, hp⟩ := hr.ptr
  refine ⟨⟨_, _, denoms_of hob, hp.denoms⟩, Option.ne_none_iff_exists'.1 hr.conf.moderator, hr.recipient, ?_⟩
  have := hr.conf.fee
  have e : MAX_MAKER_FEE_PERCENTAGE = 5 * 10 ^ 16 := by decide
  omega

/-- C39: the denoms never change. -/
theorem C39_denoms_fixed {ch : Chain} {w : World} (hw : Reachable ch w) (ops : List Op) : denoms (run ch w ops).store = denoms w.store := by
  induction ops using List.reverseRecOn with
  | nil => rfl
  | append_singleton ops op ih =>
    rw [run_concat, ← ih]
    obtain ⟨n, hn⟩ := Reachable.run hw ops
    obtain ⟨b, h⟩ := hn.traced
    generalize run ch w ops = w1 at h
    obtain ⟨ob, hob, -⟩ := h.rel.ptr
    unfold apply
    split
    · rename_i w' resp hs
      obtain ⟨ob', h1, h2, h3⟩ := (h.step hs).denoms hob
      rw [denoms_of hob, denoms_of h1, h2, h3]
    · rfl

theorem claimOrder_error {s s' : Store} {b : Book} (h : Rel s b) {sender : Addr} {tick : Int} {id : Nat} {e : Err}
    (he : claimOrder sender tick id s = .err e s') : e = .panic ∨ e = .invalidTickId tick ∨ e = .orderNotFound tick id ∨ e = .zeroClaim := by
  obtain ⟨ob, hob, -⟩ := h.ptr
  obtain ⟨rc, hrc⟩ := h.recipient
  rcases h.lookup tick id with ⟨h1, h2⟩ | ⟨dir, p, x, q, h1, h2, rfl, h4⟩
  · rcases claimOrder_none h (sender := sender) h1 with h3 | h3 <;> rw [h3] at he <;> simp only [Res.err.injEq] at he <;> obtain ⟨rfl, -⟩ := he <;> simp
  · rcases claimOrder_some h sender h1 h2 hob hrc with ⟨-, s1, h5⟩ | ⟨s1, h5, ⟨h6, h7⟩ | ⟨h6, h7⟩⟩
    · rw [h5] at he; simp only [Res.err.injEq] at he; obtain ⟨rfl, -⟩ := he; simp
    · rw [h7] at he; simp only [Res.err.injEq] at he; obtain ⟨rfl, -⟩ := he; simp
    · rw [h7] at he; simp at he

theorem loadOrderbook_err {s s' : Store} (h : loadOrderbook s = .err .noMakerFeeRecipient s') : False := by
  cases ho : s.orderbook with
  | none =>
    unfold loadOrderbook at h
    rw [EM.get_bind, ho] at h
    simp [EM.fail] at h
  | some ob => rw [loadOrderbook_some ho] at h; simp at h

/-- C39: so no claim ever fails for want of a fee recipient. -/
theorem C39_claim_has_recipient {ch : Chain} {w : World} (hw : Reachable ch w) (a : Addr) (funds : List Coin) (time : Nat) (tick : Int) (id : Nat) :
    step ch w (.execute a funds time (.claimLimit tick id)) ≠ .error .noMakerFeeRecipient := by
  obtain ⟨n, hn⟩ := hw
  obtain ⟨b, h⟩ := hn.traced
  have hr := h.rel
  obtain ⟨ob, hob, -⟩ := hr.ptr
  intro hs
  rcases step_execute_error hs with ⟨-, h1⟩ | ⟨-, h1⟩ | ⟨-, h1⟩ | ⟨s', h1⟩ | ⟨id, h1, -⟩
  · simp at h1
  · simp at h1
  · simp at h1
  · rcases execute_error h1 with h2 | h2 | ⟨m, h2⟩
    · simp at h2
    · rw [execute_active h2] at h1
      change claimLimit _ _ _ _ _ = _ at h1
      unfold claimLimit at h1
      rw [EM.bind_eq_err] at h1
      rcases h1 with h1 | ⟨u, s1, h3, h1⟩
      · rw [EM.lift_eq_err] at h1
        have := h1.1
        unfold nonpayable at this
        split at this <;> simp at this
      · rw [EM.lift_eq_ok] at h3
        obtain ⟨-, rfl⟩ := h3
        rw [EM.bind_eq_err] at h1
        rcases h1 with h1 | ⟨r, s2, h4, h1⟩
        · rcases claimOrder_error hr h1 with h | h | h | h <;> simp at h
        · rw [EM.bind_eq_err] at h1
          rcases h1 with h1 | ⟨ob, s3, -, h1⟩
          · exact loadOrderbook_err h1
          · simp at h1
    · simp at h2
  · simp at h1

/-- A reachable world in which a claim pays a fee to the configured recipient. -/
example : Reachable Demo.ch (Demo.trace Demo.history).1 ∧ (Demo.trace Demo.history).1.store.makerFeeRecipient = some "fees" ∧
    getMakerFee (Demo.trace Demo.history).1.store = 2 * 10 ^ 16 ∧
    (denoms (Demo.trace Demo.history).1.store).toOption = some ("q", "b") :=
  ⟨⟨_, (Demo.traced Demo.history).reachable⟩, by decide +kernel⟩

end OB
