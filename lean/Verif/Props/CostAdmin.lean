import Verif.Props.Cost
/- C89: the administration, governance and the operations outside the contract. -/
namespace OB
open Spec

section
variable {S0 : List Cell} {s : Store}

theorem admin_of_view {s s' : Store} (h : sview s' .admin = sview s .admin) : s'.admin = s.admin :=
  Option.map_injective (fun a b e => by cases e; rfl) h
theorem adminOffer_of_view {s s' : Store} (h : sview s' .adminOffer = sview s .adminOffer) : s'.adminOffer = s.adminOffer :=
  Option.map_injective (fun a b e => by cases e; rfl) h
theorem moderator_of_view {s s' : Store} (h : sview s' .moderator = sview s .moderator) : s'.moderator = s.moderator :=
  Option.map_injective (fun a b e => by cases e; rfl) h
theorem moderatorOffer_of_view {s s' : Store} (h : sview s' .moderatorOffer = sview s .moderatorOffer) : s'.moderatorOffer = s.moderatorOffer :=
  Option.map_injective (fun a b e => by cases e; rfl) h

theorem ensureIsAdmin_on (a : Addr) (h : Cell.admin ∈ S0) : UsesOn sview (· ∈ S0) (ensureIsAdmin a) s := by
  unfold ensureIsAdmin
  exact .get (fun s' ha => by rw [admin_of_view (ha _ h)]) (.ensure _ _ _)
theorem ensureIsAdminOrModerator_on (a : Addr) (h : Cell.admin ∈ S0) (h' : Cell.moderator ∈ S0) :
    UsesOn sview (· ∈ S0) (ensureIsAdminOrModerator a) s := by
  unfold ensureIsAdminOrModerator
  exact .get (fun s' ha => by rw [admin_of_view (ha _ h), moderator_of_view (ha _ h')]) (.ensure _ _ _)

/-- Writing one cell. -/
local macro "one_cell" h:ident : tactic => `(tactic| (
  refine .modify (fun s' ha c hc => ?_) fun s' c hc => ?_
  · have := ha c hc
    cases c <;> first | rfl | exact this
  · cases c <;> first | rfl | exact absurd $h hc))

theorem setAdmin_on (x : Option Addr) (h : Cell.admin ∈ S0) : UsesOn sview (· ∈ S0) (EM.modify fun s : Store => { s with admin := x }) s := by one_cell h
theorem setAdminOffer_on (x : Option Addr) (h : Cell.adminOffer ∈ S0) :
    UsesOn sview (· ∈ S0) (EM.modify fun s : Store => { s with adminOffer := x }) s := by one_cell h
theorem setModerator_on (x : Option Addr) (h : Cell.moderator ∈ S0) :
    UsesOn sview (· ∈ S0) (EM.modify fun s : Store => { s with moderator := x }) s := by one_cell h
theorem setModeratorOffer_on (x : Option Addr) (h : Cell.moderatorOffer ∈ S0) :
    UsesOn sview (· ∈ S0) (EM.modify fun s : Store => { s with moderatorOffer := x }) s := by one_cell h
theorem setActive_on (x : Bool) (h : Cell.isActive ∈ S0) : UsesOn sview (· ∈ S0) (setActive x) s := by
  unfold setActive
  refine .bind ?_ fun _ _ _ => .pure _ _
  one_cell h
theorem setFee_on (x : Nat) (h : Cell.makerFee ∈ S0) : UsesOn sview (· ∈ S0) (setMakerFee x) s := by
  unfold setMakerFee
  refine .bind (.ensure _ _ _) fun _ _ _ => .bind ?_ fun _ _ _ => .pure _ _
  one_cell h
theorem setRecipient_on (env : Env) (x : Addr) (h : Cell.makerFeeRecipient ∈ S0) : UsesOn sview (· ∈ S0) (setMakerFeeRecipient env x) s := by
  unfold setMakerFeeRecipient
  refine .bind (.ensure _ _ _) fun _ _ _ => ?_
  one_cell h

end

/-- The cells that a message of the administration touches. -/
def authCells : AuthMsg → List Cell
  | .transferAdmin _ | .cancelAdminTransfer => [.admin, .adminOffer]
  | .rejectAdminTransfer => [.adminOffer]
  | .claimAdmin => [.admin, .adminOffer]
  | .renounceAdminship => [.admin]
  | .offerModerator _ => [.admin, .moderatorOffer]
  | .rejectModeratorOffer => [.moderatorOffer]
  | .claimModerator => [.moderator, .moderatorOffer]
  | .setActive _ => [.admin, .moderator, .isActive]
  | .setMakerFee _ => [.admin, .makerFee]
  | .setMakerFeeRecipient _ => [.admin, .makerFeeRecipient]

theorem auth_on (env : Env) (info : MessageInfo) (m : AuthMsg) (s : Store) : UsesOn sview (· ∈ authCells m) (authDispatch env info m) s := by
  unfold authDispatch authCells
  cases m with
  | transferAdmin a =>
    exact .bind (ensureIsAdmin_on _ (by simp)) fun _ _ _ => .bind (.bind (.ensure _ _ _) fun _ _ _ => setAdminOffer_on _ (by simp)) fun _ _ _ => .pure _ _
  | cancelAdminTransfer =>
    exact .bind (ensureIsAdmin_on _ (by simp)) fun _ _ _ => .bind (setAdminOffer_on _ (by simp)) fun _ _ _ => .pure _ _
  | rejectAdminTransfer =>
    refine .get (fun s' ha => by rw [adminOffer_of_view (ha _ (by simp))]) ?_
    exact .bind (.ensure _ _ _) fun _ _ _ => .bind (setAdminOffer_on _ (by simp)) fun _ _ _ => .pure _ _
  | claimAdmin =>
    refine .get (fun s' ha => by rw [adminOffer_of_view (ha _ (by simp))]) ?_
    exact .bind (.ensure _ _ _) fun _ _ _ => .bind (.bind (.ensure _ _ _) fun _ _ _ => setAdmin_on _ (by simp)) fun _ _ _ =>
      .bind (setAdminOffer_on _ (by simp)) fun _ _ _ => .pure _ _
  | renounceAdminship =>
    exact .bind (ensureIsAdmin_on _ (by simp)) fun _ _ _ => .bind (setAdmin_on _ (by simp)) fun _ _ _ => .pure _ _
  | offerModerator a =>
    exact .bind (ensureIsAdmin_on _ (by simp)) fun _ _ _ => .bind (.bind (.ensure _ _ _) fun _ _ _ => setModeratorOffer_on _ (by simp)) fun _ _ _ => .pure _ _
  | rejectModeratorOffer =>
    refine .get (fun s' ha => by rw [moderatorOffer_of_view (ha _ (by simp))]) ?_
    exact .bind (.ensure _ _ _) fun _ _ _ => .bind (setModeratorOffer_on _ (by simp)) fun _ _ _ => .pure _ _
  | claimModerator =>
    refine .get (fun s' ha => by rw [moderatorOffer_of_view (ha _ (by simp))]) ?_
    exact .bind (.ensure _ _ _) fun _ _ _ => .bind (.bind (.ensure _ _ _) fun _ _ _ => setModerator_on _ (by simp)) fun _ _ _ =>
      .bind (setModeratorOffer_on _ (by simp)) fun _ _ _ => .pure _ _
  | setActive x => exact .bind (ensureIsAdminOrModerator_on _ (by simp) (by simp)) fun _ _ _ => setActive_on _ (by simp)
  | setMakerFee f => exact .bind (ensureIsAdmin_on _ (by simp)) fun _ _ _ => .bind (setFee_on _ (by simp)) fun _ _ _ => .pure _ _
  | setMakerFeeRecipient r => exact .bind (ensureIsAdmin_on _ (by simp)) fun _ _ _ => .bind (setRecipient_on _ _ (by simp)) fun _ _ _ => .pure _ _

/-- C89 (administration): a message of the administration touches at most 3 cells, which have to do with roles, switch and fee only. -/
theorem C89_admin (ch : Chain) (w : World) (sender : Addr) (funds : List Coin) (time : Nat) (m : AuthMsg) :
    ∃ S : List Cell, S.length ≤ 3 ∧ (∀ c ∈ S, c ∈ [Cell.isActive, .makerFee, .makerFeeRecipient, .admin, .adminOffer, .moderator, .moderatorOffer]) ∧
      Touches ch w (.execute sender funds time (.auth m)) (· ∈ S) := by
  refine ⟨authCells m, by cases m <;> simp [authCells], by cases m <;> simp [authCells], execute_touches (UsesOn.usesP ?_)⟩
  exact .bind (.pure _ _) fun _ t _ => auth_on _ _ _ t

/-- C89 (governance): the calls of governance other than swaps touch the switch and the admin only. -/
theorem C89_governance (ch : Chain) (w : World) (time : Nat) {msg : SudoMsg} (hm : (∃ a, msg = .transferAdmin a) ∨ msg = .removeAdmin ∨ ∃ x, msg = .setActive x) :
    Touches ch w (.sudo time msg) (· ∈ [Cell.isActive, .admin]) := by
  refine sudo_touches (UsesOn.usesP ?_)
  unfold OB.sudo
  refine .bind (ensureIsActive_on (by simp)) fun _ _ _ => ?_
  rcases hm with ⟨a, rfl⟩ | rfl | ⟨x, rfl⟩
  · exact .bind (.bind (.ensure _ _ _) fun _ _ _ => setAdmin_on _ (by simp)) fun _ _ _ => .pure _ _
  · exact .bind (setAdmin_on _ (by simp)) fun _ _ _ => .pure _ _
  · exact setActive_on _ (by simp)

/-- C89 (the rest): migration, plain transfers and mints touch no cell. -/
theorem C89_none (ch : Chain) (w : World) {op : Op} (ho : op = .migrate ∨ (∃ a b c, op = .transfer a b c) ∨ ∃ a c, op = .mint a c) : TouchesAtMost ch w op 0 := by
  refine ⟨[], le_refl _, fun w2 hp hb ha => ?_⟩
  rcases ho with rfl | ⟨a, b, c, rfl⟩ | ⟨a, c, rfl⟩
  · simp only [step, hb]
    exact runTx_same (UsesOn.usesP (.pure _ _)) hp ha
  · simp only [step, hb]
    split
    · exact same_error _
    · cases w.bank.send a b c with
      | error e => exact same_error _
      | ok bank => exact ⟨rfl, rfl, fun _ h => by simp at h, fun _ _ => ⟨rfl, rfl⟩⟩
  · simp only [step, hb]
    exact ⟨rfl, rfl, fun _ h => by simp at h, fun _ _ => ⟨rfl, rfl⟩⟩

/-- Nobody has a role. -/
theorem auth_nobody (env : Env) (info : MessageInfo) (m : AuthMsg) (s : Store) :
    authDispatch env info m { s with admin := none, adminOffer := none, moderator := none, moderatorOffer := none } =
      .err .unauthorized { s with admin := none, adminOffer := none, moderator := none, moderatorOffer := none } := by
  cases m <;> simp [authDispatch, ensureIsAdmin, ensureIsAdminOrModerator, EM.bind_apply, EM.ensure]

/-- No accepted message of the administration touches nothing at all either. -/
theorem C89_admin_something {ch : Chain} {n : Nat} {w : World} {b : Book} (h : Traced ch n w b) {sender : Addr} {funds : List Coin} {time : Nat}
    {m : AuthMsg} {r : World × Response} (hs : step ch w (.execute sender funds time (.auth m)) = .ok r) :
    ¬ TouchesAtMost ch w (.execute sender funds time (.auth m)) 0 := by
  rintro ⟨S, h1, h2⟩
  have hS : S = [] := List.length_eq_zero_iff.1 (Nat.le_zero.1 h1)
  subst hS
  generalize hw2 : ({ w.store with admin := none, adminOffer := none, moderator := none, moderatorOffer := none } : Store) = s2
  have h3 := h2 ⟨s2, w.bank⟩ (hw2 ▸ ⟨h.rel.ticksSorted, h.rel.ordersSorted⟩) rfl (by simp)
  rw [hs] at h3
  obtain ⟨w', r'⟩ := r
  cases e : step ch ⟨s2, w.bank⟩ (.execute sender funds time (.auth m)) with
  | error er => rw [e] at h3; exact h3
  | ok r2 =>
    obtain ⟨w2, resp⟩ := r2
    obtain ⟨-, -, bank, -, h6, -⟩ := step_execute_ok.1 e
    have := auth_nobody (ch.env time) ⟨sender, funds⟩ m w.store
    rw [hw2] at this
    have h7 : authDispatch (ch.env time) ⟨sender, funds⟩ m s2 = .ok resp w2.store := h6
    rw [this] at h7
    cases h7

/-- In the demo the administrator and governance can switch the book off: these calls are accepted, so the bounds speak of calls that do something. -/
example : (step Demo.ch (Demo.trace Demo.history).1 (.execute Demo.gov [] 0 (.auth (.setActive false)))).isOk = true ∧
    ¬ TouchesAtMost Demo.ch (Demo.trace Demo.history).1 (.execute Demo.gov [] 0 (.auth (.setActive false))) 0 ∧
    (step Demo.ch (Demo.trace Demo.history).1 (.sudo 0 (.setActive false))).isOk = true := by
  have h : (step Demo.ch (Demo.trace Demo.history).1 (.execute Demo.gov [] 0 (.auth (.setActive false)))).isOk = true := by decide +kernel
  refine ⟨h, ?_, by decide +kernel⟩
  generalize hw : (Demo.trace Demo.history).1 = w at h
  obtain ⟨r, hr⟩ : ∃ r, step Demo.ch w (.execute Demo.gov [] 0 (.auth (.setActive false))) = .ok r := by
    cases e : step Demo.ch w (.execute Demo.gov [] 0 (.auth (.setActive false))) with
    | ok r => exact ⟨r, rfl⟩
    | error er => rw [e] at h; cases h
  exact C89_admin_something (hw ▸ Demo.traced Demo.history) hr

end OB
