import Verif.SpecTx
import Verif.Proofs.AuthObs
import Verif.Proofs.Demo
/- C44: transactions are all or nothing. -/
namespace OB
open Spec

theorem settles_iff {src : Addr} {b b' : Bank} {ms : List SendMsg} : Settles src b ms b' ↔ b.dispatch src ms = .ok b' := by
  constructor
  · intro h
    induction h with
    | nil => rfl
    | cons h1 _ ih => unfold Bank.dispatch; rw [h1]; exact ih
  · intro h
    induction ms generalizing b with
    | nil => simp only [Bank.dispatch, Except.ok.injEq] at h; subst h; exact .nil
    | cons m ms ih =>
      unfold Bank.dispatch at h
      cases hs : b.send src m.to m.coin with
      | error e => rw [hs] at h; simp at h
      | ok b1 => rw [hs] at h; exact .cons hs (ih h)

theorem dispatch_stuck {src : Addr} {b b2 : Bank} {pre post : List SendMsg} {m : SendMsg} (h : Settles src b pre b2)
    (hm : b2 src m.coin.denom < m.coin.amount ∨ m.coin.amount = 0) :
    b.dispatch src (pre ++ m :: post) = .error (.replyError m.replyId) := by
  induction h with
  | nil =>
    rw [List.nil_append]
    unfold Bank.dispatch Bank.send
    rcases hm with hm | hm
    · by_cases h0 : m.coin.amount = 0
      · rw [if_pos h0]
      · rw [if_neg h0, if_pos hm]
    · rw [if_pos hm]
  | cons h1 _ ih =>
    rw [List.cons_append]
    unfold Bank.dispatch
    rw [h1]
    exact ih hm

theorem handled_runTx {ch : Chain} {w : World} {op : Op} {bank : Bank} {s' : Store} {resp : Response} (h : Handled ch w op bank s' resp) :
    step ch w op = match bank.dispatch ch.contract resp.msgs with
      | .error e => .error e
      | .ok bank' => .ok (⟨s', bank'⟩, resp) := by
  cases h with
  | execute h1 h2 h3 h4 =>
    simp only [step]
    rw [if_neg h1, h2, h3]
    simp only [Bool.not_true, Bool.false_eq_true, if_false, Except.ok_bind', runTx_dispatch, h4]
    rfl
  | swap h1 h2 h3 h4 h5 =>
    simp only [step]
    rw [h1, h2]
    simp only [Bool.not_true, Bool.false_eq_true, if_false, if_neg h3, h4, Except.ok_bind', runTx_dispatch, h5]
    rfl
  | config h1 h2 h3 =>
    simp only [step]
    rw [h1, h2]
    simp only [Bool.not_true, Bool.false_eq_true, if_false, runTx_dispatch, h3]
    rfl

theorem handled_of_ok {ch : Chain} {w w' : World} {op : Op} {resp : Response} (hop : (∃ a f t m, op = .execute a f t m) ∨ ∃ t m, op = .sudo t m)
    (h : step ch w op = .ok (w', resp)) : ∃ bank, Handled ch w op bank w'.store resp ∧ bank.dispatch ch.contract resp.msgs = .ok w'.bank := by
  rcases hop with ⟨a, f, t, m, rfl⟩ | ⟨t, m, rfl⟩
  · obtain ⟨h1, h2, bank, h3, h4, h5⟩ := step_execute_ok.1 h
    exact ⟨bank, .execute h1 h2 h3 h4, h5⟩
  · simp only [step] at h
    by_cases hw : m.wellTyped = true
    · rw [hw] at h
      simp only [Bool.not_true, Bool.false_eq_true, if_false] at h
      cases hd : m.deposit with
      | none =>
        rw [hd] at h
        obtain ⟨h1, h2⟩ := runTx_eq_ok.1 h
        exact ⟨_, .config hw hd h1, h2⟩
      | some p =>
        obtain ⟨sender, c⟩ := p
        rw [hd] at h
        simp only at h
        split at h
        · simp at h
        · obtain ⟨bank, h1, h2⟩ := Except.bind_eq_ok'.1 h
          obtain ⟨h3, h4⟩ := runTx_eq_ok.1 h2
          exact ⟨bank, .swap hw hd ‹_› h1 h3, h4⟩
    · simp [hw] at h

/-- C44: whatever fails leaves the storage and all balances as they were, and can be dropped from a history. -/
theorem C44_failure_changes_nothing (ch : Chain) (w : World) (op : Op) (e : Err) (h : step ch w op = .error e) :
    apply ch w op = w ∧ ∀ w0 pre post, w = run ch w0 pre → run ch w0 (pre ++ op :: post) = run ch w0 (pre ++ post) := by
  have h1 : apply ch w op = w := by unfold apply; rw [h]
  refine ⟨h1, ?_⟩
  intro w0 pre post hw
  unfold run at *
  rw [List.foldl_append, List.foldl_append, List.foldl_cons, ← hw, h1]

/-- C44: a call is accepted exactly if its handler accepts it and every transfer it asks for succeeds; no failed transfer is swallowed. -/
theorem C44_accepted_iff_settled (ch : Chain) (w w' : World) (op : Op) (resp : Response)
    (hop : (∃ a f t m, op = .execute a f t m) ∨ ∃ t m, op = .sudo t m) :
    step ch w op = .ok (w', resp) ↔ ∃ bank, Handled ch w op bank w'.store resp ∧ Settles ch.contract bank resp.msgs w'.bank := by
  constructor
  · intro h
    obtain ⟨bank, h1, h2⟩ := handled_of_ok hop h
    exact ⟨bank, h1, settles_iff.2 h2⟩
  · rintro ⟨bank, h1, h2⟩
    rw [handled_runTx h1, settles_iff.1 h2]

/-- C44: if one of the transfers asked for by an accepted call cannot be made (no funds, or a zero amount), the whole call fails with the
reply error carrying that transfer's id, and changes nothing. -/
theorem C44_failed_transfer (ch : Chain) (w : World) (op : Op) (bank bank2 : Bank) (s' : Store) (resp : Response)
    (pre post : List SendMsg) (m : SendMsg) (h : Handled ch w op bank s' resp) (hm : resp.msgs = pre ++ m :: post)
    (hp : Settles ch.contract bank pre bank2) (hf : bank2 ch.contract m.coin.denom < m.coin.amount ∨ m.coin.amount = 0) :
    step ch w op = .error (.replyError m.replyId) ∧ apply ch w op = w := by
  have e : step ch w op = .error (.replyError m.replyId) := by
    rw [handled_runTx h, hm, dispatch_stuck hp hf]
  exact ⟨e, by unfold apply; rw [e]⟩

/-- A swap bounded by a target tick with an input too small to buy anything: the handler accepts it, but the zero output cannot be sent, so the swap fails with
the reply error of swaps (id 5) and the input stays with the sender. -/
example : ∃ bank s' resp m post, Handled Demo.ch (Demo.trace Demo.history).1 (.sudo 1 (.swapToTick "frank" ⟨"q", 1⟩ "b" 0 0 12)) bank s' resp ∧
      resp.msgs = [] ++ m :: post ∧ m.coin.amount = 0 ∧
      step Demo.ch (Demo.trace Demo.history).1 (.sudo 1 (.swapToTick "frank" ⟨"q", 1⟩ "b" 0 0 12)) = .error (.replyError 5) := by
  have h1 : (match «sudo» (Demo.ch.env 1) (.swapToTick "frank" ⟨"q", 1⟩ "b" 0 0 12) (Demo.trace Demo.history).1.store with
      | .ok resp _ => some resp.msgs | .err _ _ => none) = some [⟨"frank", ⟨"b", 0⟩, 5⟩] := by decide +kernel
  have h2 : ((Demo.trace Demo.history).1.bank.send "frank" Demo.ch.contract ⟨"q", 1⟩).toOption.isSome = true := by decide +kernel
  cases hb : (Demo.trace Demo.history).1.bank.send "frank" Demo.ch.contract ⟨"q", 1⟩ with
  | error e => rw [hb] at h2; simp [Except.toOption] at h2
  | ok bank =>
    cases hs : «sudo» (Demo.ch.env 1) (.swapToTick "frank" ⟨"q", 1⟩ "b" 0 0 12) (Demo.trace Demo.history).1.store with
    | err e s' => rw [hs] at h1; simp at h1
    | ok resp s' =>
      rw [hs] at h1
      simp only [Option.some.injEq] at h1
      have hh : Handled Demo.ch (Demo.trace Demo.history).1 (.sudo 1 (.swapToTick "frank" ⟨"q", 1⟩ "b" 0 0 12)) bank s' resp :=
        .swap (by decide) rfl (by decide) hb hs
      exact ⟨bank, s', resp, _, _, hh, h1, rfl,
        (C44_failed_transfer _ _ _ _ _ _ _ [] _ _ hh h1 .nil (Or.inr rfl)).1⟩

end OB
