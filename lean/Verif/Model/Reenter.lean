import Verif.Model.World
/- The chain around the contract with a bank whose transfers call back: token-factory denoms have send hooks, which run code of other
contracts, which may in turn call and query the contract, in the middle of the transfers of a call (and so on, to any depth).
`Model/World.lean` is the case without such calls. -/
namespace OB

/-- Environment (no code in /repo): what a query (contract.rs:104-177) returns. -/
def queryResult (s : Store) (q : QueryMsg) : Except Err Answer :=
  match query q s with
  | .ok a _ => .ok a
  | .err e _ => .error e

/-- Environment (no code in /repo): what happens to the contract, in the order in which the handlers run: a call with its response, or a query
(contract.rs:104-177) with its result. -/
inductive Act where
  | did (op : Op) (resp : Response)
  | saw (q : QueryMsg) (r : Except Err Answer)

/-- Environment (no code in /repo): a call of the contract with its response, or a list of transfers (source, destination, coin) to be made one after the other. -/
inductive Task where
  | call (op : Op) (resp : Response)
  | transfers (l : List (Addr × Addr × Coin))

/-- Environment: operations without transfers to or from the contract: everything but execute messages (contract.rs:57-101) and swaps (sudo.rs:20-98). -/
def Op.plain : Op → Bool
  | .execute .. => false
  | .sudo _ msg => msg.deposit.isNone
  | _ => true

/-- Environment (no code in /repo): `Runs ch w task acts w'`: the task succeeds in `w` and leads to `w'`, and `acts` is what has happened to the contract on the way.
As in `step` the coins that come with a call are moved to the contract first, then the handler runs (contract.rs:57-101, sudo.rs:20-98),
then the transfers it asks for are made (submessages with `reply_on_error`, contract.rs:180-189: the first that fails makes the call fail). But before
and after each of these transfers anybody may call (`hook`) or query (`look`) the contract. Calls that fail are undone by the chain with everything that has
happened inside them, so they do not appear. -/
inductive Runs (ch : Chain) : World → Task → List Act → World → Prop
  | execute {w w1 w' sender funds time msg resp s' acts acts'} : sender ≠ ch.contract → msg.wellTyped = true →
      Runs ch w (.transfers (funds.map fun c => (sender, ch.contract, c))) acts w1 →
      OB.execute (ch.env time) ⟨sender, funds⟩ msg w1.store = .ok resp s' →
      Runs ch ⟨s', w1.bank⟩ (.transfers (resp.msgs.map fun m => (ch.contract, m.to, m.coin))) acts' w' →
      Runs ch w (.call (.execute sender funds time msg) resp) (acts ++ .did (.execute sender funds time msg) resp :: acts') w'
  | swap {w w1 w' sender coin time msg resp s' acts acts'} : msg.wellTyped = true → msg.deposit = some (sender, coin) → sender ≠ ch.contract →
      Runs ch w (.transfers [(sender, ch.contract, coin)]) acts w1 →
      «sudo» (ch.env time) msg w1.store = .ok resp s' →
      Runs ch ⟨s', w1.bank⟩ (.transfers (resp.msgs.map fun m => (ch.contract, m.to, m.coin))) acts' w' →
      Runs ch w (.call (.sudo time msg) resp) (acts ++ .did (.sudo time msg) resp :: acts') w'
  | plain {w w' op resp} : op.plain = true → step ch w op = .ok (w', resp) → Runs ch w (.call op resp) [.did op resp] w'
  | done {w} : Runs ch w (.transfers []) [] w
  | send {w w' src dst c bank l acts} : w.bank.send src dst c = .ok bank → Runs ch ⟨w.store, bank⟩ (.transfers l) acts w' →
      Runs ch w (.transfers ((src, dst, c) :: l)) acts w'
  | hook {w w1 w' op resp l acts acts'} : Runs ch w (.call op resp) acts w1 → Runs ch w1 (.transfers l) acts' w' →
      Runs ch w (.transfers l) (acts ++ acts') w'
  | look {w w' l acts} (q : QueryMsg) : Runs ch w (.transfers l) acts w' → Runs ch w (.transfers l) (.saw q (queryResult w.store q) :: acts) w'

/-- Environment (no code in /repo): a transaction of several messages: one call or query after the other, each call possibly interrupted by others; all of
them succeed (otherwise the chain undoes the whole transaction). -/
inductive Bundle (ch : Chain) : World → List Act → World → Prop
  | done {w} : Bundle ch w [] w
  | call {w w1 w' op resp acts acts'} : Runs ch w (.call op resp) acts w1 → Bundle ch w1 acts' w' → Bundle ch w (acts ++ acts') w'
  | look {w w' acts} (q : QueryMsg) : Bundle ch w acts w' → Bundle ch w (.saw q (queryResult w.store q) :: acts) w'

end OB
