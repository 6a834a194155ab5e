import Verif.SpecObs
/- Vocabulary for the statement about atomicity. -/
namespace OB.Spec

/-- The transfers `ms`, made by `src` one after the other, all succeed and lead from `b` to `b'`. -/
inductive Settles (src : Addr) : Bank → List SendMsg → Bank → Prop
  | nil {b} : Settles src b [] b
  | cons {b b1 b' m ms} : b.send src m.to m.coin = .ok b1 → Settles src b1 ms b' →
      Settles src b (m :: ms) b'

/-- The contract accepts the call: with `bank` (the balances after the deposit that comes with the call) its handler returns the
response `resp` and leaves the storage `s'`. -/
inductive Handled (ch : Chain) (w : World) : Op → Bank → Store → Response → Prop
  | execute {sender funds time msg bank s' resp} : sender ≠ ch.contract → msg.wellTyped = true →
      w.bank.sendAll sender ch.contract funds = .ok bank → OB.execute (ch.env time) ⟨sender, funds⟩ msg w.store = .ok resp s' →
      Handled ch w (.execute sender funds time msg) bank s' resp
  | swap {sender coin time msg bank s' resp} : msg.wellTyped = true → msg.deposit = some (sender, coin) → sender ≠ ch.contract →
      w.bank.send sender ch.contract coin = .ok bank → «sudo» (ch.env time) msg w.store = .ok resp s' →
      Handled ch w (.sudo time msg) bank s' resp
  | config {time msg s' resp} : msg.wellTyped = true → msg.deposit = none → «sudo» (ch.env time) msg w.store = .ok resp s' →
      Handled ch w (.sudo time msg) w.bank s' resp

end OB.Spec
