import Verif.Model.Entry
import Verif.SpecAns
import Verif.SpecQuerySays
import Verif.SpecWire
import Verif.SpecStore
/-
The exchange on the wire: the reference exchange of Verif/SpecRef.lean and Verif/SpecAns.lean, driven by texts of the published interface
(Verif/SpecWire.lean), read back with the client's eyes (Verif/SpecText.lean) and with the wordings of Verif/SpecSays.lean.
-/
namespace OB.Spec

/-- The operation a call asks for, if its text is one of the published interface. -/
def Call.Asks : Call → Op → Prop
  | .execute sender funds time t, op => ∃ j m, Readable t j ∧ ExecuteJ m j ∧ op = .execute sender funds time m
  | .sudo time t, op => ∃ j m, Readable t j ∧ SudoJ m j ∧ op = .sudo time m
  | .query _, _ => False
  | .migrate, op => op = .migrate
  | .mint dst c, op => op = .mint dst c
  | .transfer src dst c, op => op = .transfer src dst c

/-- The query a call asks, if its text is one of the published interface. -/
def Call.AsksFor : Call → QueryMsg → Prop
  | .query t, q => ∃ j, Readable t j ∧ QueryJ q j
  | _, _ => False

/-- The texts of a response say what the response says: the events (with the published names), the transfers, the swap's data. -/
def ShowsResponse (r : Response) : Reply → Prop
  | .response raw msgs data =>
    decode raw = some r.events ∧
    (raw.attributes = [] ∨ ∃ m, attr raw.attributes "method" = some m ∧ raw.attributes.map Prod.fst = "method" :: attrNames m) ∧
    (∀ e ∈ raw.events, e.1 = "limitClaimed" ∧ e.2.map Prod.fst = claimNames) ∧
    msgs = r.msgs ∧
    (match r.data, data with
      | none, none => True
      | some n, some t => ∃ j, WrittenText t j ∧ SwapDataJ n j
      | _, _ => False)
  | _ => False

/-- The text of an answer is a JSON text of the answer. -/
def ShowsAnswer (q : QueryMsg) (a : Answer) : Reply → Prop
  | .answer t => ∃ j, WrittenText t j ∧ AnswerJ q a j
  | _ => False

/-- A refusal with the wording of the reason. -/
def ShowsRefusal (ps : Option (List Piece)) : Reply → Prop
  | .refusal t => Matches ps t
  | _ => False

/-- The first condition that fails words the refusal. -/
def ShowsFirst (l : List (Prop × Option (List Piece))) : Reply → Prop
  | .refusal t => Says l t
  | _ => False

/-- The price levels of a side of the reference exchange, best first. -/
noncomputable def Ref.depth (r : Ref) (side : Dir) : List (Int × Nat) := r.levels ⟨"", ⟨"", 0⟩, "", 0, 0, none⟩ side

/-- Why the reference exchange refuses a query, in words. -/
noncomputable def Ref.refuses (r : Ref) : QueryMsg → List (Prop × Option (List Piece))
  | .spotPrice quote base =>
    [((quote = r.quote ∧ base = r.base) ∨ (quote = r.base ∧ base = r.quote),
      some [.words "Invalid pair: (", .words base, .words ", ", .words quote, .words ")"])]
  | .calcOutAmountGivenIn c out fee | .calcOutAmtGivenIn c out fee =>
    quoteSays ⟨r.quote, r.base, 0, r.best .bid, r.best .ask⟩ r.depth c out fee
  | .getTotalPoolLiquidity => [(∀ d, overTicks (fun t => openTotal (r.queues t d)) < 2 ^ 128, none)]
  | .calcInAmtGivenOut => [(False, none)]
  | .ticksById ids | .getUnrealizedCancels ids => ids.map fun t => (Used r.queues t, badTick t)
  | _ => []

/-- One call to the reference exchange `r` (with its marks `m`): the exchange and the marks after it, and the replies that are right. -/
inductive Serves (ch : Chain) (r : Ref) (m : Marks) : Call → Reply → Ref → Marks → Prop
  /-- A text that is none of the published ones is refused. -/
  | unread {c : Call} (h : ∀ op, ¬ Call.Asks c op) (h' : ∀ q, ¬ Call.AsksFor c q) : Serves ch r m c (.refusal none) r m
  /-- An operation that the exchange accepts. -/
  | accepted {c : Call} {op : Op} {r' : Ref} {resp : Response} {reply : Reply} (h : Call.Asks c op) (hs : r.step ch op = .ok (r', resp))
      (hr : ShowsResponse resp reply) : Serves ch r m c reply r' (r.marksAfter m op)
  /-- An operation that the exchange rejects. -/
  | rejected {c : Call} {op : Op} {e : Err} {reply : Reply} (h : Call.Asks c op) (hs : r.step ch op = .error e)
      (hr : ShowsRefusal e.pieces reply) : Serves ch r m c reply r m
  /-- A query that the exchange answers. -/
  | answered {c : Call} {q : QueryMsg} {a : Answer} {reply : Reply} (h : Call.AsksFor c q) (hs : r.answer m q = some a)
      (hr : ShowsAnswer q a reply) : Serves ch r m c reply r m
  /-- A query that the exchange refuses. -/
  | refused {c : Call} {q : QueryMsg} {reply : Reply} (h : Call.AsksFor c q) (hs : r.answer m q = none)
      (hr : ShowsFirst (r.refuses q) reply) : Serves ch r m c reply r m

/-- One call after the other. -/
inductive Session (ch : Chain) : Ref → Marks → List Call → List Reply → Ref → Marks → Prop
  | done {r : Ref} {m : Marks} : Session ch r m [] [] r m
  | call {r r1 r2 : Ref} {m m1 m2 : Marks} {c : Call} {reply : Reply} {cs : List Call} {replies : List Reply} (h : Serves ch r m c reply r1 m1)
      (hs : Session ch r1 m1 cs replies r2 m2) : Session ch r m (c :: cs) (reply :: replies) r2 m2

/-- Senders are addresses and block times are `u64` nanoseconds. -/
def Call.Sane : Call → Prop
  | .execute sender _ time _ => AddrOk sender ∧ IdOk time
  | _ => True

end OB.Spec
