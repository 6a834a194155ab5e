import Verif.Model.Json
import Verif.Model.ErrText
import Verif.Model.Reenter
/-
The contract as the chain sees it: texts go in, texts come out.
Simplified: what wasmd wraps around a response (event types, the contract's address) and the wording of errors that are not the contract's own are left
out. A text is a list of characters; its UTF-8 encoding is in Model/Octets.
-/
namespace OB

/-- What reaches the chain: messages for the contract's entry points as texts (contract.rs:51-102, 104-177, 179-189), and what happens around it
(contract.rs:47-49, bank transfers, new coins). -/
inductive Call where
  | execute (sender : Addr) (funds : List Coin) (time : Nat) (text : List Char)
  | sudo (time : Nat) (text : List Char)
  | query (text : List Char)
  | migrate
  | mint (dst : Addr) (c : Coin)
  | transfer (src dst : Addr) (c : Coin)

/-- What comes back: a response (attributes and events as texts, transfers, data as a text), the answer to a query, or a refusal, with a text if it is
the contract's own (contract.rs:51-189; the types of the entry points). -/
inductive Reply where
  | response (raw : RawResponse) (msgs : List SendMsg) (data : Option (List Char))
  | answer (text : List Char)
  | refusal (text : Option (List Char))

/-- How a call ends (contract.rs:51-102, 179-189): the response is written out, and so is an error; after an error nothing has happened. -/
def settleOp (ch : Chain) (w : World) (op : Op) : World × Reply :=
  match step ch w op with
  | .ok (w', r) => (w', .response r.raw r.msgs (r.data.map fun n => (swapDataJson n).text))
  | .error e => (w, .refusal e.text)

/-- The entry points on texts (contract.rs:51-102, 104-177, 179-189; `from_json` of the message in front of each of them, `to_json_binary` behind the
queries). -/
def enter (ch : Chain) (w : World) : Call → World × Reply
  | .execute sender funds time t =>
    match fromText readExecuteMsg t with
    | some m => settleOp ch w (.execute sender funds time m)
    | none => (w, .refusal none)
  | .sudo time t =>
    match fromText readSudoMsg t with
    | some m => settleOp ch w (.sudo time m)
    | none => (w, .refusal none)
  | .query t =>
    match fromText readQueryMsg t with
    | some q =>
      match queryResult w.store q with
      | .ok a => (w, .answer (answerJson q a).text)
      | .error e => (w, .refusal e.text)
    | none => (w, .refusal none)
  | .migrate => settleOp ch w .migrate
  | .mint dst c => settleOp ch w (.mint dst c)
  | .transfer src dst c => settleOp ch w (.transfer src dst c)

/-- `instantiate` on texts (contract.rs:25-45; `from_json` of the message in front of it): the storage and what is published, or the text of the refusal. -/
def instantiateText (env : Env) (supply : Denom → Nat) (t : List Char) : Except (Option (List Char)) (Store × RawResponse) :=
  match fromText readInstantiateMsg t with
  | some (base, quote) =>
    match instantiate env supply quote base Store.empty with
    | .ok r s => .ok (s, r.raw)
    | .err e _ => .error e.text
  | none => .error none

/-- Environment (no code in /repo): one call after the other. -/
def serve (ch : Chain) : World → List Call → World × List Reply
  | w, [] => (w, [])
  | w, c :: cs => ((serve ch (enter ch w c).1 cs).1, (enter ch w c).2 :: (serve ch (enter ch w c).1 cs).2)

end OB
