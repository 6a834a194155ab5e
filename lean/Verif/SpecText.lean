import Verif.Model.Text
import Verif.SpecConf
import Mathlib.Data.Rat.Floor
/- A client that reads the published texts only: strings under names, numbers in decimal notation. -/
namespace OB.Spec

/-- The number that a nonempty string of digits denotes. -/
def number (t : List Char) : Option Nat :=
  if t ≠ [] ∧ ∀ c ∈ t, c ∈ ['0', '1', '2', '3', '4', '5', '6', '7', '8', '9'] then
    some (t.foldl (fun n c => 10 * n + (c.toNat - '0'.toNat)) 0)
  else none

/-- The integer that digits with an optional minus sign denote. -/
def integer : List Char → Option Int
  | '-' :: t => (number t).map fun n : Nat => -(n : Int)
  | t => (number t).map fun n : Nat => (n : Int)

/-- The rational that digits, optionally with a dot and digits after it, denote. -/
def decimal (t : List Char) : Option ℚ :=
  match t.span (· ≠ '.') with
  | (whole, []) => (number whole).map fun n : Nat => (n : ℚ)
  | (whole, _ :: frac) => do
    let n ← number whole
    let f ← number frac
    some (n + f / 10 ^ frac.length)

/-- The amount and denom that digits followed by a denom denote. -/
def coinOf (t : List Char) : Option Coin :=
  match t.span Char.isDigit with
  | (amount, denom) => (number amount).map fun n => ⟨String.ofList denom, n⟩

/-- Chains only know denoms that do not begin with a digit. -/
def DenomText (d : Denom) : Prop := ∀ c ∈ d.toList.head?, c.isDigit = false

/-- The side a text names. -/
def side (t : String) : Option Dir := if t = "bid" then some .bid else if t = "ask" then some .ask else none

/-- The truth value a text names. -/
def truth (t : String) : Option Bool := if t = "true" then some true else if t = "false" then some false else none

/-- The value under a name: the first one. -/
def attr (as : Attrs) (k : String) : Option String := as.lookup k

/-- The table with another entry. -/
def Ledger.put (l : Ledger) (k : Int × Nat) (x : Option Line) : Ledger := fun k' => if k' = k then x else l k'

/-- The order a list of attributes is about: its tick and id. -/
def orderKey (as : Attrs) : Option (Int × Nat) := do
  let tick ← integer (← attr as "tick_id").toList
  let id ← number (← attr as "order_id").toList
  some (tick, id)

/-- Reading the attributes of a placed order. -/
def Ledger.readPlaced (l : Ledger) (as : Attrs) : Option Ledger := do
  let k ← orderKey as
  let owner ← attr as "owner"
  let dir ← side (← attr as "order_direction")
  let q ← number (← attr as "quantity").toList
  some (l.put k (some ⟨owner, dir, q, q⟩))

/-- Reading the attributes of a cancellation. -/
def Ledger.readCancelled (l : Ledger) (as : Attrs) : Option Ledger := do
  let k ← orderKey as
  some (l.put k none)

/-- Reading the attributes of a claim. -/
def Ledger.readClaimed (l : Ledger) (as : Attrs) : Option Ledger := do
  let k ← orderKey as
  let owner ← attr as "owner"
  let dir ← side (← attr as "order_direction")
  let placed ← number (← attr as "placed_quantity").toList
  let left ← number (← attr as "quantity_remaining").toList
  let full ← truth (← attr as "fully_claimed")
  some (l.put k (if full then none else some ⟨owner, dir, placed, left⟩))

/-- Reading a published response: the attributes, then the custom events. What cannot be read is skipped. -/
def Ledger.read (l : Ledger) (r : RawResponse) : Ledger :=
  let m := attr r.attributes "method"
  let l := if m = some "placeLimit" then (l.readPlaced r.attributes).getD l
    else if m = some "cancelLimit" then (l.readCancelled r.attributes).getD l else l
  r.events.foldl (fun l e => if e.1 = "limitClaimed" then (l.readClaimed e.2).getD l else l) l

/-- Reading a published response for what it says about the configuration. -/
def Roles.read (c : Roles) (r : RawResponse) : Roles :=
  match attr r.attributes "method" with
  | none => c
  | some m =>
    if m = "transfer_admin" then { c with adminOffer := attr r.attributes "new_admin" }
    else if m = "cancel_transfer_admin" then { c with adminOffer := none }
    else if m = "reject_admin_transfer" then { c with adminOffer := none }
    else if m = "claim_admin" then { c with admin := c.adminOffer, adminOffer := none }
    else if m = "renounce_adminship" then { c with admin := none }
    else if m = "offer_moderator" then { c with moderatorOffer := attr r.attributes "new_moderator" }
    else if m = "reject_moderator_offer" then { c with moderatorOffer := none }
    else if m = "claim_moderator" then { c with moderator := c.moderatorOffer, moderatorOffer := none }
    else if m = "set_active" then { c with active := ((attr r.attributes "active").bind truth).getD c.active }
    else if m = "set_maker_fee" then
      { c with fee := (((attr r.attributes "maker_fee").bind fun t => decimal t.toList).map fun q => ⌊q * 10 ^ 18⌋₊).getD c.fee }
    else if m = "set_maker_fee_recipient" then { c with recipient := attr r.attributes "maker_fee_recipient" }
    else if m = "sudo_transfer_admin" then { c with admin := attr r.attributes "new_admin" }
    else if m = "sudo_remove_admin" then { c with admin := none }
    else c

/-- What the chain publishes of a history: the responses of the accepted transactions. -/
def published (ch : Chain) : World → List Op → List RawResponse
  | _, [] => []
  | w, op :: ops =>
    match step ch w op with
    | .ok (w', resp) => resp.raw :: published ch w' ops
    | .error _ => published ch w ops

/-- The value of an attribute of a configuration message, by its name. -/
def typed (k v : String) : Option Attr :=
  if k = "active" then (truth v).map .bool
  else if k = "maker_fee" then (decimal v.toList).map fun q => .dec ⌊q * 10 ^ 18⌋₊
  else some (.str v)

/-- What the attributes of a response say, as a structured entry. -/
def headEvent (as : Attrs) : Option (List Event) :=
  match attr as "method" with
  | none => some []
  | some m =>
    if m = "claimLimit" then some []
    else if m = "placeLimit" then do
      let k ← orderKey as
      let dir ← side (← attr as "order_direction")
      let q ← number (← attr as "quantity").toList
      some [.placeLimit (← attr as "owner") k.1 k.2 dir q (← attr as "order_denom") (← attr as "output_denom")]
    else if m = "cancelLimit" then do
      let k ← orderKey as
      let dir ← side (← attr as "order_direction")
      let q ← number (← attr as "quantity").toList
      let p ← number (← attr as "initial_quantity").toList
      some [.cancelLimit (← attr as "owner") k.1 k.2 q dir p (← attr as "order_denom") (← attr as "output_denom")]
    else if m = "swapExactAmountIn" then do
      let c ← coinOf (← attr as "token_in").toList
      let mn ← number (← attr as "token_out_min_amount").toList
      let out ← number (← attr as "output_quantity").toList
      some [.swapExactAmountIn (← attr as "sender") c (← attr as "token_out_denom") mn out]
    else (as.tail.mapM fun p => (typed p.1 p.2).map fun v => (p.1, v)).map fun l => [.method m l]

/-- What the attributes of a custom event say. -/
def claimEvent (e : String × Attrs) : Option Event :=
  if e.1 = "limitClaimed" then do
    let k ← orderKey e.2
    let dir ← side (← attr e.2 "order_direction")
    let left ← number (← attr e.2 "quantity_remaining").toList
    let amount ← number (← attr e.2 "amount_claimed").toList
    let placed ← number (← attr e.2 "placed_quantity").toList
    let full ← truth (← attr e.2 "fully_claimed")
    some (.limitClaimed (← attr e.2 "sender") k.1 k.2 left (← attr e.2 "owner") dir amount placed full (← attr e.2 "order_denom")
      (← attr e.2 "output_denom"))
  else none

/-- What a published response says: the entry of the attributes, then those of the custom events. -/
def decode (r : RawResponse) : Option (List Event) := do
  let h ← headEvent r.attributes
  let l ← r.events.mapM claimEvent
  some (h ++ l)

/-- The names of the attributes after `method`, by method. -/
def attrNames (m : String) : List String :=
  if m = "placeLimit" then ["owner", "tick_id", "order_id", "order_direction", "quantity", "order_denom", "output_denom"]
  else if m = "cancelLimit" then
    ["owner", "tick_id", "order_id", "quantity", "order_direction", "initial_quantity", "order_denom", "output_denom"]
  else if m = "swapExactAmountIn" then ["sender", "token_in", "token_out_denom", "token_out_min_amount", "output_quantity"]
  else if m = "batchClaimLimit" then ["sender"]
  else if m = "transfer_admin" ∨ m = "sudo_transfer_admin" then ["new_admin"]
  else if m = "offer_moderator" then ["new_moderator"]
  else if m = "set_active" then ["active"]
  else if m = "set_maker_fee" then ["maker_fee"]
  else if m = "set_maker_fee_recipient" then ["maker_fee_recipient"]
  else []

/-- The names of the attributes of a claim's event. -/
def claimNames : List String := ["sender", "tick_id", "order_id", "quantity_remaining", "owner", "order_direction", "amount_claimed",
  "placed_quantity", "fully_claimed", "order_denom", "output_denom"]

end OB.Spec
