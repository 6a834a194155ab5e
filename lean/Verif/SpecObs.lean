import Verif.Spec
import Verif.SpecPrice
/- Small vocabulary for observable effects, used in the statements of the properties. -/
namespace OB.Spec

/-- The denom an order deposits: bids pay quote, asks pay base. -/
def denomIn (quote base : Denom) : Dir → Denom
  | .bid => quote
  | .ask => base

/-- The denom an order receives. -/
def denomOut (quote base : Denom) : Dir → Denom
  | .bid => base
  | .ask => quote

/-- The only change of balances from `b` to `b'` is that `src` has paid `amount` of `denom` to `dst`. -/
structure Paid (b b' : Bank) (src dst : Addr) (denom : Denom) (amount : Nat) : Prop where
  from_ : b' src denom + amount = b src denom
  to_ : b' dst denom = b dst denom + amount
  other : ∀ a d, (a ≠ src ∧ a ≠ dst) ∨ d ≠ denom → b' a d = b a d

/-- The transaction is rejected, and rejection changes nothing. -/
def Rejected (ch : Chain) (w : World) (op : Op) : Prop := (∃ e, step ch w op = .error e) ∧ apply ch w op = w

/-- The transaction is accepted. -/
def Accepted (ch : Chain) (w : World) (op : Op) : Prop := ∃ w' resp, step ch w op = .ok (w', resp)

/-- The total liquidity of a direction in whole units, as the pool liquidity query reports it. -/
def dirLiquidity (s : Store) (d : Dir) : Nat := toUintFloor (getDirectionalLiquidity s d)

/-- The amount (in whole units of the output denom) that a claim of `amount` deposited units pays in total. -/
noncomputable def payout (dir : Dir) (amount : Nat) (tick : Int) : Nat := ⌊value dir amount tick⌋₊

/-- Reference split of a claim's payout `v`: the bounty at rate `r` (18 decimals) goes to the caller, the maker fee at rate
`f` to the fee recipient (unless the bounty took everything), the rest to the owner; nobody is sent a zero amount. -/
def split (caller owner recipient : Addr) (denom : Denom) (r : Option Nat) (f v : Nat) : List SendMsg :=
  let bounty := v * r.getD 0 / 10 ^ 18
  let fee := if v ≤ bounty then 0 else v * f / 10 ^ 18
  [⟨owner, ⟨denom, v - bounty - fee⟩, 2⟩, ⟨caller, ⟨denom, bounty⟩, 3⟩, ⟨recipient, ⟨denom, fee⟩, 4⟩].filter
    fun m => m.coin.amount ≠ 0

/-- Total amount of the transfers of one kind (2: to an order's owner, 3: claim bounty, 4: maker fee, 1: refund, 5: swap output). -/
def sent (kind : Nat) (ms : List SendMsg) : Nat := ((ms.filter fun m => m.replyId = kind).map fun m => m.coin.amount).sum

/-- Total amount of all transfers. -/
def sentAll (ms : List SendMsg) : Nat := (ms.map fun m => m.coin.amount).sum

/-- What the transfers send to `a` in `d`. -/
def received (a : Addr) (d : Denom) (ms : List SendMsg) : Nat :=
  (ms.map fun m => if m.to = a ∧ m.coin.denom = d then m.coin.amount else 0).sum

/-- What the transfers take from their sender in `d`. -/
def spent (d : Denom) (ms : List SendMsg) : Nat := (ms.map fun m => if m.coin.denom = d then m.coin.amount else 0).sum

/-- `b'` are the balances `b` after `src` has carried out the transfers `ms`; nothing else changes. -/
def Settled (b b' : Bank) (src : Addr) (ms : List SendMsg) : Prop :=
  ∀ a d, b' a d + (if a = src then spent d ms else 0) = b a d + received a d ms

/-- The events of the accepted operations of a history. -/
def log (ch : Chain) : World → List Op → List Event
  | _, [] => []
  | w, op :: ops =>
    match step ch w op with
    | .ok (w', resp) => resp.events ++ log ch w' ops
    | .error _ => log ch w ops

/-- What the owner of order `id` received from claims according to the events. -/
def claimedOut (id : Nat) (es : List Event) : Nat :=
  (es.map fun e => match e with
    | .limitClaimed _ _ i _ _ _ amount _ _ _ _ => if i = id then amount else 0
    | _ => 0).sum

/-- How often order `id` was claimed according to the events. -/
def claimTimes (id : Nat) (es : List Event) : Nat :=
  (es.map fun e => match e with
    | .limitClaimed _ _ i _ _ _ _ _ _ _ _ => if i = id then 1 else 0
    | _ => 0).sum

/-- What was refunded for order `id` according to the events. -/
def refunded (id : Nat) (es : List Event) : Nat :=
  (es.map fun e => match e with
    | .cancelLimit _ _ i quantity _ _ _ _ => if i = id then quantity else 0
    | _ => 0).sum

/-- The response with the caller (receiver of the bounty) replaced. -/
def forCaller (caller : Addr) (r : Response) : Response :=
  { r with
    msgs := r.msgs.map fun m => if m.replyId = 3 then { m with «to» := caller } else m
    events := r.events.map fun e => match e with
      | .limitClaimed _ t i q o d a p f d1 d2 => .limitClaimed caller t i q o d a p f d1 d2
      | e => e }

/-- The claims of a batch, as single transactions. -/
def singles (sender : Addr) (time : Nat) (l : List (Int × Nat)) : List Op :=
  l.map fun k => .execute sender [] time (.claimLimit k.1 k.2)

end OB.Spec
