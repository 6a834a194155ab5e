import Verif.SpecAns
import Verif.SpecSnapshot
import Mathlib.Logic.Function.Defs
/- Order ids are mere names, and only live orders matter (C108): the same messages and answers under other ids. -/
namespace OB.Spec

/-- The order under its other id. -/
def _root_.OB.Entry.rename (σ : Nat → Nat) (x : Entry) : Entry := { x with id := σ x.id }

/-- A rejection with the other id; only `orderNotFound` names one. -/
def renameErr (σ : Nat → Nat) : Err → Err
  | .orderNotFound tick id => .orderNotFound tick (σ id)
  | e => e

/-- An event with the other id. -/
def renameEvent (σ : Nat → Nat) : Event → Event
  | .placeLimit owner tick id dir q orderDenom outputDenom => .placeLimit owner tick (σ id) dir q orderDenom outputDenom
  | .cancelLimit owner tick id q dir q0 orderDenom outputDenom => .cancelLimit owner tick (σ id) q dir q0 orderDenom outputDenom
  | .limitClaimed sender tick id rest owner dir amount placed full orderDenom outputDenom =>
    .limitClaimed sender tick (σ id) rest owner dir amount placed full orderDenom outputDenom
  | e => e

/-- An outcome with the other ids: the same but for the ids that its events or its error name. -/
def renameOutcome (σ : Nat → Nat) : Except Err Response → Except Err Response
  | .ok resp => .ok { resp with events := resp.events.map (renameEvent σ) }
  | .error e => .error (renameErr σ e)

/-- A message about the orders with the other ids. -/
def renameMsg (σ : Nat → Nat) : ExecuteMsg → ExecuteMsg
  | .cancelLimit tick id => .cancelLimit tick (σ id)
  | .claimLimit tick id => .claimLimit tick (σ id)
  | .batchClaim l => .batchClaim (l.map fun k => (k.1, σ k.2))
  | m => m

/-- An operation about the orders with the other ids. -/
def renameOp (σ : Nat → Nat) : Op → Op
  | .execute sender funds time msg => .execute sender funds time (renameMsg σ msg)
  | op => op

/-- The ids that an operation names. -/
def idsOf : Op → List Nat
  | .execute _ _ _ (.cancelLimit _ id) | .execute _ _ _ (.claimLimit _ id) => [id]
  | .execute _ _ _ (.batchClaim l) => l.map Prod.snd
  | _ => []

/-- The ids named are 64-bit numbers under both names, or under none. -/
def FitAlike (σ : Nat → Nat) (op : Op) : Prop := ∀ id ∈ idsOf op, id < 2 ^ 64 ↔ σ id < 2 ^ 64

/-- The live orders of a queue, oldest first. -/
def liveQ (q : List Entry) : List Entry := q.filter fun x => decide x.Live

/-- The same live orders in the same sequence, under other ids; and the same ticks were ever used. -/
structure SameLive (σ : Nat → Nat) (b b' : Book) : Prop where
  live : ∀ t d, liveQ (b' t d) = (liveQ (b t d)).map (Entry.rename σ)
  used : ∀ t, Used b' t ↔ Used b t

/-- Two deployments that look the same apart from their orders: the pair and the best-tick pointers, the switch, the fee and its recipient, and
the roles. -/
structure SameFace (s s' : Store) : Prop where
  book : answer s .orderbookState = answer s' .orderbookState
  active : answer s .isActive = answer s' .isActive
  fee : answer s .getMakerFee = answer s' .getMakerFee
  recipient : s.makerFeeRecipient = s'.makerFeeRecipient
  auth : ∀ a, answer s (.auth a) = answer s' (.auth a)

/-- The ids continue alike: the next orders will get corresponding ids. -/
def IdsContinue (σ : Nat → Nat) (s s' : Store) : Prop := ∀ k, σ (s.orderId.getD 0 + k) = s'.orderId.getD 0 + k

/-- Queries that show no individual orders or ticks. -/
def OfTheWhole : QueryMsg → Prop
  | .allTicks .. | .ticksById _ | .ordersByOwner .. | .ordersByTick .. | .getUnrealizedCancels _ => False
  | _ => True

/-- A new id in front of which one was skipped. -/
def skip (n i : Nat) : Nat := if i < n then i else i + 1

/-- Exchange the ids `n` and `n + 1`. -/
def swapIds (n i : Nat) : Nat := if i = n then n + 1 else if i = n + 1 then n else i

end OB.Spec
