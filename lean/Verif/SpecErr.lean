import Verif.SpecBook
/- Vocabulary for the statements about rejections. -/
namespace OB.Spec

/-- An ordered checklist: each item is a condition together with the error reported if it is the first one that fails. `Fails l e`: not
all conditions hold, and `e` is the error of the first one that does not. -/
def Fails : List (Prop × Err) → Err → Prop
  | [], _ => False
  | (c, err) :: rest, e => (¬ c ∧ e = err) ∨ (c ∧ Fails rest e)

/-- The checks common to all trading messages of a user: a real account, integers that fit the types, the attached funds are really there,
and the book is active. -/
def userChecks (ch : Chain) (w : World) (sender : Addr) (funds : List Coin) (msg : ExecuteMsg) : List (Prop × Err) :=
  [(sender ≠ ch.contract, .std), (msg.wellTyped = true, .decode), ((∃ bank, w.bank.sendAll sender ch.contract funds = .ok bank), .bank),
   (isActive w.store = true, .inactive)]

/-- There is a live order `id` at `tick` that satisfies `p`. -/
def LiveOrder (b : Book) (tick : Int) (id : Nat) (p : Entry → Prop) : Prop := ∃ dir, ∃ x ∈ b tick dir, x.id = id ∧ x.Live ∧ p x

/-- What stops the matching engine (see `matchLevels`), if anything. -/
noncomputable def matchError (side : Dir) : List (Int × Nat) → Nat → Option Err
  | [], _ => none
  | (t, liquidity) :: rest, q =>
    let want := ⌊value side.opposite q t⌋₊
    if want = 0 then none
    else
      let a := min want liquidity
      if 2 ^ 128 ≤ a then some .conversionOverflow
      else if charge side a t = 0 then some (.invalidSwap .zeroStep)
      else matchError side rest (q - charge side a t)

/-- The output of the matching engine. -/
def outputOf : Option (List (Int × Nat) × Nat × Nat) → Nat
  | some (F, _, _) => (F.map Prod.snd).sum
  | none => 0

/-- The checks of the funds sent with an order: exactly one coin, something of it, of the denom to pay in, and the promised amount. -/
def fundsChecks (denom : Denom) (funds : List Coin) (q : Nat) : List (Prop × Err) :=
  [(funds.length ≤ 1, .payment .multipleDenoms), ((∃ c, c.amount ≠ 0 ∧ funds = [c]), .payment .noFunds),
   ((∃ a, a ≠ 0 ∧ funds = [⟨denom, a⟩]), .payment (.missingDenom denom)),
   (funds = [⟨denom, q⟩], .insufficientFunds (amountOf denom funds) q)]

/-- The integers of a swap request fit their types (`Uint128`, `i64`). -/
def SwapReq.fits (r : SwapReq) : Prop :=
  r.tokenIn.amount < 2 ^ 128 ∧ r.minOut < 2 ^ 128 ∧ r.fee < 2 ^ 128 ∧ ∀ t, r.target = some t → -(2 ^ 63) ≤ t ∧ t < 2 ^ 63

/-- The side a request takes from: paying base takes bids, anything else takes asks. -/
def SwapReq.side (r : SwapReq) (base : Denom) : Dir := if r.tokenIn.denom = base then .bid else .ask

/-- After the fills `F`, the leftover input buys nothing more at the last price used; if there was no fill, nothing is left. -/
def usedUp (side : Dir) (F : List (Int × Nat)) (left : Nat) : Prop :=
  match F.getLast? with
  | none => left = 0
  | some last => value side.opposite left last.1 < 1

end OB.Spec
