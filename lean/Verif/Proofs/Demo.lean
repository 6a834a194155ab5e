import Verif.Proofs.Outcome
/- Concrete histories, evaluated by the kernel; used to show that the theorems' hypotheses are met. -/
namespace OB.Demo

def ch : Chain := ⟨"orderbook", fun a => decide (a ≠ "")⟩

/-- Everybody but the contract is rich. -/
def bank0 : Bank := fun a _ => if a = "orderbook" then 0 else 10 ^ 30

/-- Right after instantiation with quote denom "q" and base denom "b". -/
def w0 : World :=
  match instantiate (ch.env 0) (fun _ => 1) "q" "b" Store.empty with
  | .ok _ s => ⟨s, bank0⟩
  | .err _ s => ⟨s, bank0⟩

theorem initial : Initial ch w0 :=
  ⟨0, fun _ => 1, "q", "b", { events := [.method "instantiate" [("quote_denom", .str "q"), ("base_denom", .str "b")]] }, rfl⟩

/-- Follow one operation with the bookkeeper. -/
def follow (wb : World × Book) (op : Op) : World × Book :=
  match step ch wb.1 op with
  | .ok (w', resp) => (w', wb.2.observe op wb.1.store w'.store resp)
  | .error _ => wb

def trace (ops : List Op) : World × Book := ops.foldl follow (w0, Book.empty)

theorem traced_from {n : Nat} {wb : World × Book} (h : Traced ch n wb.1 wb.2) (ops : List Op) :
    Traced ch (n + ops.length) (ops.foldl follow wb).1 (ops.foldl follow wb).2 := by
  induction ops generalizing n wb with
  | nil => exact h
  | cons op ops ih =>
    rw [show n + (op :: ops).length = n + 1 + ops.length by simp; omega]
    refine ih ?_
    unfold follow
    cases hs : step ch wb.1 op with
    | ok r => exact .ok h hs
    | error e => exact .failed h hs

theorem traced (ops : List Op) : Traced ch ops.length (trace ops).1 (trace ops).2 := by
  have := traced_from (.init initial : Traced ch 0 (w0, Book.empty).1 (w0, Book.empty).2) ops
  rwa [Nat.zero_add] at this

/-- Demo histories leave room. -/
theorem room (ops : List Op) (h : ops.length < 10 ^ 16) : (trace ops).1.HasRoom := (traced ops).short h

def place (a : Addr) (t : Int) (d : Dir) (q : Nat) (bounty : Option Nat) : Op :=
  .execute a [⟨match d with | .bid => "q" | .ask => "b", q⟩] 7 (.placeLimit t d q bounty)
def cancel (a : Addr) (t : Int) (id : Nat) : Op := .execute a [] 8 (.cancelLimit t id)
def claim (a : Addr) (t : Int) (id : Nat) : Op := .execute a [] 9 (.claimLimit t id)
/-- Swap base for quote (an ask: it hits the bids). -/
def sell (a : Addr) (amount min : Nat) : Op := .sudo 10 (.swapExactAmountIn a ⟨"b", amount⟩ "q" min 0)
/-- Swap quote for base (a bid: it hits the asks). -/
def buy (a : Addr) (amount min : Nat) : Op := .sudo 11 (.swapExactAmountIn a ⟨"q", amount⟩ "b" min 0)

/-- The admin of a fresh contract. -/
def gov : Addr := OSMOSIS_GOV_ADDR

/-- A 2% maker fee; three bids at tick 0 (ids 0, 2, 3; the last with a 1% bounty), an ask at tick 10 (id 1, bounty), a bid at
a lower tick (id 4); orders 0 and 2 are cancelled, then a swap fills 60000 of order 3. -/
def history : List Op :=
  [.execute gov [] 1 (.auth (.setMakerFee (2 * 10 ^ 16))), .execute gov [] 1 (.auth (.setMakerFeeRecipient "fees")),
   place "alice" 0 .bid 100000 none, place "bob" 10 .ask 50000 (some (10 ^ 16)), place "carol" 0 .bid 100000 none,
   place "dave" 0 .bid 100000 (some (10 ^ 16)), place "erin" (-5000000) .bid 500000 none,
   cancel "alice" 0 0, cancel "carol" 0 2, sell "frank" 60000 1]

end OB.Demo
