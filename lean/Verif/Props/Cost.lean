import Verif.Proofs.CostStep
import Verif.Props.Room
import Verif.Props.Storage
/- C89: how many storage cells an operation touches. -/
namespace OB
open Spec

theorem hgt_le (b : Book) (t : Int) (d : Dir) : hgt b t d ≤ 2 * Nat.log2 (cancelledOn b t) + 2 := by
  have mono : ∀ m n : Nat, m ≤ n → Nat.log2 m ≤ Nat.log2 n := by
    intro m n h
    by_cases hm : m = 0
    · subst hm; simp
    · rw [Nat.le_log2 (by omega)]
      exact (Nat.log2_self_le hm).trans h
  unfold hgt cancelledOn
  cases d
  · have := mono ((b t .bid).filter Entry.cancelled).length (((b t .bid).filter Entry.cancelled).length + ((b t .ask).filter Entry.cancelled).length) (by omega)
    omega
  · have := mono ((b t .ask).filter Entry.cancelled).length (((b t .bid).filter Entry.cancelled).length + ((b t .ask).filter Entry.cancelled).length) (by omega)
    omega

/-- C89 (place): in every reachable state placing an order touches at most 8 storage cells. -/
theorem C89_place {ch : Chain} {n : Nat} {w : World} {b : Book} (h : Traced ch n w b) (sender : Addr) (funds : List Coin) (time : Nat) (tick : Int)
    (dir : Dir) (quantity : Nat) (bounty : Option Nat) :
    TouchesAtMost ch w (.execute sender funds time (.placeLimit tick dir quantity bounty)) 8 := by
  refine Uses.touches (gated_uses (k := 7) rfl (placeLimit_uses (fun t o ho => ?_) _ _ _ _ _ _))
  obtain ⟨d, p, x, q, hsp, -, hid, -⟩ := (h.rel.orders t _ o).1 ho
  have := h.rel.ids.lt t d x (by rw [hsp]; simp)
  omega

/-- C89 (claim): in every reachable state a claim touches at most `28 + 8 log2 c` storage cells, where `c` is the number of orders ever cancelled
on its tick. -/
theorem C89_claim {ch : Chain} {n : Nat} {w : World} {b : Book} (h : Traced ch n w b) (sender : Addr) (funds : List Coin) (time : Nat) (tick : Int)
    (id : Nat) : TouchesAtMost ch w (.execute sender funds time (.claimLimit tick id)) (28 + 8 * Nat.log2 (cancelledOn b tick)) := by
  have h1 := hgt_le b tick .bid
  have h2 := hgt_le b tick .ask
  refine Uses.touches ((gated_uses (k := 27 + 8 * Nat.log2 (cancelledOn b tick)) rfl ?_).mono (by omega))
  refine (UsesX.uses (S0 := [.orderbook, .makerFee, .makerFeeRecipient]) (k := claimCost (hgt b) tick) ?_).mono (by
    simp only [List.length_cons, List.length_nil, claimCost]; omega)
  unfold claimLimit
  refine .liftBind fun _ _ => .step (claimOrder_uses' ⟨h.rel.low, h.rel.keyOk⟩ _ _ _ (hgt_pos b tick) (by simp)) (le_refl _) fun r _ _ => ?_
  exact .on_step (loadOrderbook_on (by simp)) fun _ _ _ => .pure _ _

/-- C89 (batch): a batch of claims touches at most 4 cells and `24 + 8 log2 c` more per item. -/
theorem C89_batch {ch : Chain} {n : Nat} {w : World} {b : Book} (h : Traced ch n w b) (sender : Addr) (funds : List Coin) (time : Nat)
    (orders : List (Int × Nat)) :
    TouchesAtMost ch w (.execute sender funds time (.batchClaim orders)) (4 + (orders.map fun p => 24 + 8 * Nat.log2 (cancelledOn b p.1)).sum) := by
  refine Uses.touches ((gated_uses (k := 3 + (orders.map fun p => 24 + 8 * Nat.log2 (cancelledOn b p.1)).sum) rfl ?_).mono (by omega))
  have hsum : ∀ l : List (Int × Nat), (l.map fun p => claimCost (hgt b) p.1).sum ≤ (l.map fun p => 24 + 8 * Nat.log2 (cancelledOn b p.1)).sum := by
    intro l
    induction l with
    | nil => simp
    | cons p l ih =>
      have h1 := hgt_le b p.1 .bid
      have h2 := hgt_le b p.1 .ask
      simp only [List.map_cons, List.sum_cons, claimCost] at ih ⊢
      omega
  have := hsum orders
  refine (UsesX.uses (S0 := [.orderbook, .makerFee, .makerFeeRecipient]) (k := (orders.map fun p => claimCost (hgt b) p.1).sum) ?_).mono (by
    simp only [List.length_cons, List.length_nil]; omega)
  unfold batchClaimLimits
  refine .liftBind fun _ _ => .ensureBind fun _ => .on_step (loadOrderbook_on (by simp)) fun ob t e => ?_
  obtain rfl : t = w.store := (loadOrderbook_pres (I := fun x => x = w.store)).ok rfl e
  exact .step (batchLoop_uses (hgt_pos b) (by simp) _ _ _ ⟨h.rel.low, h.rel.keyOk⟩) (le_refl _) fun _ _ _ => .pure _ _

/-- C89 (cancel): in every reachable state that has room a cancel touches at most `83 + 100 log2 c` storage cells. -/
theorem C89_cancel {ch : Chain} {n : Nat} {w : World} {b : Book} (h : Traced ch n w b) (hr : w.HasRoom) (sender : Addr) (funds : List Coin)
    (time : Nat) (tick : Int) (id : Nat) :
    TouchesAtMost ch w (.execute sender funds time (.cancelLimit tick id)) (83 + 100 * Nat.log2 (cancelledOn b tick)) := by
  have hroom : w.store.trees.cnt tick + 4 < U64 := by
    have := hr.2 tick
    unfold TreeSt.cnt
    have e : U64 = 18446744073709551616 := by rfl
    omega
  refine Uses.touches ((gated_uses rfl (cancelLimit_uses h.rel _ _ _ _ hroom (hgt_le b tick))).mono (by omega))

/-- C89 (swap): in every reachable state a swap touches no order, no index entry, no node, root or counter of a tree and no configuration cell. -/
theorem C89_swap {ch : Chain} {n : Nat} {w : World} {b : Book} (h : Traced ch n w b) (time : Nat) {msg : SudoMsg}
    (hm : (∃ a c o m f, msg = .swapExactAmountIn a c o m f) ∨ (∃ a c o m f t, msg = .swapToTick a c o m f t) ∨ ∃ a d m c f, msg = .swapExactAmountOut a d m c f) :
    Touches ch w (.sudo time msg) swapCells := by
  refine sudo_touches (Blind.usesP ?_ ⟨h.rel.ticksSorted, h.rel.ordersSorted⟩)
  unfold OB.sudo
  refine .bind ensureIsActive_blind fun _ => ?_
  rcases hm with ⟨a, c, o, m, f, rfl⟩ | ⟨a, c, o, m, f, t, rfl⟩ | ⟨a, d, m, c, f, rfl⟩
  · exact swap_blind _ _ _ _ _ _ _
  · exact swap_blind _ _ _ _ _ _ _
  · exact .fail _

/-- The notion is not empty: no accepted message of a user touches nothing at all. -/
theorem C89_not_nothing {ch : Chain} {n : Nat} {w : World} {b : Book} (h : Traced ch n w b) {sender : Addr} {funds : List Coin} {time : Nat}
    {msg : ExecuteMsg} (hm : ∀ m, msg ≠ .auth m) {r : World × Response} (hs : step ch w (.execute sender funds time msg) = .ok r) :
    ¬ TouchesAtMost ch w (.execute sender funds time msg) 0 := by
  rintro ⟨S, h1, h2⟩
  have hS : S = [] := List.length_eq_zero_iff.1 (Nat.le_zero.1 h1)
  subst hS
  have h3 := h2 ⟨{ w.store with isActive := some false }, w.bank⟩ ⟨h.rel.ticksSorted, h.rel.ordersSorted⟩ rfl (by simp)
  rw [hs] at h3
  obtain ⟨w', r'⟩ := r
  cases e : step ch ⟨{ w.store with isActive := some false }, w.bank⟩ (.execute sender funds time msg) with
  | error er => rw [e] at h3; exact h3
  | ok r2 =>
    have hin := execute_inactive (env := ch.env time) (info := ⟨sender, funds⟩) (s := { w.store with isActive := some false }) rfl hm
    obtain ⟨w2, resp⟩ := r2
    obtain ⟨-, -, bank, -, h6, -⟩ := step_execute_ok.1 e
    rw [hin] at h6
    cases h6

/-! ### Examples -/

/-- After the demo history two orders have been cancelled on tick 0; a third cancel there touches at most 183 cells, whatever else there is. -/
example (time : Nat) : cancelledOn (Demo.trace Demo.history).2 0 = 2 ∧
    TouchesAtMost Demo.ch (Demo.trace Demo.history).1 (.execute "dave" [] time (.cancelLimit 0 3)) 183 := by
  have e : cancelledOn (Demo.trace Demo.history).2 0 = 2 := by decide +kernel
  have h := C89_cancel (Demo.traced Demo.history) (Demo.room _ (by decide +kernel)) "dave" [] time 0 3
  rw [e] at h
  exact ⟨e, h⟩

end OB
