import Verif.Props.Claim
/- C85: the accounts of an order over its whole life. -/
namespace OB
open Spec

/-- C85: at any time in any history, the accounts of an order of `q` units at `tick` close. What was refunded, what is still unclaimed on the
book (`left`) and what was sold make up `q`; a refund leaves nothing on the book; and for what was sold the owner has received, over all claims
by anybody and under all changes of the maker fee, at most its exact value at the tick price and at least 94% of it, less one unit per claim. -/
theorem C85_lifetime {ch : Chain} {w0 : World} (hi : Initial ch w0) (ops : List Op) {owner : Addr} {tick : Int} {id : Nat} {dir : Dir}
    {q : Nat} {d1 d2 : Denom} (he : Event.placeLimit owner tick id dir q d1 d2 ∈ log ch w0 ops) :
    let es := log ch w0 ops
    let left := (((run ch w0 ops).store.orders.get? (tick, id)).map fun o => o.quantity).getD 0
    let sold := q - refunded id es - left
    refunded id es + left ≤ q ∧ (refunded id es ≠ 0 → left = 0) ∧
    (claimedOut id es : ℚ) ≤ value dir sold tick ∧
    94 * value dir sold tick ≤ 100 * claimedOut id es + 94 * claimTimes id es := by
  intro es left sold
  obtain ⟨b, hb, hbk⟩ := (Booked.init).run (.init hi) ops
  rw [List.nil_append] at hbk
  obtain ⟨x, hx, hxid, hxp, -⟩ := hbk.places _ _ _ _ _ _ _ he
  obtain ⟨⟨g1, g3⟩, g2⟩ := hbk.amounts tick dir x hx
  have hrange := hb.rel.range tick dir (List.ne_nil_of_mem hx)
  obtain ⟨p, r, hsp⟩ := List.append_of_mem hx
  obtain ⟨k1, k2, k3, -⟩ := C11_time_priority hb hsp
  rw [hxid] at g1 g2 g3
  rw [payout_eq hrange] at g1 g3
  have hleft : left = if x.cancelled then 0 else x.placed - x.claimed := by
    show (((run ch w0 ops).store.orders.get? (tick, id)).map fun o => o.quantity).getD 0 = _
    rcases hb.rel.lookup tick id with ⟨h1, h2⟩ | ⟨dd, pp, y, qq, h1, h2, h3, h4⟩
    · rw [h1]
      have := h2 dir x hx hxid
      unfold Entry.Live at this
      cases hc : x.cancelled
      · rw [hc] at this
        simp only [true_and, not_lt] at this
        simp; omega
      · simp
    · rw [h4]
      obtain ⟨-, rfl, rfl⟩ := hb.rel.same_entry hsp (show y ∈ b tick dd by rw [h1]; simp) (h3.trans hxid.symm)
      rw [h2.1]
      rfl
  have hsold : sold = x.claimed := by
    show q - refunded id es - left = _
    rw [hleft, show refunded id es = _ from g2, ← hxp]
    unfold Entry.refund
    cases x.cancelled <;> simp <;> omega
  rw [hsold]
  have hpos : 0 ≤ value dir x.claimed tick := by
    rw [value_eq hrange.1 hrange.2]
    cases dir <;> positivity
  refine ⟨?_, ?_, ?_, ?_⟩
  · rw [hleft, show refunded id es = _ from g2, ← hxp]
    unfold Entry.refund
    cases x.cancelled <;> simp
  · rw [hleft, show refunded id es = _ from g2]
    unfold Entry.refund
    cases x.cancelled <;> simp
  · refine le_trans (Nat.cast_le.2 g1) ?_
    exact Nat.floor_le hpos
  · rcases g3 with ⟨h1, h2⟩ | h1
    · rw [h1, show claimTimes id es = 0 from h2]
      have : value dir 0 tick = 0 := by cases dir <;> simp [value]
      rw [this]
      have : (0 : ℚ) ≤ (claimedOut id es : ℚ) := Nat.cast_nonneg _
      push_cast
      linarith
    · have h3 : value dir x.claimed tick < payout dir x.claimed tick + 1 := Nat.lt_floor_add_one _
      have h4 : ((94 * (payout dir x.claimed tick + 1) : ℕ) : ℚ) ≤ ((100 * claimedOut id es + 94 * claimTimes id es : ℕ) : ℚ) := Nat.cast_le.2 h1
      push_cast at h4
      linarith

/-- C85 on the demo: of dave's bid of 100000 units at tick 0 (price 1), 60000 are claimed, then 20000 more; 1% bounty and 2% fee are
taken off; 20000 are then refunded. -/
example : let ops := Demo.history ++ [Demo.claim "zed" 0 3, Demo.sell "frank" 20000 1, Demo.claim "zed" 0 3, Demo.cancel "dave" 0 3]
    let es := log Demo.ch Demo.w0 ops
    (∃ d1 d2, Event.placeLimit "dave" 0 3 .bid 100000 d1 d2 ∈ es) ∧
    (claimTimes 3 es, refunded 3 es, (run Demo.ch Demo.w0 ops).store.orders.get? (0, 3)) = (2, 20000, none) ∧
    claimedOut 3 es = 77600 := by
  refine ⟨⟨"q", "b", ?_⟩, ?_, ?_⟩ <;> decide +kernel

end OB
