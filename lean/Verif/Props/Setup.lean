import Verif.SpecSetup
import Verif.Props.Query
import Verif.Props.Auth
/- C56, C57: instantiation; what the contract does not support. -/
namespace OB
open Spec

/-- The liquidity answered by a book without recorded liquidity. -/
theorem fresh_liquidity {s : Store} {ob : Orderbook} (hob : s.orderbook = some ob) (ha : getDirectionalLiquidity s .ask = 0)
    (hb : getDirectionalLiquidity s .bid = 0) :
    answer s .getTotalPoolLiquidity = some (.coins [⟨ob.baseDenom, 0⟩, ⟨ob.quoteDenom, 0⟩]) := by
  have h : totalPoolLiquidity s = .ok [⟨ob.baseDenom, 0⟩, ⟨ob.quoteDenom, 0⟩] := by
    unfold totalPoolLiquidity
    rw [hob]
    simp only [ha, hb]
    rfl
  unfold answer query
  simp only [EM.get_bind, h, EM.lift_ok_bind, EM.pure_apply]

/-- C56: instantiation on empty storage succeeds exactly if the denoms differ, both have a supply, and the three fixed addresses are valid
on the chain. It then sends nothing, and the new book answers every query as a fresh book. -/
theorem C56_instantiate (env : Env) (supply : Denom → Nat) (quote base : Denom) :
    ((∃ resp s, instantiate env supply quote base Store.empty = .ok resp s) ↔
      quote ≠ base ∧ supply quote ≠ 0 ∧ supply base ≠ 0 ∧
      env.addrValid govAddr = true ∧ env.addrValid circuitBreakerAddr = true ∧ env.addrValid feeAddr = true) ∧
    ∀ resp s, instantiate env supply quote base Store.empty = .ok resp s → resp.msgs = [] ∧ Fresh s quote base := by
  have hfee : decide (DEFAULT_MAKER_FEE ≤ MAX_MAKER_FEE_PERCENTAGE) = true := by decide
  have key : ∀ resp s, instantiate env supply quote base Store.empty = .ok resp s →
      (quote ≠ base ∧ supply quote ≠ 0 ∧ supply base ≠ 0 ∧
        env.addrValid govAddr = true ∧ env.addrValid circuitBreakerAddr = true ∧ env.addrValid feeAddr = true) ∧
      resp.msgs = [] ∧ Fresh s quote base := by
    intro resp s h
    simp only [instantiate, createOrderbook, saveOrderbook, setMakerFee, setMakerFeeRecipient,
      EM.bind_eq_ok, EM.ensure_eq_ok, EM.modify_eq_ok, EM.pure_eq_ok] at h
    obtain ⟨_, _, ⟨hg, rfl⟩, _, _, rfl, _, _, ⟨hc, rfl⟩, _, _, rfl, _, _, ⟨_, _, ⟨hne, rfl⟩, _, _, ⟨hq, rfl⟩, _, _, ⟨hb, rfl⟩, _, _, rfl,
      _, _, ⟨_, _, ⟨hfee, rfl⟩, _, _, rfl, -, rfl⟩, _, _, ⟨hf, rfl⟩, rfl⟩, rfl, rfl⟩ := h
    refine ⟨⟨of_decide_eq_true hne, of_decide_eq_true hq, of_decide_eq_true hb, hg, hc, hf⟩, rfl, ?_⟩
    exact ⟨rfl, rfl, ⟨_, rfl, rfl, rfl, rfl, rfl⟩, fun _ _ limit => by cases limit <;> simp [answer_allTicks, allTicks, Store.empty],
      fun _ _ _ _ => by simp [answer_ordersByOwner, ordersByOwner, getOrdersByOwner, Store.empty],
      fun _ _ _ _ => by simp [answer_ordersByTick, ordersByTick, Store.empty], fresh_liquidity (ob := ⟨quote, base, 0, MIN_TICK, MAX_TICK⟩) rfl rfl rfl,
      rfl, rfl, rfl, rfl, rfl, rfl⟩
  refine ⟨⟨?_, ?_⟩, fun resp s h => (key resp s h).2⟩
  · rintro ⟨resp, s, h⟩
    exact (key resp s h).1
  · rintro ⟨h1, h2, h3, h4, h5, h6⟩
    have d1 : decide (quote ≠ base) = true := decide_eq_true h1
    have d2 : decide (supply quote ≠ 0) = true := decide_eq_true h2
    have d3 : decide (supply base ≠ 0) = true := decide_eq_true h3
    have e4 : env.addrValid OSMOSIS_GOV_ADDR = true := h4
    have e5 : env.addrValid CIRCUIT_BREAKER_SUBDAO_ADDR = true := h5
    have e6 : env.addrValid DEFAULT_MAKER_FEE_RECIPIENT = true := h6
    unfold instantiate createOrderbook setMakerFee setMakerFeeRecipient saveOrderbook
    rw [e4, e5, e6, d1, d2, d3, hfee]
    exact ⟨_, _, rfl⟩

/-- Non-vacuity: the demo book is instantiated, and a book with equal denoms is not. -/
example : (match instantiate (Demo.ch.env 0) (fun _ => 1) "q" "b" Store.empty with | .ok _ _ => true | .err _ _ => false) = true ∧
    (match instantiate (Demo.ch.env 0) (fun _ => 1) "q" "q" Store.empty with | .ok _ _ => true | .err _ _ => false) = false := by
  decide +kernel

/-- C57: swaps by output amount are not supported: executing one is always rejected and changes nothing, and its quote never answers.
The swap fee is zero, and both names of the quote query answer the same. -/
theorem C57_unsupported (ch : Chain) (w : World) (time : Nat) (sender : Addr) (inDenom : Denom) (inMax : Nat) (out : Coin) (fee : Nat) :
    Rejected ch w (.sudo time (.swapExactAmountOut sender inDenom inMax out fee)) ∧
    answer w.store .calcInAmtGivenOut = none ∧
    answer w.store .getSwapFee = some (.decimal 0) ∧
    ∀ c d f, answer w.store (.calcOutAmtGivenIn c d f) = answer w.store (.calcOutAmountGivenIn c d f) := by
  refine ⟨?_, rfl, rfl, fun _ _ _ => rfl⟩
  refine rejected_of fun w' resp hs => ?_
  have h := ((step_sudo_none (msg := .swapExactAmountOut sender inDenom inMax out fee) rfl).1 hs).2.1
  unfold «sudo» at h
  simp only [EM.bind_eq_ok] at h
  obtain ⟨_, _, _, h⟩ := h
  simp [EM.fail] at h

end OB
