import Verif.SpecQuery
/- Vocabulary for the statements about instantiation. -/
namespace OB.Spec

/-- Fixed addresses on Osmosis: governance, the circuit breaker subDAO, the default receiver of maker fees. -/
def govAddr : Addr := "osmo10d07y265gmmuvt4z0w9aw880jnsr700jjeq4qp"
def circuitBreakerAddr : Addr := "osmo1peuxfjj66n2qt2v5jmqlvzz8neakjgduez7vttvemw58uug6546sr60ngl"
def feeAddr : Addr := "osmo1r9jc2234fljy93z80cevqjt3nmjycec8aj4cc6"

/-- The answers of a fresh book for the pair (quote, base): active, no ticks, no orders, no liquidity, no fees, the best bid at the lowest
and the best ask at the highest tick, governed by `govAddr`, moderated by `circuitBreakerAddr`, no offers pending. -/
structure Fresh (s : Store) (quote base : Denom) : Prop where
  active : answer s .isActive = some (.bool true)
  denoms : answer s .denoms = some (.denoms quote base)
  pointers : ∃ ob, answer s .orderbookState = some (.book ob) ∧ ob.quoteDenom = quote ∧ ob.baseDenom = base ∧
    ob.nextBidTick = -108000000 ∧ ob.nextAskTick = 182402823
  ticks : ∀ lo hi limit, answer s (.allTicks lo hi limit) = some (.ticks [])
  byOwner : ∀ a lo hi limit, answer s (.ordersByOwner a lo hi limit) = some (.orders 0 [])
  byTick : ∀ t lo hi limit, answer s (.ordersByTick t lo hi limit) = some (.orders 0 [])
  liquidity : answer s .getTotalPoolLiquidity = some (.coins [⟨base, 0⟩, ⟨quote, 0⟩])
  makerFee : answer s .getMakerFee = some (.decimal 0)
  recipient : s.makerFeeRecipient = some feeAddr
  admin : answer s (.auth .admin) = some (.addr (some govAddr))
  moderator : answer s (.auth .moderator) = some (.addr (some circuitBreakerAddr))
  adminOffer : answer s (.auth .adminOffer) = some (.addr none)
  moderatorOffer : answer s (.auth .moderatorOffer) = some (.addr none)

end OB.Spec
