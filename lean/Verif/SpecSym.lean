import Verif.SpecRef
import Verif.SpecAns
import Mathlib.Logic.Equiv.Defs
/- Renaming accounts and denoms, and changing block times, throughout a history. -/
namespace OB.Spec

/-- A renaming of accounts and denoms, one to one, and any change of block times. -/
structure Renaming where
  acct : Addr ≃ Addr
  coin : Denom ≃ Denom
  time : Nat → Nat

/-- The accounts that play a role of their own stay where they are: the contract, the three hard-coded accounts (and the empty text, which is no
account); valid addresses stay valid and invalid ones invalid. -/
structure Renaming.Ok (f : Renaming) (ch : Chain) : Prop where
  contract : f.acct ch.contract = ch.contract
  valid : ∀ a, ch.addrValid (f.acct a) = ch.addrValid a
  gov : f.acct "osmo10d07y265gmmuvt4z0w9aw880jnsr700jjeq4qp" = "osmo10d07y265gmmuvt4z0w9aw880jnsr700jjeq4qp"
  breaker : f.acct "osmo1peuxfjj66n2qt2v5jmqlvzz8neakjgduez7vttvemw58uug6546sr60ngl" =
    "osmo1peuxfjj66n2qt2v5jmqlvzz8neakjgduez7vttvemw58uug6546sr60ngl"
  recipient : f.acct "osmo1r9jc2234fljy93z80cevqjt3nmjycec8aj4cc6" = "osmo1r9jc2234fljy93z80cevqjt3nmjycec8aj4cc6"
  empty : f.acct "" = ""

namespace Renaming
variable (f : Renaming)

def coinOf (c : Coin) : Coin := ⟨f.coin c.denom, c.amount⟩

def send (m : SendMsg) : SendMsg := ⟨f.acct m.to, f.coinOf m.coin, m.replyId⟩

/-- Texts in attributes of configuration messages are accounts. -/
def attr : Attr → Attr
  | .str s => .str (f.acct s)
  | .bool b => .bool b
  | .dec x => .dec x

def event : Event → Event
  | .placeLimit owner tick id dir q d1 d2 => .placeLimit (f.acct owner) tick id dir q (f.coin d1) (f.coin d2)
  | .cancelLimit owner tick id q dir p d1 d2 => .cancelLimit (f.acct owner) tick id q dir p (f.coin d1) (f.coin d2)
  | .limitClaimed sender tick id left owner dir amount placed full d1 d2 =>
    .limitClaimed (f.acct sender) tick id left (f.acct owner) dir amount placed full (f.coin d1) (f.coin d2)
  | .swapExactAmountIn sender c out m o => .swapExactAmountIn (f.acct sender) (f.coinOf c) (f.coin out) m o
  | .method name attrs => .method name (attrs.map fun p => (p.1, f.attr p.2))

def response (r : Response) : Response := { msgs := r.msgs.map f.send, events := r.events.map f.event, data := r.data }

/-- Errors that name denoms. -/
def err : Err → Err
  | .payment (.missingDenom d) => .payment (.missingDenom (f.coin d))
  | .invalidPair a b => .invalidPair (f.coin a) (f.coin b)
  | .invalidDenom d => .invalidDenom (f.coin d)
  | e => e

/-- The renamed answer of a history. -/
def result : Except Err Response → Except Err Response
  | .ok r => .ok (f.response r)
  | .error e => .error (f.err e)

def authMsg : AuthMsg → AuthMsg
  | .transferAdmin a => .transferAdmin (f.acct a)
  | .offerModerator a => .offerModerator (f.acct a)
  | .setMakerFeeRecipient a => .setMakerFeeRecipient (f.acct a)
  | m => m

def msg : ExecuteMsg → ExecuteMsg
  | .auth m => .auth (f.authMsg m)
  | m => m

def sudoMsg : SudoMsg → SudoMsg
  | .swapExactAmountIn sender c out m fee => .swapExactAmountIn (f.acct sender) (f.coinOf c) (f.coin out) m fee
  | .swapToTick sender c out m fee t => .swapToTick (f.acct sender) (f.coinOf c) (f.coin out) m fee t
  | .swapExactAmountOut sender d m c fee => .swapExactAmountOut (f.acct sender) (f.coin d) m (f.coinOf c) fee
  | .transferAdmin a => .transferAdmin (f.acct a)
  | m => m

/-- The renamed operation. -/
def op : Op → Op
  | .execute sender funds time m => .execute (f.acct sender) (funds.map f.coinOf) (f.time time) (f.msg m)
  | .sudo time m => .sudo (f.time time) (f.sudoMsg m)
  | .migrate => .migrate
  | .transfer src dst c => .transfer (f.acct src) (f.acct dst) (f.coinOf c)
  | .mint dst c => .mint (f.acct dst) (f.coinOf c)

/-- The renamed balances: the renamed account has in the renamed denom what the account had in the denom. -/
def bank (b : Bank) : Bank := fun a d => b (f.acct.symm a) (f.coin.symm d)

def roles (c : Roles) : Roles :=
  { c with admin := c.admin.map f.acct, adminOffer := c.adminOffer.map f.acct, moderator := c.moderator.map f.acct
           moderatorOffer := c.moderatorOffer.map f.acct, recipient := c.recipient.map f.acct }

def entry (x : Entry) : Entry := { x with owner := f.acct x.owner, placedAt := f.time x.placedAt }

def order (o : LimitOrder) : LimitOrder := { o with owner := f.acct o.owner, placedAt := f.time o.placedAt }

def ref (r : Ref) : Ref where
  quote := f.coin r.quote
  base := f.coin r.base
  conf := f.roles r.conf
  nextId := r.nextId
  queues := fun t d => (r.queues t d).map f.entry
  best := r.best
  bank := f.bank r.bank

/-- The renamed query. -/
def query : QueryMsg → QueryMsg
  | .spotPrice q b => .spotPrice (f.coin q) (f.coin b)
  | .calcOutAmountGivenIn c out fee => .calcOutAmountGivenIn (f.coinOf c) (f.coin out) fee
  | .calcOutAmtGivenIn c out fee => .calcOutAmtGivenIn (f.coinOf c) (f.coin out) fee
  | .ordersByOwner owner lo hi limit => .ordersByOwner (f.acct owner) lo hi limit
  | q => q

/-- The renamed answer to a query. -/
def answer : Answer → Answer
  | .coin c => .coin (f.coinOf c)
  | .coins cs => .coins (cs.map f.coinOf)
  | .orders n l => .orders n (l.map f.order)
  | .book ob => .book { ob with quoteDenom := f.coin ob.quoteDenom, baseDenom := f.coin ob.baseDenom }
  | .denoms q b => .denoms (f.coin q) (f.coin b)
  | .addr a => .addr (a.map f.acct)
  | a => a

end Renaming

/-- The operation with its block time erased. -/
def timeless (op : Op) : Op := Renaming.op ⟨Equiv.refl _, Equiv.refl _, fun _ => 0⟩ op

/-- An answer with the dates of the orders erased. -/
def undated (a : Answer) : Answer := Renaming.answer ⟨Equiv.refl _, Equiv.refl _, fun _ => 0⟩ a

/-- Two states that look the same to traders who know the price levels but not the orders behind them: same pair and best ticks, both
active or both not, the same liquidity at every tick, and each of these traders owns the same. -/
structure SameMarket (traders : Addr → Prop) (w w' : World) : Prop where
  book : OB.Spec.answer w.store .orderbookState = OB.Spec.answer w'.store .orderbookState
  active : isActive w.store = isActive w'.store
  depth : ∀ t d, tickLiquidity w.store t d = tickLiquidity w'.store t d
  balances : ∀ a d, traders a → w.bank a d = w'.bank a d

/-- Two states that look the same to the trader `a` as far as the prices of `side` down to tick `T`: same pair and best ticks, both active or
both not, the same liquidity at `T` and all better ticks of the side, and `a` owns the same. -/
structure SameUpTo (side : Dir) (T : Int) (a : Addr) (w w' : World) : Prop where
  book : OB.Spec.answer w.store .orderbookState = OB.Spec.answer w'.store .orderbookState
  active : isActive w.store = isActive w'.store
  depth : ∀ t, ¬ Better side T t → tickLiquidity w.store t side = tickLiquidity w'.store t side
  balance : ∀ d, w.bank a d = w'.bank a d

end OB.Spec
