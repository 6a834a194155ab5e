import Verif.SpecSym
import Verif.Props.Refine
/- The reference exchange commutes with renamings. -/
namespace OB
open Spec

namespace Sym
variable (f : Renaming)

theorem denomIn_rn (q b : Denom) (d : Dir) : denomIn (f.coin q) (f.coin b) d = f.coin (denomIn q b d) := by cases d <;> rfl

theorem denomOut_rn (q b : Denom) (d : Dir) : denomOut (f.coin q) (f.coin b) d = f.coin (denomOut q b d) := by cases d <;> rfl

theorem live_rn (x : Entry) : (f.entry x).Live = x.Live := rfl

theorem openTotal_rn (q : List Entry) : openTotal (q.map f.entry) = openTotal q := by
  unfold openTotal
  rw [List.filter_map, List.map_map]
  rfl

theorem amountOf_rn (d : Denom) (cs : List Coin) : amountOf (f.coin d) (cs.map f.coinOf) = amountOf d cs := by
  unfold amountOf
  rw [List.map_map]
  congr 1
  apply List.map_congr_left
  intro c _
  simp [Renaming.coinOf]

theorem amountOf_rn' (d : Denom) (cs : List Coin) : amountOf d (cs.map f.coinOf) = amountOf (f.coin.symm d) cs := by
  have := amountOf_rn f (f.coin.symm d) cs
  rwa [Equiv.apply_symm_apply] at this

theorem order_rn (r : Ref) (tick : Int) (id : Nat) : (f.ref r).order tick id = (r.order tick id).map fun p => (p.1, f.entry p.2) := by
  have h : ∀ d, ((f.ref r).queues tick d).find? (fun x => decide (x.id = id ∧ x.Live)) =
      ((r.queues tick d).find? fun x => decide (x.id = id ∧ x.Live)).map f.entry := by
    intro d
    show ((r.queues tick d).map f.entry).find? _ = _
    rw [List.find?_map]
    rfl
  unfold Ref.order
  rw [h .bid, h .ask]
  cases (r.queues tick .bid).find? fun x => decide (x.id = id ∧ x.Live) with
  | some x => rfl
  | none => 
    cases (r.queues tick .ask).find? fun x => decide (x.id = id ∧ x.Live) <;> rfl

theorem updQ_rn (id : Nat) {g : Entry → Entry} (hg : ∀ x, g (f.entry x) = f.entry (g x)) (q : List Entry) :
    updQ id g (q.map f.entry) = (updQ id g q).map f.entry := by
  unfold updQ
  rw [List.map_map, List.map_map]
  apply List.map_congr_left
  intro x _
  show (if (f.entry x).id = id then g (f.entry x) else f.entry x) = f.entry (if x.id = id then g x else x)
  have : (f.entry x).id = x.id := rfl
  rw [this]
  split
  · exact hg x
  · rfl

theorem set_rn (b : Book) (tick : Int) (d : Dir) (q : List Entry) :
    Book.set (fun t d => (b t d).map f.entry) tick d (q.map f.entry) = fun t d' => (Book.set b tick d q t d').map f.entry := by
  funext t d'
  unfold Book.set
  split <;> rfl

theorem update_rn (r : Ref) (tick : Int) (d : Dir) (id : Nat) {g : Entry → Entry} (hg : ∀ x, g (f.entry x) = f.entry (g x)) :
    (f.ref r).update tick d id g = f.ref (r.update tick d id g) := by
  unfold Ref.update Renaming.ref
  simp only [updQ_rn f id hg, set_rn]

theorem fillQ_rn (n : Nat) (q : List Entry) : fillQ n (q.map f.entry) = (fillQ n q).map f.entry := by
  induction q generalizing n with
  | nil => rfl
  | cons x q ih =>
    show fillQ n (f.entry x :: q.map f.entry) = _
    simp only [fillQ, List.map_cons]
    have : (f.entry x).left = x.left := rfl
    rw [this, ih]
    rfl

theorem split_rn (caller owner recipient : Addr) (d : Denom) (r : Option Nat) (fee v : Nat) :
    split (f.acct caller) (f.acct owner) (f.acct recipient) (f.coin d) r fee v = (split caller owner recipient d r fee v).map f.send := by
  unfold split
  simp only
  generalize v * r.getD 0 / 10 ^ 18 = x
  generalize (if v ≤ x then 0 else v * fee / 10 ^ 18) = y
  rw [show ([⟨f.acct owner, ⟨f.coin d, v - x - y⟩, 2⟩, ⟨f.acct caller, ⟨f.coin d, x⟩, 3⟩, ⟨f.acct recipient, ⟨f.coin d, y⟩, 4⟩] : List SendMsg) =
    ([⟨owner, ⟨d, v - x - y⟩, 2⟩, ⟨caller, ⟨d, x⟩, 3⟩, ⟨recipient, ⟨d, y⟩, 4⟩] : List SendMsg).map f.send from rfl]
  rw [List.filter_map]
  rfl

theorem sent_rn (k : Nat) (ms : List SendMsg) : sent k (ms.map f.send) = sent k ms := by
  unfold sent
  rw [List.filter_map, List.map_map]
  rfl

theorem place_rn (r : Ref) (sender : Addr) (tick : Int) (d : Dir) (q : Nat) (b : Option Nat) (t : Nat) :
    (f.ref r).place (f.acct sender) tick d q b (f.time t) = (f.ref (r.place sender tick d q b t).1, f.response (r.place sender tick d q b t).2) := by
  unfold Ref.place
  refine Prod.ext ?_ ?_
  · simp only [Renaming.ref]
    congr 1
    rw [← set_rn]
    congr 1
    rw [List.map_append]
    rfl
  · simp only [Renaming.ref, denomIn_rn, denomOut_rn, Renaming.response, List.map_nil, List.map_cons, Renaming.event]

theorem cancel_rn (r : Ref) (tick : Int) (d : Dir) (x : Entry) :
    (f.ref r).cancel tick d (f.entry x) = (f.ref (r.cancel tick d x).1, f.response (r.cancel tick d x).2) := by
  unfold Ref.cancel
  refine Prod.ext ?_ ?_
  · exact update_rn f r tick d x.id fun _ => rfl
  · simp only [Renaming.ref, denomIn_rn, denomOut_rn, Renaming.response, List.map_nil, List.map_cons, Renaming.event]
    rfl

variable {f} in
theorem recipient_rn (h0 : f.acct "" = "") (c : Roles) : (f.roles c).recipient.getD "" = f.acct (c.recipient.getD "") := by
  cases h : c.recipient with
  | none => simp [Renaming.roles, h, h0]
  | some a => simp [Renaming.roles, h]

variable {f} in
theorem claim_rn (h0 : f.acct "" = "") (r : Ref) (sender : Addr) (tick : Int) (d : Dir) (x : Entry) :
    (f.ref r).claim (f.acct sender) tick d (f.entry x) =
      (f.ref (r.claim sender tick d x).1, (r.claim sender tick d x).2.1.map f.send, f.event (r.claim sender tick d x).2.2) := by
  unfold Ref.claim
  have e : split (f.acct sender) (f.entry x).owner ((f.ref r).conf.recipient.getD "") (denomOut (f.ref r).quote (f.ref r).base d) (f.entry x).bounty
      (f.ref r).conf.fee (payout d ((f.entry x).filled - (f.entry x).claimed) tick) =
      (split sender x.owner (r.conf.recipient.getD "") (denomOut r.quote r.base d) x.bounty r.conf.fee (payout d (x.filled - x.claimed) tick)).map f.send := by
    rw [← split_rn]
    have h1 : (f.ref r).conf.recipient.getD "" = f.acct (r.conf.recipient.getD "") := recipient_rn h0 r.conf
    have h2 : denomOut (f.ref r).quote (f.ref r).base d = f.coin (denomOut r.quote r.base d) := denomOut_rn f _ _ d
    rw [h1, h2]
    rfl
  simp only [e, sent_rn]
  refine Prod.ext (update_rn f r tick d x.id fun _ => rfl) (Prod.ext rfl ?_)
  simp only [Renaming.event, Renaming.ref, denomIn_rn, denomOut_rn]
  rfl

variable {f} in
theorem claims_rn (h0 : f.acct "" = "") (sender : Addr) (l : List (Int × Nat)) (r : Ref) :
    Ref.claims (f.acct sender) (f.ref r) l =
      (f.ref (Ref.claims sender r l).1, (Ref.claims sender r l).2.1.map f.send, (Ref.claims sender r l).2.2.map f.event) := by
  induction l generalizing r with
  | nil => rfl
  | cons k l ih =>
    obtain ⟨tick, id⟩ := k
    unfold Ref.claims
    rw [order_rn]
    cases h : r.order tick id with
    | none => simp only [Option.map_none]; exact ih r
    | some p =>
      obtain ⟨d, x⟩ := p
      simp only [Option.map_some]
      have hc : ((f.entry x).claimed < (f.entry x).filled) = (x.claimed < x.filled) := rfl
      simp only [hc]
      split
      · rw [claim_rn h0]
        simp only
        rw [ih]
        simp only [List.map_append, List.map_cons]
      · exact ih r

theorem levels_congr {r r' : Ref} {s s' : SwapReq} (hs : s'.target = s.target) {d : Dir}
    (h : ∀ t, openTotal (r'.queues t d) = openTotal (r.queues t d)) : r'.levels s' d = r.levels s d := by
  have hw : ∀ t, s'.within d t = s.within d t := by intro t; unfold SwapReq.within; rw [hs]
  have e2 : (fun t => (t, openTotal (r'.queues t d))) = fun t => (t, openTotal (r.queues t d)) := by funext t; rw [h]
  unfold Ref.levels
  simp only [e2]
  generalize Finset.Icc (-108000000 : Int) 182402823 = I
  congr 1
  cases d <;>
  · simp only
    congr 1
    classical apply Finset.filter_congr
    intro t _
    rw [h, hw]

theorem levels_rn (r : Ref) (s s' : SwapReq) (hs : s'.target = s.target) (d : Dir) : (f.ref r).levels s' d = r.levels s d :=
  levels_congr hs fun _ => openTotal_rn f _

def req (s : SwapReq) : SwapReq := ⟨f.acct s.sender, f.coinOf s.tokenIn, f.coin s.outDenom, s.minOut, s.fee, s.target⟩

theorem trade_rn (r : Ref) (s : SwapReq) (d : Dir) (F : List (Int × Nat)) (left : Nat) :
    (f.ref r).trade (req f s) d F left = (f.ref (r.trade s d F left).1, f.response (r.trade s d F left).2) := by
  unfold Ref.trade
  refine Prod.ext ?_ ?_
  · simp only [Renaming.ref]
    congr 1
    funext t d'
    split
    · exact fillQ_rn f _ _
    · rfl
  · simp only [Renaming.response, List.map_cons, List.map_nil, Renaming.event]
    congr 1
    congr 1
    split <;> rfl

theorem owns_rn (b : Bank) (a : Addr) (cs : List Coin) : Owns (f.bank b) (f.acct a) (cs.map f.coinOf) = Owns b a cs := by
  unfold Owns
  apply propext
  apply and_congr
  · constructor
    · intro h c hc; exact h (f.coinOf c) (List.mem_map_of_mem hc)
    · intro h c hc
      obtain ⟨c', h1, rfl⟩ := List.mem_map.1 hc
      exact h c' h1
  · constructor
    · intro h d
      have := h (f.coin d)
      rw [amountOf_rn] at this
      simpa [Renaming.bank] using this
    · intro h d
      rw [amountOf_rn']
      simpa [Renaming.bank] using h (f.coin.symm d)

theorem pay_rn (b : Bank) (src dst : Addr) (cs : List Coin) :
    pay (f.bank b) (f.acct src) (f.acct dst) (cs.map f.coinOf) = f.bank (pay b src dst cs) := by
  funext a d
  unfold pay Renaming.bank
  simp only [amountOf_rn', Equiv.symm_apply_eq]

theorem payOut_rn (src : Addr) (ms : List SendMsg) (b : Bank) :
    payOut (f.acct src) (f.bank b) (ms.map f.send) = f.bank (payOut src b ms) := by
  induction ms generalizing b with
  | nil => rfl
  | cons m ms ih =>
    show payOut (f.acct src) (pay (f.bank b) (f.acct src) (f.acct m.to) ([m.coin].map f.coinOf)) (ms.map f.send) = _
    rw [pay_rn, ih]
    rfl

variable {f} {ch : Chain} (hf : f.Ok ch)
include hf

theorem contract_ne (a : Addr) : (f.acct a ≠ ch.contract) = (a ≠ ch.contract) := by
  apply propext
  rw [ne_eq, ne_eq, not_iff_not]
  constructor
  · intro h; rw [← hf.contract] at h; exact f.acct.injective h
  · rintro rfl; exact hf.contract

omit hf in
theorem side_rn (s : SwapReq) (base : Denom) : (req f s).side (f.coin base) = s.side base := by
  unfold SwapReq.side req Renaming.coinOf
  simp only [EmbeddingLike.apply_eq_iff_eq]

omit hf in
theorem pair_rn (s : SwapReq) (q b : Denom) (d : Dir) : (req f s).pair (f.coin q) (f.coin b) d = s.pair q b d := by
  unfold SwapReq.pair
  rw [denomIn_rn, denomOut_rn]
  simp only [req, Renaming.coinOf, EmbeddingLike.apply_eq_iff_eq]

omit hf in
theorem matchError_rn (side : Dir) (ls : List (Int × Nat)) (q : Nat) : f.err ((matchError side ls q).getD .std) = (matchError side ls q).getD .std := by
  induction ls generalizing q with
  | nil => rfl
  | cons x ls ih =>
    obtain ⟨t, l⟩ := x
    unfold matchError
    simp only
    split
    · rfl
    split
    · rfl
    split
    · rfl
    · exact ih _

theorem swapChecks_rn (r : Ref) (s : SwapReq) : (f.ref r).swapChecks ch (req f s) = (r.swapChecks ch s).map fun p => (p.1, f.err p.2) := by
  unfold Ref.swapChecks
  have h1 : (req f s).side (f.ref r).base = s.side r.base := side_rn s r.base
  have h2 : (req f s).pair (f.ref r).quote (f.ref r).base (s.side r.base) = s.pair r.quote r.base (s.side r.base) := pair_rn s _ _ _
  have h3 : Owns (f.ref r).bank (req f s).sender [(req f s).tokenIn] = Owns r.bank s.sender [s.tokenIn] := owns_rn f _ _ [s.tokenIn]
  have h4 : ((req f s).sender ≠ ch.contract) = (s.sender ≠ ch.contract) := contract_ne hf _
  have h5 : ch.addrValid (req f s).sender = ch.addrValid s.sender := hf.valid _
  have h6 : (f.ref r).levels (req f s) (s.side r.base) = r.levels s (s.side r.base) := levels_rn f r s _ rfl _
  have h7 : ((req f s).tokenIn.denom ≠ (req f s).outDenom) = (s.tokenIn.denom ≠ s.outDenom) := by
    simp only [req, Renaming.coinOf, ne_eq, EmbeddingLike.apply_eq_iff_eq]
  have h8 : (f.ref r).conf.active = r.conf.active := rfl
  have h9 : (req f s).fits = s.fits := rfl
  have h10 : (req f s).mustFill (s.side r.base) = s.mustFill (s.side r.base) := rfl
  simp only [h1, h2, h3, h4, h5, h6, h7, h8, h9, h10, List.map_cons, List.map_nil, matchError_rn]
  rfl

omit hf in
theorem funds_rn (funds : List Coin) (d : Denom) (a : Nat) : (funds.map f.coinOf = [⟨f.coin d, a⟩]) = (funds = [⟨d, a⟩]) := by
  apply propext
  have hi : Function.Injective f.coinOf := by
    intro c c' h
    obtain ⟨d1, a1⟩ := c
    obtain ⟨d2, a2⟩ := c'
    simp only [Renaming.coinOf, Coin.mk.injEq, EmbeddingLike.apply_eq_iff_eq] at h
    rw [h.1, h.2]
  rw [show ([⟨f.coin d, a⟩] : List Coin) = [⟨d, a⟩].map f.coinOf from rfl]
  exact (List.map_injective_iff.2 hi).eq_iff

omit hf in
theorem funds_one_rn (funds : List Coin) : (∃ c : Coin, c.amount ≠ 0 ∧ funds.map f.coinOf = [c]) = ∃ c : Coin, c.amount ≠ 0 ∧ funds = [c] := by
  apply propext
  constructor
  · rintro ⟨c, h, e⟩
    match funds, e with
    | [x], e =>
      simp only [List.map_cons, List.map_nil, List.cons.injEq, and_true] at e
      exact ⟨x, by rw [← e] at h; exact h, rfl⟩
  · rintro ⟨c, h, rfl⟩
    exact ⟨f.coinOf c, h, rfl⟩

omit hf in
theorem funds_nil_rn (funds : List Coin) : (funds.map f.coinOf = []) = (funds = []) := by
  rw [List.map_eq_nil_iff]

omit hf in
theorem order_forall_rn (r : Ref) (tick : Int) (id : Nat) {P Q : Entry → Prop} (h : ∀ x, Q (f.entry x) = P x) :
    (∀ side x, (f.ref r).order tick id = some (side, x) → Q x) = (∀ side x, r.order tick id = some (side, x) → P x) := by
  apply propext
  rw [order_rn]
  cases r.order tick id with
  | none => simp
  | some p =>
    obtain ⟨d, y⟩ := p
    simp only [Option.map_some, Option.some.injEq, Prod.mk.injEq, and_imp]
    constructor
    · intro hq side x h1 h2
      subst h2
      rw [← h]
      exact hq d _ rfl rfl
    · intro hq side x h1 h2
      subst h2
      rw [h]
      exact hq d _ rfl rfl

omit hf in
theorem order_ne_rn (r : Ref) (tick : Int) (id : Nat) : ((f.ref r).order tick id ≠ none) = (r.order tick id ≠ none) := by
  rw [order_rn]
  cases r.order tick id <;> simp

omit hf in
theorem msgFits_rn (m : ExecuteMsg) : MsgFits (f.msg m) = MsgFits m := by
  cases m with
  | auth m => cases m <;> rfl
  | _ => rfl

omit hf in
theorem role_rn (x : Option Addr) (a : Addr) : (x.map f.acct = some (f.acct a)) = (x = some a) := by
  cases x <;> simp

omit hf in
theorem mayCall_rn (c : Roles) (a : Addr) (m : AuthMsg) : MayCall (f.roles c) (f.acct a) (f.authMsg m) = MayCall c a m := by
  cases m <;> simp only [MayCall, Renaming.authMsg, Renaming.roles, role_rn]

theorem sensible_rn (a : Addr) (m : AuthMsg) : Sensible ch.addrValid (f.acct a) (f.authMsg m) = Sensible ch.addrValid a m := by
  cases m <;> simp only [Sensible, Renaming.authMsg, hf.valid]

omit hf in
theorem rolesAfter_rn (c : Roles) (a : Addr) (m : AuthMsg) : rolesAfter (f.roles c) (f.acct a) (f.authMsg m) = f.roles (rolesAfter c a m) := by
  cases m <;> simp only [rolesAfter, Renaming.authMsg, Renaming.roles, Option.map_some, Option.map_none]

omit hf in
theorem badArgument_rn (m : AuthMsg) : badArgument (f.authMsg m) = badArgument m := by cases m <;> rfl

omit hf in
theorem confEvent_rn (m : AuthMsg) : confEvent (f.authMsg m) = f.event (confEvent m) := by cases m <;> rfl

theorem userChecks_rn (r : Ref) (sender : Addr) (funds : List Coin) (m : ExecuteMsg) :
    (f.ref r).userChecks ch (f.acct sender) (funds.map f.coinOf) (f.msg m) = (r.userChecks ch sender funds m).map fun p => (p.1, f.err p.2) := by
  have h8 : (f.ref r).conf.active = r.conf.active := rfl
  cases m with
  | placeLimit tick side q b =>
    have e : denomIn (f.ref r).quote (f.ref r).base side = f.coin (denomIn r.quote r.base side) := denomIn_rn f _ _ _
    simp only [Ref.userChecks, Renaming.msg, h8, e, fundsChecks, funds_rn, funds_one_rn, List.length_map, amountOf_rn, List.cons_append, List.nil_append,
      List.map_cons, List.map_nil, Renaming.err]
  | cancelLimit tick id =>
    simp only [Ref.userChecks, Renaming.msg, h8, funds_nil_rn, order_ne_rn]
    rw [order_forall_rn r tick id (Q := fun x => x.owner = f.acct sender) (P := fun x => x.owner = sender)
        (fun x => by simp [Renaming.entry]),
      order_forall_rn r tick id (Q := fun x => x.filled = x.claimed) (P := fun x => x.filled = x.claimed) (fun x => rfl)]
    rfl
  | claimLimit tick id =>
    have e : (∃ side, (f.ref r).queues tick side ≠ []) = (∃ side, r.queues tick side ≠ []) := by
      simp only [Renaming.ref, ne_eq, List.map_eq_nil_iff]
    simp only [Ref.userChecks, Renaming.msg, h8, funds_nil_rn, order_ne_rn, e]
    rw [order_forall_rn r tick id (Q := fun x => x.claimed < x.filled) (P := fun x => x.claimed < x.filled) (fun x => rfl)]
    rfl
  | batchClaim l =>
    simp only [Ref.userChecks, Renaming.msg, h8, funds_nil_rn]
    rfl
  | auth m =>
    have e : MayCall (f.ref r).conf (f.acct sender) (f.authMsg m) = MayCall r.conf sender m := mayCall_rn _ _ _
    simp only [Ref.userChecks, Renaming.msg, e, sensible_rn hf, badArgument_rn]
    cases m <;> rfl

theorem checks_rn (r : Ref) (op : Op) : (f.ref r).checks ch (f.op op) = (r.checks ch op).map fun p => (p.1, f.err p.2) := by
  cases op with
  | execute sender funds time m =>
    simp only [Ref.checks, Renaming.op, userChecks_rn hf, Ref.senderChecks, contract_ne hf, msgFits_rn]
    have : Owns (f.ref r).bank (f.acct sender) (funds.map f.coinOf) = Owns r.bank sender funds := owns_rn f _ _ _
    rw [this, List.map_append]
    rfl
  | «sudo» time m =>
    have h8 : (f.ref r).conf.active = r.conf.active := rfl
    cases m with
    | swapExactAmountIn a c o m fee => exact swapChecks_rn hf r ⟨a, c, o, m, fee, none⟩
    | swapToTick a c o m fee t => exact swapChecks_rn hf r ⟨a, c, o, m, fee, some t⟩
    | swapExactAmountOut => rfl
    | transferAdmin a => simp only [Ref.checks, Renaming.op, Renaming.sudoMsg, h8, hf.valid]; rfl
    | removeAdmin => rfl
    | setActive => rfl
  | migrate => rfl
  | transfer src dst c =>
    have : Owns (f.ref r).bank (f.acct src) [f.coinOf c] = Owns r.bank src [c] := owns_rn f _ _ [c]
    simp only [Ref.checks, Renaming.op, contract_ne hf, this]
    rfl
  | mint => rfl

theorem effect_rn (r : Ref) (op : Op) : (f.ref r).effect (f.op op) = (f.ref (r.effect op).1, f.response (r.effect op).2) := by
  have h0 := hf.empty
  cases op with
  | execute sender funds time m =>
    cases m with
    | placeLimit tick side q b => exact place_rn f r sender tick side q b time
    | cancelLimit tick id =>
      simp only [Ref.effect, Renaming.op, Ref.userEffect, Renaming.msg, order_rn]
      cases r.order tick id with
      | none => rfl
      | some p => exact cancel_rn f r tick p.1 p.2
    | claimLimit tick id =>
      simp only [Ref.effect, Renaming.op, Ref.userEffect, Renaming.msg, order_rn]
      cases r.order tick id with
      | none => rfl
      | some p =>
        simp only [Option.map_some, claim_rn h0]
        rfl
    | batchClaim l =>
      simp only [Ref.effect, Renaming.op, Ref.userEffect, Renaming.msg, claims_rn h0]
      rfl
    | auth m =>
      simp only [Ref.effect, Renaming.op, Ref.userEffect, Renaming.msg, confEvent_rn]
      refine Prod.ext ?_ rfl
      show { f.ref r with conf := rolesAfter (f.roles r.conf) (f.acct sender) (f.authMsg m) } = _
      rw [rolesAfter_rn]
      rfl
  | «sudo» time m =>
    have hsw : ∀ s : SwapReq, (f.ref r).swapEffect (req f s) = (f.ref (r.swapEffect s).1, f.response (r.swapEffect s).2) := by
      intro s
      unfold Ref.swapEffect
      have h1 : (req f s).side (f.ref r).base = s.side r.base := side_rn s r.base
      have h6 : (f.ref r).levels (req f s) (s.side r.base) = r.levels s (s.side r.base) := levels_rn f r s _ rfl _
      have h7 : (req f s).tokenIn.amount = s.tokenIn.amount := rfl
      rw [h1, h6, h7]
      cases matchLevels (s.side r.base) (r.levels s (s.side r.base)) s.tokenIn.amount with
      | none => rfl
      | some p => exact trade_rn f r s _ _ _
    cases m with
    | swapExactAmountIn a c o m fee => exact hsw ⟨a, c, o, m, fee, none⟩
    | swapToTick a c o m fee t => exact hsw ⟨a, c, o, m, fee, some t⟩
    | swapExactAmountOut => rfl
    | transferAdmin a => rfl
    | removeAdmin => rfl
    | setActive => rfl
  | migrate => rfl
  | transfer src dst c => rfl
  | mint => rfl

theorem money_rn (r : Ref) (op : Op) (ms : List SendMsg) : (f.ref r).money ch (f.op op) (ms.map f.send) = f.bank (r.money ch op ms) := by
  have hp : ∀ src dst cs, payOut ch.contract (pay (f.ref r).bank (f.acct src) (f.acct dst) (cs.map f.coinOf)) (ms.map f.send) =
      f.bank (payOut ch.contract (pay r.bank src dst cs) ms) := by
    intro src dst cs
    have h1 : pay (f.ref r).bank (f.acct src) (f.acct dst) (cs.map f.coinOf) = f.bank (pay r.bank src dst cs) := pay_rn f _ _ _ _
    rw [h1, ← payOut_rn, hf.contract]
  have hq : payOut ch.contract (f.ref r).bank (ms.map f.send) = f.bank (payOut ch.contract r.bank ms) := by
    rw [← payOut_rn, hf.contract]
    rfl
  have hc : ∀ src cs, payOut ch.contract (pay (f.ref r).bank (f.acct src) ch.contract (cs.map f.coinOf)) (ms.map f.send) =
      f.bank (payOut ch.contract (pay r.bank src ch.contract cs) ms) := by
    intro src cs
    have := hp src ch.contract cs
    rwa [hf.contract] at this
  cases op with
  | execute sender funds time m => exact hc sender funds
  | «sudo» time m =>
    cases m with
    | swapExactAmountIn a c o m fee => exact hc a [c]
    | swapToTick a c o m fee t => exact hc a [c]
    | swapExactAmountOut => exact hq
    | transferAdmin a => exact hq
    | removeAdmin => exact hq
    | setActive => exact hq
  | migrate => exact hq
  | transfer src dst c => exact hp src dst [c]
  | mint dst c =>
    funext a d
    simp only [Ref.money, Renaming.op, Renaming.bank, Renaming.ref, Renaming.coinOf, Equiv.symm_apply_eq]

omit hf in
theorem verdict_rn (l : List (Prop × Err)) : verdict (l.map fun p => (p.1, f.err p.2)) = (verdict l).map f.err := by
  induction l with
  | nil => rfl
  | cons x l ih =>
    obtain ⟨c, e⟩ := x
    show verdict ((c, f.err e) :: _) = _
    unfold verdict
    split
    · exact ih
    · rfl

theorem step_rn (r : Ref) (op : Op) : (f.ref r).step ch (f.op op) =
    (match r.step ch op with
      | .ok (r', resp) => .ok (f.ref r', f.response resp)
      | .error e => .error (f.err e)) := by
  unfold Ref.step
  rw [checks_rn hf, effect_rn hf, verdict_rn]
  cases verdict (r.checks ch op) with
  | some e => rfl
  | none =>
    simp only [Option.map_none, Except.ok.injEq, Prod.mk.injEq, and_true]
    show { f.ref (r.effect op).1 with bank := (f.ref r).money ch (f.op op) ((r.effect op).2.msgs.map f.send) } = _
    rw [money_rn hf]
    rfl

theorem run_rn (ops : List Op) (r : Ref) :
    Ref.run ch (f.ref r) (ops.map f.op) = (f.ref (Ref.run ch r ops).1, (Ref.run ch r ops).2.map f.result) := by
  induction ops generalizing r with
  | nil => rfl
  | cons op ops ih =>
    show Ref.run ch (f.ref r) (f.op op :: ops.map f.op) = _
    unfold Ref.run
    rw [step_rn hf]
    cases r.step ch op with
    | error e => simp only [ih]; rfl
    | ok x => simp only [ih]; rfl

theorem fresh_rn (q b : Denom) (bank : Bank) : f.ref (Ref.fresh q b bank) = Ref.fresh (f.coin q) (f.coin b) (f.bank bank) := by
  unfold Ref.fresh Renaming.ref Renaming.roles
  simp only [Option.map_some, Option.map_none, hf.gov, hf.breaker, hf.recipient]
  rfl

end Sym
end OB
