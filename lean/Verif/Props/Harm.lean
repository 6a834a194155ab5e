import Verif.SpecHarm
import Verif.Props.Exploit
/- C97: what others can do to a maker. -/
namespace OB
open Spec

theorem received_owner (caller owner rc : Addr) (d : Denom) (r : Option Nat) (f v : Nat) :
    ownerAmount r f v ≤ received owner d (split caller owner rc d r f v) := by
  rw [ownerAmount_eq]
  unfold split
  rw [received_filter]
  simp only [received, List.map_cons, List.map_nil, List.sum_cons, List.sum_nil, and_self, if_true]
  omega

theorem sentWorth_nonneg {quote base : Denom} {t0 : Int} (h0 : ValidTick t0) (S : Finset Addr) (ms : List SendMsg) : 0 ≤ sentWorth quote base t0 S ms := by
  obtain ⟨v0, v1⟩ := validTick_iff.1 h0
  have hp := (spec_price_pos v0 v1).le
  exact Finset.sum_nonneg fun a _ => add_nonneg (Nat.cast_nonneg _) (mul_nonneg (Nat.cast_nonneg _) hp)

theorem sentWorth_ge {quote base : Denom} {t0 : Int} (h0 : ValidTick t0) {S : Finset Addr} {a : Addr} (ha : a ∈ S) (ms : List SendMsg) (d : Dir) :
    inWorth t0 d (received a (denomIn quote base d) ms) ≤ sentWorth quote base t0 S ms := by
  obtain ⟨v0, v1⟩ := validTick_iff.1 h0
  have hp := (spec_price_pos v0 v1).le
  have h := Finset.single_le_sum (f := fun a => (received a quote ms : ℚ) + received a base ms * price t0)
    (fun a _ => add_nonneg (Nat.cast_nonneg _) (mul_nonneg (Nat.cast_nonneg _) hp)) ha
  refine le_trans ?_ h
  cases d
  · simp only [inWorth, denomIn]
    linarith [mul_nonneg (Nat.cast_nonneg (α := ℚ) (received a base ms)) hp]
  · simp only [inWorth, denomIn]
    linarith [Nat.cast_nonneg (α := ℚ) (received a quote ms)]

theorem ClaimStep.worth_ge {sender : Addr} {tick : Int} {id : Nat} {s s' : Store} {b b' : Book} {r : Nat × List SendMsg × LimitOrder}
    (h : ClaimStep sender tick id s b r s' b') (hr : Rel s b) {ob : Orderbook} (hob : s.orderbook = some ob) {t0 : Int} (h0 : ValidTick t0)
    (S : Finset Addr) (d1 d2 : Denom) :
    bookWorth S t0 b ≤ bookWorth S t0 b' + sentWorth ob.quoteDenom ob.baseDenom t0 S r.2.1 +
      claimCosts t0 S [claimedEvent sender r.2.2 r.1 d1 d2] := by
  obtain ⟨g1, g2, g3, g4, g5, g6, g7⟩ := h
  rename_i s1 dir p q x ob' rc
  obtain rfl := orderbook_inj g4 hob
  have hr0 : MIN_TICK ≤ tick ∧ tick ≤ MAX_TICK := hr.range tick dir (by rw [g1]; simp)
  have hx : EntryOk x := by
    obtain ⟨_, _, hs, -, -⟩ := hr.sides tick dir
    exact hs.ok x (by rw [g1]; simp)
  have hev : claimCosts t0 S [claimedEvent sender (orderOf tick dir (sumBy Entry.placed p) { x with claimed := x.filled })
      (ownerAmount x.bounty (getMakerFee s) (valDown dir (x.filled - x.claimed) (priceNat tick))) d1 d2] =
      if x.owner ∈ S then inWorth t0 dir.opposite (6 / 94 * (ownerAmount x.bounty (getMakerFee s) (valDown dir (x.filled - x.claimed) (priceNat tick)) : Nat) + 1)
      else 0 := by
    simp [claimCosts, claimedEvent, orderOf]
  rw [hev, bookWorth_set (mem_tickRange.2 hr0), g1]
  simp only [queueWorth_append, queueWorth_cons]
  rw [order_claimed t0 tick dir hx]
  by_cases ho : x.owner ∈ S
  · rw [if_pos ho, if_pos ho, if_pos ho]
    have hs := sentWorth_ge (quote := ob.quoteDenom) (base := ob.baseDenom) h0 ho
      (claimMsgs sender x.owner rc (ob.oppositeDenom dir) x.bounty (getMakerFee s) (valDown dir (x.filled - x.claimed) (priceNat tick))) dir.opposite
    have hd : denomIn ob.quoteDenom ob.baseDenom dir.opposite = ob.oppositeDenom dir := by cases dir <;> rfl
    rw [hd] at hs
    have hb := bountyOk_iff.1 (hr.bounty tick dir x (by rw [g1]; simp))
    have hrec := received_owner sender x.owner rc (ob.oppositeDenom dir) x.bounty (getMakerFee s) (valDown dir (x.filled - x.claimed) (priceNat tick))
    have hge := ownerAmount_ge (v := valDown dir (x.filled - x.claimed) (priceNat tick)) hb hr.conf.fee
    rw [← claimMsgs_eq_split] at hrec
    have hrd := (round_claim (dir := dir) hr0 (x.filled - x.claimed)).2
    rw [← value_mul] at hrd
    generalize received x.owner _ _ = R at hs hrec
    generalize ownerAmount _ _ _ = A at hrec hge ⊢
    have hR : (A : ℚ) ≤ R := by exact_mod_cast hrec
    have hA : (94 * valDown dir (x.filled - x.claimed) (priceNat tick) : ℚ) ≤ 100 * A := by exact_mod_cast hge
    have hu := (inWorth_one_pos h0 dir.opposite).le
    rw [inWorth_mul] at hs
    rw [inWorth_mul t0 dir.opposite (value _ _ _), inWorth_mul t0 dir.opposite (6 / 94 * _ + 1)]
    generalize inWorth t0 dir.opposite 1 = u at hs hu ⊢
    have h1 : value dir (x.filled - x.claimed) tick ≤ R + (6 / 94 * A + 1) := by linarith
    have h2 := mul_le_mul_of_nonneg_right h1 hu
    linarith
  · rw [if_neg ho, if_neg ho, if_neg ho]
    linarith [sentWorth_nonneg (quote := ob.quoteDenom) (base := ob.baseDenom) h0 S
      (claimMsgs sender x.owner rc (ob.oppositeDenom dir) x.bounty (getMakerFee s) (valDown dir (x.filled - x.claimed) (priceNat tick)))]

theorem claimCosts_append (t0 : Int) (S : Finset Addr) (l l' : List Event) : claimCosts t0 S (l ++ l') = claimCosts t0 S l + claimCosts t0 S l' := by
  unfold claimCosts; rw [List.map_append, List.sum_append]

theorem ClaimRun.worth_ge {sender : Addr} {ob : Orderbook} {l : List (Int × Nat)} {s s' : Store} {b b' : Book} {ms : List SendMsg}
    {es : List Event} (h : ClaimRun sender ob l s b ms es s' b') (hr : Rel s b) (hob : s.orderbook = some ob) {t0 : Int} (h0 : ValidTick t0)
    (S : Finset Addr) :
    bookWorth S t0 b ≤ bookWorth S t0 b' + sentWorth ob.quoteDenom ob.baseDenom t0 S ms + claimCosts t0 S es := by
  induction h with
  | nil => simp [sentWorth, received, claimCosts]
  | @ok tick id rest s b r s1 b1 ms es s' b' h1 h2 _ ih =>
    have a := h2.worth_ge hr hob h0 S (ob.expectedDenom r.2.2.dir) (ob.oppositeDenom r.2.2.dir)
    have c := ih h2.rel (by rw [h2.orderbook]; exact hob)
    rw [sentWorth_append, ← List.singleton_append, claimCosts_append]
    linarith
  | @skip tick id rest s b e s1 ms es s' b' h1 h2 _ ih => exact ih (h2.rel hr) (by rw [h2.orderbook]; exact hob)

theorem queue_gross {t0 t : Int} (h0 : ValidTick t0) (ht : ValidTick t) {d : Dir} {S : Finset Addr} {q : List Entry} (hok : ∀ x ∈ q, EntryOk x)
    (ho : ∀ x ∈ q, x.owner ∈ S → x.left ≠ 0 → ¬ Better d t t0) (k : Nat) :
    queueWorth S t0 t d q ≤ queueWorth S t0 t d (fillQ k q) := by
  induction q generalizing k with
  | nil => simp [fillQ]
  | cons x q ih =>
    have ih' := ih (fun y hy => hok y (by simp [hy])) (fun y hy => ho y (by simp [hy])) (k - min k x.left)
    rw [fillQ, queueWorth_cons, queueWorth_cons]
    refine add_le_add ?_ ih'
    by_cases hs : x.owner ∈ S
    · rw [if_pos hs, if_pos hs]
      rw [order_filled t0 t d (hok x (by simp)) (Nat.min_le_right _ _)]
      have : 0 ≤ ((min k x.left : Nat) : ℚ) * (value d 1 t * inWorth t0 d.opposite 1 - inWorth t0 d 1) := by
        by_cases hl : x.left = 0
        · rw [hl]; simp
        · exact mul_nonneg (Nat.cast_nonneg _) (unit_gain h0 ht (ho x (by simp) hs hl))
      linarith
    · rw [if_neg hs, if_neg hs]

theorem holdings_ge {ch : Chain} {w w' : World} {op : Op} {resp : Response} (hop : ∀ dst c, op ≠ .mint dst c)
    (hs : step ch w op = .ok (w', resp)) {S : Finset Addr} (hS : ch.contract ∉ S) (quote base : Denom) {t0 : Int} (h0 : ValidTick t0) :
    holdings quote base t0 S w.bank + sentWorth quote base t0 S resp.msgs ≤
      holdings quote base t0 S w'.bank + ∑ a ∈ S, ((paysIn ch op a quote : ℚ) + paysIn ch op a base * price t0) := by
  obtain ⟨v0, v1⟩ := validTick_iff.1 h0
  have hp := (spec_price_pos v0 v1).le
  unfold holdings sentWorth
  rw [← Finset.sum_add_distrib, ← Finset.sum_add_distrib]
  refine Finset.sum_le_sum fun a ha => ?_
  have hac : a ≠ ch.contract := by rintro rfl; exact hS ha
  have key : ∀ d, (w.bank a d : ℚ) + received a d resp.msgs ≤ w'.bank a d + paysIn ch op a d := by
    intro d
    have h := C63_balances hop hs a d
    rw [if_neg hac] at h
    have h' : w.bank a d + received a d resp.msgs ≤ w'.bank a d + paysIn ch op a d := by omega
    exact_mod_cast h'
  have k1 := key quote
  have k2 := mul_le_mul_of_nonneg_right (key base) hp
  simp only [add_mul] at k2
  linarith

theorem pays_none {ch : Chain} {op : Op} {S : Finset Addr} (h : ∀ a ∈ S, signer op ≠ some a) (quote base : Denom) (t0 : Int) :
    ∑ a ∈ S, ((paysIn ch op a quote : ℚ) + paysIn ch op a base * price t0) = 0 := by
  refine Finset.sum_eq_zero fun a ha => ?_
  have key : ∀ d, paysIn ch op a d = 0 := by
    intro d
    unfold paysIn
    cases hp : payment ch op with
    | none => rfl
    | some x =>
      obtain ⟨src, dst, cs⟩ := x
      simp only
      rw [if_neg]
      rintro rfl
      apply h a ha
      cases op with
      | execute => simp only [payment, Option.some.injEq, Prod.mk.injEq] at hp; simp [signer, hp.1]
      | «sudo» time msg =>
        cases msg <;> simp only [payment, Option.some.injEq, Prod.mk.injEq, reduceCtorEq] at hp <;> simp [signer, hp.1]
      | transfer => simp only [payment, Option.some.injEq, Prod.mk.injEq] at hp; simp [signer, hp.1]
      | _ => simp [payment] at hp
  rw [key, key]
  simp

/-- One operation. -/
theorem maker_step {ch : Chain} {n : Nat} {w w' : World} {b : Book} (h : Traced ch n w b) {quote base : Denom}
    (hd : denoms w.store = .ok (quote, base)) {op : Op} {resp : Response} (hs : step ch w op = .ok (w', resp))
    {t0 : Int} (h0 : ValidTick t0) {S : Finset Addr} (hS : ch.contract ∉ S) (ho : swapper op = none ∨ OrdersAround b S t0)
    (hf : ∀ a ∈ S, signer op = some a → ∃ t1, MakerOp t1 op) :
    holdings quote base t0 S w.bank + bookWorth S t0 b ≤
      holdings quote base t0 S w'.bank + bookWorth S t0 (b.observe op w.store w'.store resp) + claimCosts t0 S resp.events := by
  obtain ⟨ob, hob, rfl, rfl⟩ := denoms_eq hd
  have hne := filledBook_rel h.rel hob
  have hst := h.step hs
  have hr := h.rel
  generalize b.observe op w.store w'.store resp = b' at hst
  generalize hs' : w'.store = s' at hst
  cases hst with
  | @place sender funds time tick dir q cb _ _ ob' h1 h2 h3 h4 =>
    obtain rfl := orderbook_inj h2 hob
    have hfl := holdings_ge (by simp) hs hS ob.quoteDenom ob.baseDenom h0
    rw [bookWorth_set (mem_tickRange.2 h4.range)]
    have e1 : sentWorth ob.quoteDenom ob.baseDenom t0 S [] = 0 := sentWorth_none (by simp)
    rw [e1] at hfl
    have e2 : queueWorth S t0 tick dir [newEntry w.store sender q cb time] =
        if sender ∈ S then inWorth t0 dir q else 0 := by
      simp only [queueWorth, List.map_cons, List.map_nil, List.sum_cons, List.sum_nil, add_zero, newEntry, orderWorth, Entry.left]
      simp only [Bool.false_eq_true, if_false, Nat.sub_zero]
      rw [value_linear dir 0, Nat.cast_zero, zero_mul, inWorth_mul t0 dir.opposite 0, zero_mul, add_zero]
    have e3 : ∑ a ∈ S, ((paysIn ch (.execute sender funds time (.placeLimit tick dir q cb)) a ob.quoteDenom : ℚ) +
        paysIn ch (.execute sender funds time (.placeLimit tick dir q cb)) a ob.baseDenom * price t0) = if sender ∈ S then inWorth t0 dir q else 0 := by
      rw [← Finset.sum_ite_eq' S sender (fun _ => inWorth t0 dir q)]
      refine Finset.sum_congr rfl fun a _ => ?_
      simp only [paysIn, payment, h4.funds]
      by_cases ha : a = sender
      · simp only [if_pos ha]
        cases dir <;> simp [amountOf, Orderbook.expectedDenom, inWorth, hne, Ne.symm hne]
      · simp only [if_neg ha]; simp
    rw [e3] at hfl
    rw [queueWorth_append, e2]
    have e4 : claimCosts t0 S [Event.placeLimit sender tick (w.store.orderId.getD 0) dir q (ob.expectedDenom dir) (ob.oppositeDenom dir)] = 0 := by
      simp [claimCosts]
    rw [e4]
    linarith
  | @cancel time tick dir _ s1 _ ob' p q x tr ts1 h1 h2 h3 h4 h5 h6 =>
    obtain rfl := orderbook_inj h2 hob
    have hfl := holdings_ge (by simp) hs hS ob.quoteDenom ob.baseDenom h0
    have hpz : ∑ a ∈ S, ((paysIn ch (.execute x.owner [] time (.cancelLimit tick x.id)) a ob.quoteDenom : ℚ) +
        paysIn ch (.execute x.owner [] time (.cancelLimit tick x.id)) a ob.baseDenom * price t0) = 0 := by
      refine Finset.sum_eq_zero fun a _ => ?_
      simp [paysIn, payment, amountOf]
    rw [hpz, add_zero] at hfl
    have ht : tick ∈ tickRange := mem_tickRange.2 (hr.range tick dir (by rw [h3]; simp))
    rw [bookWorth_set ht, h3]
    simp only [queueWorth_append, queueWorth_cons]
    have e4 : claimCosts t0 S [Event.cancelLimit x.owner tick x.id (x.placed - x.claimed) dir x.placed (ob.expectedDenom dir) (ob.oppositeDenom dir)] = 0 := by
      simp [claimCosts]
    rw [e4]
    simp only at hfl
    by_cases hin : x.owner ∈ S
    · rw [if_pos hin, if_pos hin]
      have hz : orderWorth t0 tick dir x = orderWorth t0 tick dir { x with cancelled := true } + inWorth t0 dir (x.placed - x.claimed : Nat) := by
        unfold orderWorth Entry.left
        simp only [h4.1, h5, if_true, Bool.false_eq_true, if_false]
        rw [Nat.cast_zero, inWorth_mul t0 dir 0, zero_mul]
        ring
      have hge := sentWorth_ge (quote := ob.quoteDenom) (base := ob.baseDenom) h0 hin
        [⟨x.owner, ⟨ob.expectedDenom dir, x.placed - x.claimed⟩, REPLY_ID_REFUND⟩] dir
      have hrec : received x.owner (denomIn ob.quoteDenom ob.baseDenom dir) [⟨x.owner, ⟨ob.expectedDenom dir, x.placed - x.claimed⟩, REPLY_ID_REFUND⟩] =
          x.placed - x.claimed := by
        cases dir <;> simp [received, denomIn, Orderbook.expectedDenom]
      rw [hrec] at hge
      rw [hz]
      linarith
    · rw [if_neg hin, if_neg hin]
      linarith [sentWorth_nonneg (quote := ob.quoteDenom) (base := ob.baseDenom) h0 S
        [⟨x.owner, ⟨ob.expectedDenom dir, x.placed - x.claimed⟩, REPLY_ID_REFUND⟩]]
  | @claim sender time tick id _ _ ob' r _ _ h1 h2 h3 h4 =>
    obtain rfl := orderbook_inj h2 hob
    have hfl := holdings_ge (by simp) hs hS ob.quoteDenom ob.baseDenom h0
    have hpz : ∑ a ∈ S, ((paysIn ch (.execute sender [] time (.claimLimit tick id)) a ob.quoteDenom : ℚ) +
        paysIn ch (.execute sender [] time (.claimLimit tick id)) a ob.baseDenom * price t0) = 0 := by
      refine Finset.sum_eq_zero fun a _ => ?_
      simp [paysIn, payment, amountOf]
    rw [hpz, add_zero] at hfl
    have hw1 := h4.worth_ge hr h2 h0 S (ob.expectedDenom r.2.2.dir) (ob.oppositeDenom r.2.2.dir)
    simp only at hfl ⊢
    linarith
  | @batch sender time l _ _ ob' ms es _ _ h1 h2 h3 h4 =>
    obtain rfl := orderbook_inj h2 hob
    have hfl := holdings_ge (by simp) hs hS ob.quoteDenom ob.baseDenom h0
    have hpz : ∑ a ∈ S, ((paysIn ch (.execute sender [] time (.batchClaim l)) a ob.quoteDenom : ℚ) +
        paysIn ch (.execute sender [] time (.batchClaim l)) a ob.baseDenom * price t0) = 0 := by
      refine Finset.sum_eq_zero fun a _ => ?_
      simp [paysIn, payment, amountOf]
    rw [hpz, add_zero] at hfl
    have hw1 := h4.worth_ge hr h2 h0 S
    have e4 : claimCosts t0 S (Event.method "batchClaimLimit" [("sender", .str sender)] :: es) = claimCosts t0 S es := by
      simp [claimCosts]
    simp only at hfl ⊢
    rw [e4]
    linarith
  | @swap time msg sender c out m fee target _ _ ob' dir F q' dust lp h1 h2 h3 h4 h5 =>
    obtain rfl := orderbook_inj h2 hob
    have hfl := holdings_ge (by simp) hs hS ob.quoteDenom ob.baseDenom h0
    have hns : ∀ a ∈ S, signer (.sudo time msg) ≠ some a := by
      intro a ha e
      obtain ⟨t1, hm⟩ := hf a ha e
      exact hm
    rw [pays_none hns, add_zero] at hfl
    have hA : OrdersAround b S t0 := ho.resolve_left (by cases msg <;> simp [SudoMsg.swapArgs] at h3 <;> simp [swapper])
    have hb : bookWorth S t0 b ≤ bookWorth S t0 (filledBook b F dir.opposite) := by
      unfold bookWorth overTicksQ
      refine Finset.sum_le_sum fun t ht => ?_
      have key : ∀ d, queueWorth S t0 t d (b t d) ≤ queueWorth S t0 t d (filledBook b F dir.opposite t d) := by
        intro d
        obtain ⟨_, _, hs, -, -⟩ := hr.sides t d
        exact queue_gross h0 (Finset.mem_Icc.1 ht) hs.ok (fun x hx => hA t d x hx) _
      exact add_le_add (key .bid) (key .ask)
    have e4 : claimCosts t0 S (swapResponse sender c out m (sumAmount F) q').events = 0 := by simp [claimCosts, swapResponse]
    rw [e4]
    linarith [sentWorth_nonneg (quote := ob.quoteDenom) (base := ob.baseDenom) h0 S (swapResponse sender c out m (sumAmount F) q').msgs]
  | config h1 _ _ hm he =>
    have e4 : claimCosts t0 S resp.events = 0 := by
      unfold claimCosts
      refine List.sum_eq_zero fun y hy => ?_
      obtain ⟨e, hx, rfl⟩ := List.mem_map.1 hy
      obtain ⟨m, a, rfl⟩ := he e hx
      rfl
    rw [e4]
    obtain ⟨v0, v1⟩ := validTick_iff.1 h0
    have hpos := (spec_price_pos v0 v1).le
    by_cases hmi : ∃ dst c, op = .mint dst c
    · obtain ⟨dst, c, rfl⟩ := hmi
      simp only [step, Except.ok.injEq, Prod.mk.injEq] at hs
      obtain ⟨rfl, -⟩ := hs
      rw [add_zero]
      refine add_le_add_left ?_ _
      unfold holdings
      refine Finset.sum_le_sum fun a ha => ?_
      have key : ∀ d, (w.bank a d : ℚ) ≤ ((if a = dst ∧ d = c.denom then w.bank a d + c.amount else w.bank a d : Nat) : ℚ) := by
        intro d
        split
        · push_cast; linarith [Nat.cast_nonneg (α := ℚ) c.amount]
        · exact le_refl _
      exact add_le_add (key _) (mul_le_mul_of_nonneg_right (key _) hpos)
    · have hfl := holdings_ge (fun dst c e => hmi ⟨dst, c, e⟩) hs hS ob.quoteDenom ob.baseDenom h0
      have hns : ∀ a ∈ S, signer op ≠ some a := by
        intro a ha e
        obtain ⟨t1, hmk⟩ := hf a ha e
        cases op with
        | execute sender funds time msg => cases msg <;> simp [MakerOp] at hmk <;> simp [Op.isConfig] at h1
        | _ => simp [MakerOp] at hmk
      rw [pays_none hns, add_zero] at hfl
      linarith [sentWorth_nonneg (quote := ob.quoteDenom) (base := ob.baseDenom) h0 S resp.msgs]

theorem around_step {ch : Chain} {n : Nat} {w w' : World} {b : Book} (h : Traced ch n w b) {op : Op} {resp : Response}
    (hs : step ch w op = .ok (w', resp)) {S : Finset Addr} {t0 : Int} (ho : OrdersAround b S t0)
    (hf : ∀ a ∈ S, signer op = some a → MakerOp t0 op) : OrdersAround (b.observe op w.store w'.store resp) S t0 := by
  rcases (h.step hs).shrinks with hsh | ⟨sender, funds, time, tick, dir, q, cb, x, rfl, rfl, e⟩
  · intro t d y hy hn hl
    obtain ⟨x, x1, x2, -, x4, -⟩ := hsh t d y hy
    exact ho t d x x1 (by rw [x2]; exact hn) (x4 hl)
  · rw [e]
    intro t d y hy hn hl
    by_cases e : t = tick ∧ d = dir
    · obtain ⟨rfl, rfl⟩ := e
      rw [Book.set_self] at hy
      rcases List.mem_append.1 hy with hy | hy
      · exact ho t d y hy hn hl
      · rw [List.mem_singleton] at hy
        subst hy
        exact hf _ hn rfl
    · rw [Book.set_ne _ _ (not_and_or.1 e)] at hy
      exact ho t d y hy hn hl

/-- C97: others cannot hurt a maker. Accounts that only place orders around some price, cancel and claim own at any later time, orders included, as much as
before, apart from what claims cost: at most 6% of the value claimed (maker fee and bounty) and less than one unit per claim. This holds whatever
all the others do. -/
theorem C97_makers_keep {ch : Chain} {n : Nat} {w : World} {b : Book} (h : Traced ch n w b) {quote base : Denom}
    (hd : denoms w.store = .ok (quote, base)) {t0 : Int} (h0 : ValidTick t0) {S : Finset Addr} (hS : ch.contract ∉ S)
    (ho : OrdersAround b S t0) {ops : List Op} (hf : ∀ op ∈ ops, ∀ a ∈ S, signer op = some a → MakerOp t0 op) :
    wealth quote base t0 S w.bank b ≤ wealth quote base t0 S (run ch w ops).bank (noted ch w b ops) +
      claimCosts t0 S (log ch w ops) ∧
    Traced ch (n + ops.length) (run ch w ops) (noted ch w b ops) := by
  induction ops generalizing n w b with
  | nil =>
    refine ⟨?_, h⟩
    simp [run, noted, log, claimCosts]
  | cons op ops ih =>
    have hw : Reachable ch w := ⟨_, h.reachable⟩
    have hrun : run ch w (op :: ops) = run ch (apply ch w op) ops := rfl
    have hf' : ∀ op ∈ ops, ∀ a ∈ S, signer op = some a → MakerOp t0 op := fun o h => hf o (by simp [h])
    have hlen : n + (op :: ops).length = n + 1 + ops.length := by rw [List.length_cons]; omega
    rw [hrun, hlen]
    cases hs : step ch w op with
    | error e =>
      have ha : apply ch w op = w := by unfold apply; rw [hs]
      have hn : noted ch w b (op :: ops) = noted ch w b ops := by simp only [noted, hs]
      have hl : log ch w (op :: ops) = log ch w ops := by simp only [log, hs]
      rw [ha, hn, hl]
      exact ih (Traced.failed h hs) hd ho hf'
    | ok x =>
      obtain ⟨w1, resp⟩ := x
      have ha : apply ch w op = w1 := by unfold apply; rw [hs]
      have hn : noted ch w b (op :: ops) = noted ch w1 (b.observe op w.store w1.store resp) ops := by simp only [noted, hs]
      have hl : log ch w (op :: ops) = resp.events ++ log ch w1 ops := by simp only [log, hs]
      have hd1 : denoms w1.store = .ok (quote, base) := by
        have := C39_denoms_fixed hw [op]
        rw [show run ch w [op] = w1 from ha] at this
        rw [this, hd]
      rw [ha, hn, hl, claimCosts_append]
      have h1 := ih (Traced.ok h hs) hd1 (around_step h hs ho (hf op (by simp))) hf'
      have h2 := maker_step h hd hs h0 hS (Or.inr ho) fun a ha e => ⟨t0, hf op (by simp) a ha e⟩
      simp only [wealth_eq] at h1 ⊢
      exact ⟨by linarith [h1.1], h1.2⟩

/-- Accounts without live orders own their balances. -/
theorem bookWorth_gone {s : Store} {b : Book} (hr : Rel s b) {S : Finset Addr} (h : ∀ k o, s.orders.get? k = some o → o.owner ∉ S) (t0 : Int) :
    bookWorth S t0 b = 0 := by
  unfold bookWorth overTicksQ
  refine Finset.sum_eq_zero fun t _ => ?_
  have key : ∀ d, queueWorth S t0 t d (b t d) = 0 := by
    intro d
    unfold queueWorth
    refine List.sum_eq_zero fun y hy => ?_
    obtain ⟨x, hx, rfl⟩ := List.mem_map.1 hy
    by_cases ho : x.owner ∈ S
    · rw [if_pos ho]
      have hnl : ¬ x.Live := by
        intro hl
        rcases hr.lookup t x.id with ⟨-, k⟩ | ⟨d', p, y, q, hsp, h1, h2, hg⟩
        · exact k d x hx rfl hl
        · obtain ⟨-, rfl, rfl⟩ := hr.same_entry hsp hx h2.symm
          exact h _ _ hg ho
      have hok : EntryOk x := by
        obtain ⟨_, _, hs, -, -⟩ := hr.sides t d
        exact hs.ok x hx
      have h1 : x.left = 0 ∧ x.filled - x.claimed = 0 := by
        unfold Entry.Live at hnl
        unfold Entry.left
        have := hok.filled_le
        have := hok.claimed_le
        cases hc : x.cancelled
        · have : ¬ x.claimed < x.placed := fun e => hnl ⟨hc, e⟩
          simp only [Bool.false_eq_true, if_false]
          omega
        · have := hok.canc hc
          exact ⟨rfl, by omega⟩
      unfold orderWorth
      rw [h1.1, h1.2, value_linear, Nat.cast_zero, zero_mul, inWorth_mul t0 d 0, inWorth_mul t0 d.opposite 0]
      ring
    · rw [if_neg ho]
  rw [key, key, add_zero]

/-- C97, in coins: makers who have no orders left in the end have got back, in coins, what they owned at first, apart from what the claims cost. -/
theorem C97_cash {ch : Chain} {n : Nat} {w : World} {b : Book} (h : Traced ch n w b) {quote base : Denom}
    (hd : denoms w.store = .ok (quote, base)) {t0 : Int} (h0 : ValidTick t0) {S : Finset Addr} (hS : ch.contract ∉ S)
    (ho : OrdersAround b S t0) {ops : List Op} (hf : ∀ op ∈ ops, ∀ a ∈ S, signer op = some a → MakerOp t0 op)
    (he : ∀ k o, (run ch w ops).store.orders.get? k = some o → o.owner ∉ S) :
    wealth quote base t0 S w.bank b ≤ holdings quote base t0 S (run ch w ops).bank + claimCosts t0 S (log ch w ops) := by
  obtain ⟨h1, h2⟩ := C97_makers_keep h hd h0 hS ho hf
  rw [wealth_eq _ _ _ _ (run ch w ops).bank, bookWorth_gone h2.rel he, add_zero] at h1
  exact h1

/-- dave bids, bob asks; frank and gina trade with them, zed claims dave's fill for the bounty; then dave and bob leave. -/
def Demo.makers : List Op :=
  [Demo.place "dave" 0 .bid 100000 (some (10 ^ 16)), Demo.place "bob" 10 .ask 50000 none, Demo.sell "frank" 60000 1, Demo.buy "gina" 30000 1,
    Demo.claim "zed" 0 0, Demo.sell "gina" 7 1, Demo.claim "dave" 0 0, Demo.cancel "dave" 0 0, Demo.claim "bob" 10 1, Demo.cancel "bob" 10 1]

-- The theorem applies to them: all operations succeed, the two makers end with less than 600 units less (zed's bounty, which is within the bound).
example : (Demo.makers.foldl (fun x op => (x.1 && (step Demo.ch x.2 op).toOption.isSome, apply Demo.ch x.2 op)) (true, Demo.w0)).1 = true ∧
    holdings "q" "b" 5 {"bob", "dave"} Demo.w0.bank < holdings "q" "b" 5 {"bob", "dave"} (run Demo.ch Demo.w0 Demo.makers).bank + 600 ∧
    holdings "q" "b" 5 {"bob", "dave"} Demo.w0.bank ≤
      holdings "q" "b" 5 {"bob", "dave"} (run Demo.ch Demo.w0 Demo.makers).bank + claimCosts 5 {"bob", "dave"} (log Demo.ch Demo.w0 Demo.makers) := by
  refine ⟨by decide +kernel, by decide +kernel, ?_⟩
  have h := C97_cash (.init Demo.initial) (quote := "q") (base := "b") (t0 := 5) (S := {"bob", "dave"}) (ops := Demo.makers) (by decide +kernel)
    ⟨by norm_num, by norm_num⟩ (by decide) (fun _ _ x hx => by simp [Book.empty] at hx) ?_ ?_
  · have e : wealth "q" "b" 5 {"bob", "dave"} Demo.w0.bank Book.empty = holdings "q" "b" 5 {"bob", "dave"} Demo.w0.bank := by
      unfold wealth overTicksQ
      rw [Finset.sum_eq_zero fun t _ => by simp [Book.empty, queueWorth], add_zero]
    rwa [e] at h
  · intro op hop a ha he
    simp only [Finset.mem_insert, Finset.mem_singleton] at ha
    simp only [Demo.makers, Demo.place, Demo.sell, Demo.buy, Demo.claim, Demo.cancel, List.mem_cons, List.not_mem_nil, or_false] at hop
    rcases hop with rfl | rfl | rfl | rfl | rfl | rfl | rfl | rfl | rfl | rfl <;> simp [MakerOp, Better] <;>
      (rcases ha with rfl | rfl <;> simp [signer] at he)
  · have e : (run Demo.ch Demo.w0 Demo.makers).store.orders = [] := by decide +kernel
    intro k o hg
    rw [e] at hg
    simp [SMap.get?] at hg

-- The condition on the makers' prices is needed: somebody who bids above his own reservation price loses to whoever sells to him.

end OB
