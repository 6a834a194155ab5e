import Verif.SpecExploit
import Verif.Props.Worth
import Verif.Props.Surplus
/- C96: what a coalition of accounts can gain. -/
namespace OB
open Spec

/-! ### Worth of queues -/

/-- What the orders of `S` are worth. -/
def bookWorth (S : Finset Addr) (t0 : Int) (b : Book) : ℚ :=
  overTicksQ fun t => queueWorth S t0 t .bid (b t .bid) + queueWorth S t0 t .ask (b t .ask)

theorem inWorth_mul (t0 : Int) (d : Dir) (n : ℚ) : inWorth t0 d n = n * inWorth t0 d 1 := by
  cases d <;> simp [inWorth]

theorem inWorth_one_pos {t0 : Int} (h : ValidTick t0) (d : Dir) : 0 < inWorth t0 d 1 := by
  obtain ⟨h0, h1⟩ := validTick_iff.1 h
  have := spec_price_pos h0 h1
  cases d <;> simp [inWorth, this]

theorem queueWorth_cons (S : Finset Addr) (t0 t : Int) (d : Dir) (x : Entry) (q : List Entry) :
    queueWorth S t0 t d (x :: q) = (if x.owner ∈ S then orderWorth t0 t d x else 0) + queueWorth S t0 t d q := by
  simp [queueWorth]

theorem queueWorth_append (S : Finset Addr) (t0 t : Int) (d : Dir) (p q : List Entry) :
    queueWorth S t0 t d (p ++ q) = queueWorth S t0 t d p + queueWorth S t0 t d q := by
  simp [queueWorth]

theorem bookWorth_set {S : Finset Addr} {t0 : Int} {b : Book} {tick : Int} {dir : Dir} {q : List Entry} (ht : tick ∈ tickRange) :
    bookWorth S t0 (b.set tick dir q) = bookWorth S t0 b + (queueWorth S t0 tick dir q - queueWorth S t0 tick dir (b tick dir)) := by
  unfold bookWorth
  rw [overTicksQ_eq, overTicksQ_eq, ← Finset.add_sum_erase _ _ ht,
    ← Finset.add_sum_erase tickRange (fun t => queueWorth S t0 t .bid (b t .bid) + queueWorth S t0 t .ask (b t .ask)) ht]
  have e : ∑ t ∈ tickRange.erase tick, (queueWorth S t0 t .bid (b.set tick dir q t .bid) + queueWorth S t0 t .ask (b.set tick dir q t .ask)) =
      ∑ t ∈ tickRange.erase tick, (queueWorth S t0 t .bid (b t .bid) + queueWorth S t0 t .ask (b t .ask)) := by
    refine Finset.sum_congr rfl fun t h => ?_
    have hne := (Finset.mem_erase.1 h).1
    rw [Book.set_ne _ _ (Or.inl hne), Book.set_ne _ _ (Or.inl hne)]
  rw [e]
  cases dir
  · rw [Book.set_self, Book.set_ne _ _ (Or.inr (by simp))]; ring
  · rw [Book.set_self, Book.set_ne _ _ (Or.inr (by simp))]; ring

theorem orderWorth_nonneg {t0 t : Int} (h0 : ValidTick t0) (ht : ValidTick t) (d : Dir) (x : Entry) : 0 ≤ orderWorth t0 t d x := by
  unfold orderWorth
  rw [inWorth_mul, inWorth_mul t0 d.opposite, value_linear]
  have a := (inWorth_one_pos h0 d).le
  have b := (inWorth_one_pos h0 d.opposite).le
  have c := (value_one_pos (side := d) ht).le
  exact add_nonneg (mul_nonneg (Nat.cast_nonneg _) a) (mul_nonneg (mul_nonneg (Nat.cast_nonneg _) c) b)

theorem queueWorth_nonneg {t0 t : Int} (h0 : ValidTick t0) (ht : ValidTick t) (S : Finset Addr) (d : Dir) (q : List Entry) :
    0 ≤ queueWorth S t0 t d q := by
  induction q with
  | nil => simp [queueWorth]
  | cons x q ih =>
    rw [queueWorth_cons]
    refine add_nonneg ?_ ih
    split
    · exact orderWorth_nonneg h0 ht d x
    · exact le_refl _

theorem bookWorth_nonneg {t0 : Int} (h0 : ValidTick t0) (S : Finset Addr) (b : Book) : 0 ≤ bookWorth S t0 b := by
  unfold bookWorth overTicksQ
  exact Finset.sum_nonneg fun t ht =>
    add_nonneg (queueWorth_nonneg h0 (Finset.mem_Icc.1 ht) S _ _) (queueWorth_nonneg h0 (Finset.mem_Icc.1 ht) S _ _)

/-! ### Coins -/

/-- What `S` is sent. -/
def sentWorth (quote base : Denom) (t0 : Int) (S : Finset Addr) (ms : List SendMsg) : ℚ :=
  ∑ a ∈ S, ((received a quote ms : ℚ) + received a base ms * price t0)

theorem sentWorth_append (quote base : Denom) (t0 : Int) (S : Finset Addr) (ms ms' : List SendMsg) :
    sentWorth quote base t0 S (ms ++ ms') = sentWorth quote base t0 S ms + sentWorth quote base t0 S ms' := by
  unfold sentWorth received
  rw [← Finset.sum_add_distrib]
  refine Finset.sum_congr rfl fun a _ => ?_
  simp only [List.map_append, List.sum_append]
  push_cast
  ring

theorem sentWorth_none {quote base : Denom} {t0 : Int} {S : Finset Addr} {ms : List SendMsg} (h : ∀ m ∈ ms, m.to ∉ S) :
    sentWorth quote base t0 S ms = 0 := by
  unfold sentWorth
  refine Finset.sum_eq_zero fun a ha => ?_
  rw [received_none fun m hm e => h m hm (e ▸ ha), received_none fun m hm e => h m hm (e ▸ ha)]
  simp

theorem received_le_spent (S : Finset Addr) (d : Denom) (ms : List SendMsg) : ∑ a ∈ S, received a d ms ≤ spent d ms := by
  induction ms with
  | nil => simp [received, spent]
  | cons m ms ih =>
    have e : ∀ a, received a d (m :: ms) = (if m.to = a ∧ m.coin.denom = d then m.coin.amount else 0) + received a d ms := by
      intro a; simp [received]
    have e2 : spent d (m :: ms) = (if m.coin.denom = d then m.coin.amount else 0) + spent d ms := by simp [spent]
    rw [e2, Finset.sum_congr rfl fun a _ => e a, Finset.sum_add_distrib]
    refine Nat.add_le_add ?_ ih
    by_cases hd : m.coin.denom = d
    · simp only [hd, and_true, if_true]
      rw [Finset.sum_ite_eq]
      split <;> omega
    · simp [hd]

theorem sentWorth_le {quote base : Denom} {t0 : Int} (h0 : ValidTick t0) (S : Finset Addr) (ms : List SendMsg) :
    sentWorth quote base t0 S ms ≤ spent quote ms + spent base ms * price t0 := by
  obtain ⟨v0, v1⟩ := validTick_iff.1 h0
  have hp := (spec_price_pos v0 v1).le
  unfold sentWorth
  rw [Finset.sum_add_distrib, ← Finset.sum_mul]
  have a : (∑ a ∈ S, (received a quote ms : ℚ)) ≤ spent quote ms := by exact_mod_cast received_le_spent S quote ms
  have b : (∑ a ∈ S, (received a base ms : ℚ)) ≤ spent base ms := by exact_mod_cast received_le_spent S base ms
  exact add_le_add a (mul_le_mul_of_nonneg_right b hp)

/-- Operations that pay the contract only. -/
def PaysContract (ch : Chain) (op : Op) : Prop := ∀ src dst cs, payment ch op = some (src, dst, cs) → dst = ch.contract

theorem holdings_flow {ch : Chain} {w w' : World} {op : Op} {resp : Response} (hop : ∀ dst c, op ≠ .mint dst c)
    (hs : step ch w op = .ok (w', resp)) (hpc : PaysContract ch op) {S : Finset Addr} (hS : ch.contract ∉ S) (quote base : Denom) (t0 : Int) :
    holdings quote base t0 S w'.bank + ∑ a ∈ S, ((paysIn ch op a quote : ℚ) + paysIn ch op a base * price t0) =
      holdings quote base t0 S w.bank + sentWorth quote base t0 S resp.msgs := by
  unfold holdings sentWorth
  rw [← Finset.sum_add_distrib, ← Finset.sum_add_distrib]
  refine Finset.sum_congr rfl fun a ha => ?_
  have hac : a ≠ ch.contract := by rintro rfl; exact hS ha
  have hg : ∀ d, getsPaid ch op a d = 0 := by
    intro d
    unfold getsPaid
    cases hp : payment ch op with
    | none => rfl
    | some x =>
      obtain ⟨src, dst, cs⟩ := x
      simp only
      rw [if_neg fun e => hac (e.trans (hpc _ _ _ hp))]
  have key : ∀ d, (w'.bank a d : ℚ) + paysIn ch op a d = w.bank a d + received a d resp.msgs := by
    intro d
    have h := C63_balances hop hs a d
    rw [if_neg hac, hg] at h
    have h' : w'.bank a d + paysIn ch op a d = w.bank a d + received a d resp.msgs := h
    exact_mod_cast h'
  have k1 := key quote
  have k2 := congrArg (· * price t0) (key base)
  simp only [add_mul] at k2
  linarith

theorem pays_nonneg {t0 : Int} (h0 : ValidTick t0) (ch : Chain) (op : Op) (S : Finset Addr) (quote base : Denom) :
    0 ≤ ∑ a ∈ S, ((paysIn ch op a quote : ℚ) + paysIn ch op a base * price t0) := by
  obtain ⟨v0, v1⟩ := validTick_iff.1 h0
  have hp := (spec_price_pos v0 v1).le
  exact Finset.sum_nonneg fun a _ => add_nonneg (Nat.cast_nonneg _) (mul_nonneg (Nat.cast_nonneg _) hp)

/-! ### Claims -/

theorem order_claimed (t0 t : Int) (d : Dir) {x : Entry} (hx : EntryOk x) :
    orderWorth t0 t d { x with claimed := x.filled } = orderWorth t0 t d x - inWorth t0 d.opposite (value d (x.filled - x.claimed) t) := by
  unfold orderWorth
  have e : ({ x with claimed := x.filled } : Entry).left = x.left := rfl
  rw [e]
  have e2 : value d (({ x with claimed := x.filled } : Entry).filled - ({ x with claimed := x.filled } : Entry).claimed) t = 0 := by
    simp only [Nat.sub_self]
    rw [value_linear]; simp
  rw [e2, inWorth_mul t0 d.opposite 0]
  ring

theorem ClaimStep.worth_le {sender : Addr} {tick : Int} {id : Nat} {s s' : Store} {b b' : Book} {r : Nat × List SendMsg × LimitOrder}
    (h : ClaimStep sender tick id s b r s' b') (hr : Rel s b) {ob : Orderbook} (hob : s.orderbook = some ob) {t0 : Int} (h0 : ValidTick t0)
    {S : Finset Addr}
    (hf : ∀ d x, x ∈ b tick d → x.Live → x.id = id → x.owner ∉ S → sender ∉ S ∧ ∀ a, s.makerFeeRecipient = some a → a ∉ S) :
    bookWorth S t0 b' + sentWorth ob.quoteDenom ob.baseDenom t0 S r.2.1 ≤ bookWorth S t0 b := by
  have hne := filledBook_rel hr hob
  obtain ⟨dir, p, x, q, h1, h2, h3, h4, h5, h6, h7, h8⟩ := h.msgs_sum hr hob
  have hx : EntryOk x := by
    obtain ⟨_, _, hs, -, -⟩ := hr.sides tick dir
    exact hs.ok x (by rw [h1]; simp)
  rw [h6, bookWorth_set h5, h1, queueWorth_append, queueWorth_append, queueWorth_cons, queueWorth_cons, order_claimed t0 tick dir hx]
  have hvt : ValidTick tick := validTick_iff.2 (mem_tickRange.1 h5)
  by_cases ho : x.owner ∈ S
  · rw [if_pos ho, if_pos (show ({ x with claimed := x.filled } : Entry).owner ∈ S from ho)]
    have hle := sentWorth_le (quote := ob.quoteDenom) (base := ob.baseDenom) h0 S r.2.1
    have hrd := (round_claim (dir := dir) (mem_tickRange.1 h5) (x.filled - x.claimed)).1
    rw [← value_mul] at hrd
    have hv : (spent ob.quoteDenom r.2.1 : ℚ) + spent ob.baseDenom r.2.1 * price t0 =
        inWorth t0 dir.opposite (valDown dir (x.filled - x.claimed) (priceNat tick) : ℚ) := by
      rw [spent_eq, spent_eq, h8, h8]
      cases dir <;> simp [Dir.opposite, Orderbook.expectedDenom, inWorth, hne, Ne.symm hne]
    rw [hv, inWorth_mul] at hle
    rw [inWorth_mul t0 dir.opposite (value _ _ _)]
    have := mul_le_mul_of_nonneg_right hrd (inWorth_one_pos h0 dir.opposite).le
    linarith
  · rw [if_neg ho, if_neg (show ({ x with claimed := x.filled } : Entry).owner ∉ S from ho)]
    obtain ⟨f1, f2⟩ := hf dir x (by rw [h1]; simp) h2 h3 ho
    have hz : sentWorth ob.quoteDenom ob.baseDenom t0 S r.2.1 = 0 := by
      obtain ⟨g1, g2, g3, g4, g5, g6, g7⟩ := h
      rename_i s1 dir' p' q' x' ob' rc
      have hxe : x'.owner = x.owner := by
        have e1 := (hr.orders tick x.id _).2 ⟨dir, p, x, q, h1, h2, rfl, rfl⟩
        have e2 := (hr.orders tick x'.id _).2 ⟨dir', p', x', q', g1, g2, rfl, rfl⟩
        rw [g3] at e2; rw [h3] at e1
        rw [e1] at e2
        exact (congrArg LimitOrder.owner (Option.some.inj e2)).symm
      refine sentWorth_none fun m hm => ?_
      rw [claimMsgs_eq_split] at hm
      rcases split_to hm with e | e | e <;> rw [e]
      · exact f1
      · rw [hxe]; exact ho
      · exact f2 rc g5
    rw [hz]
    linarith

/-- Orders stay with their owners; what is open was open. -/
def Shrinks (b b' : Book) : Prop :=
  ∀ t d, ∀ y ∈ b' t d, ∃ x ∈ b t d, x.owner = y.owner ∧ x.id = y.id ∧ (y.left ≠ 0 → x.left ≠ 0) ∧ (y.Live → x.Live)

theorem Shrinks.refl (b : Book) : Shrinks b b := fun _ _ y hy => ⟨y, hy, rfl, rfl, id, id⟩

theorem Shrinks.trans {b b1 b2 : Book} (h : Shrinks b b1) (g : Shrinks b1 b2) : Shrinks b b2 := by
  intro t d y hy
  obtain ⟨x, x1, x2, x3, x4, x5⟩ := g t d y hy
  obtain ⟨z, z1, z2, z3, z4, z5⟩ := h t d x x1
  exact ⟨z, z1, z2.trans x2, z3.trans x3, z4 ∘ x4, z5 ∘ x5⟩

theorem Shrinks.set {b : Book} {tick : Int} {dir : Dir} {p q : List Entry} {x x' : Entry} (h : b tick dir = p ++ x :: q)
    (ho : x.owner = x'.owner) (hi : x.id = x'.id) (hl : x'.left ≠ 0 → x.left ≠ 0) (hv : x'.Live → x.Live) :
    Shrinks b (b.set tick dir (p ++ x' :: q)) := by
  intro t d y hy
  by_cases e : t = tick ∧ d = dir
  · obtain ⟨rfl, rfl⟩ := e
    rw [Book.set_self] at hy
    rcases List.mem_append.1 hy with hy | hy
    · exact ⟨y, by rw [h]; simp [hy], rfl, rfl, id, id⟩
    · rcases List.mem_cons.1 hy with rfl | hy
      · exact ⟨x, by rw [h]; simp, ho, hi, hl, hv⟩
      · exact ⟨y, by rw [h]; simp [hy], rfl, rfl, id, id⟩
  · rw [Book.set_ne _ _ (not_and_or.1 e)] at hy
    exact ⟨y, hy, rfl, rfl, id, id⟩

theorem ClaimStep.shrinks {sender : Addr} {tick : Int} {id : Nat} {s s' : Store} {b b' : Book} {r : Nat × List SendMsg × LimitOrder}
    (h : ClaimStep sender tick id s b r s' b') : Shrinks b b' := by
  obtain ⟨h1, h2, h3, h4, h5, h6, h7⟩ := h
  exact Shrinks.set h1 rfl rfl (fun h => h) fun _ => h2

theorem ClaimRun.shrinks {sender : Addr} {ob : Orderbook} {l : List (Int × Nat)} {s s' : Store} {b b' : Book} {ms : List SendMsg}
    {es : List Event} (h : ClaimRun sender ob l s b ms es s' b') : Shrinks b b' := by
  induction h with
  | nil => exact .refl _
  | ok _ h _ ih => exact h.shrinks.trans ih
  | skip _ _ _ ih => exact ih

theorem ClaimRun.worth_le {sender : Addr} {ob : Orderbook} {l : List (Int × Nat)} {s s' : Store} {b b' : Book} {ms : List SendMsg}
    {es : List Event} (h : ClaimRun sender ob l s b ms es s' b') (hr : Rel s b) (hob : s.orderbook = some ob) {t0 : Int} (h0 : ValidTick t0)
    {S : Finset Addr}
    (hf : ∀ k ∈ l, ∀ d x, x ∈ b k.1 d → x.Live → x.id = k.2 → x.owner ∉ S → sender ∉ S ∧ ∀ a, s.makerFeeRecipient = some a → a ∉ S) :
    bookWorth S t0 b' + sentWorth ob.quoteDenom ob.baseDenom t0 S ms ≤ bookWorth S t0 b := by
  induction h with
  | nil => simp [sentWorth, received]
  | @ok tick id rest s b r s1 b1 ms es s' b' h1 h2 _ ih =>
    have a := h2.worth_le hr hob h0 (hf (tick, id) (by simp))
    have c := ih h2.rel (by rw [h2.orderbook]; exact hob) (by
      intro k hk d y hy hl hid ho
      obtain ⟨x, x1, x2, x3, -, x5⟩ := h2.shrinks k.1 d y hy
      have := hf k (by simp [hk]) d x x1 (x5 hl) (x3.trans hid) (by rw [x2]; exact ho)
      rw [h2.conf.recipient]
      exact this)
    rw [sentWorth_append]
    linarith
  | @skip tick id rest s b e s1 ms es s' b' h1 h2 _ ih =>
    exact ih (h2.rel hr) (by rw [h2.orderbook]; exact hob) (by
      intro k hk
      rw [h2.conf.recipient]
      exact hf k (by simp [hk]))

/-! ### Swaps -/

theorem order_filled (t0 t : Int) (d : Dir) {x : Entry} (hx : EntryOk x) {m : Nat} (hm : m ≤ x.left) :
    orderWorth t0 t d { x with filled := x.filled + m } =
      orderWorth t0 t d x + m * (value d 1 t * inWorth t0 d.opposite 1 - inWorth t0 d 1) := by
  unfold orderWorth
  have e : ({ x with filled := x.filled + m } : Entry).left = x.left - m := by
    unfold Entry.left at hm ⊢
    split <;> rename_i hc
    · simp
    · simp only at hc ⊢; omega
  have e2 : ({ x with filled := x.filled + m } : Entry).filled - ({ x with filled := x.filled + m } : Entry).claimed = x.filled - x.claimed + m := by
    have := hx.claimed_le
    simp only; omega
  rw [e, e2, inWorth_mul, inWorth_mul t0 d.opposite, inWorth_mul t0 d x.left, inWorth_mul t0 d.opposite (value _ (x.filled - x.claimed) _), value_linear,
    value_linear d (x.filled - x.claimed), Nat.cast_sub hm, Nat.cast_add]
  ring

theorem queue_filled {t0 t : Int} {d : Dir} {S : Finset Addr} (hc : ¬ Better d t t0 → 0 ≤ value d 1 t * inWorth t0 d.opposite 1 - inWorth t0 d 1)
    {q : List Entry} (hok : ∀ x ∈ q, EntryOk x) (ho : ∀ x ∈ q, x.owner ∉ S → x.left ≠ 0 → ¬ Better d t t0) {k : Nat} (hk : k ≤ sumBy Entry.left q) :
    queueWorth S t0 t d (fillQ k q) ≤ queueWorth S t0 t d q + k * (value d 1 t * inWorth t0 d.opposite 1 - inWorth t0 d 1) := by
  induction q generalizing k with
  | nil => simp at hk; simp [fillQ, hk]
  | cons x q ih =>
    rw [sumBy_cons] at hk
    have ih' := ih (fun y hy => hok y (by simp [hy])) (fun y hy => ho y (by simp [hy])) (k := k - min k x.left) (by omega)
    rw [fillQ, queueWorth_cons, queueWorth_cons]
    have hcast : ((k - min k x.left : Nat) : ℚ) = k - (min k x.left : Nat) := by rw [Nat.cast_sub (Nat.min_le_left _ _)]
    rw [hcast] at ih'
    generalize hg : value d 1 t * inWorth t0 d.opposite 1 - inWorth t0 d 1 = c at *
    have hx : (if ({ x with filled := x.filled + min k x.left } : Entry).owner ∈ S then orderWorth t0 t d { x with filled := x.filled + min k x.left } else 0)
        ≤ (if x.owner ∈ S then orderWorth t0 t d x else 0) + (min k x.left : Nat) * c := by
      by_cases hs : x.owner ∈ S
      · rw [if_pos hs, if_pos (show ({ x with filled := x.filled + min k x.left } : Entry).owner ∈ S from hs),
          order_filled t0 t d (hok x (by simp)) (Nat.min_le_right _ _), hg]
      · rw [if_neg hs, if_neg (show ({ x with filled := x.filled + min k x.left } : Entry).owner ∉ S from hs), zero_add]
        by_cases hl : x.left = 0
        · rw [hl]; simp
        · exact mul_nonneg (Nat.cast_nonneg _) (hc (ho x (by simp) hs hl))
    linarith

/-- At the price of tick `t0`, an order that is not better than this price gets its money's worth. -/
theorem unit_gain {t0 t : Int} (h0 : ValidTick t0) (ht : ValidTick t) {d : Dir} (hb : ¬ Better d t t0) :
    0 ≤ value d 1 t * inWorth t0 d.opposite 1 - inWorth t0 d 1 := by
  have h1 := value_one_mono h0 ht hb
  have h2 := mul_le_mul_of_nonneg_right h1 (inWorth_one_pos h0 d.opposite).le
  have h3 : value d 1 t0 * inWorth t0 d.opposite 1 = inWorth t0 d 1 := by
    obtain ⟨v0, v1⟩ := validTick_iff.1 h0
    have := spec_price_pos v0 v1
    cases d <;> simp only [value, Dir.opposite, inWorth] <;> field_simp <;> norm_num
  linarith

/-- A swap adds to the orders of `S` no more than the sender's holdings lose. -/
theorem swap_worth {ch : Chain} {n : Nat} {w w' : World} {b : Book} (h : Traced ch n w b) (hw : Reachable ch w) {quote base : Denom}
    (hd : denoms w.store = .ok (quote, base)) {r : SwapReq} {time : Nat} {resp : Response} (hs : step ch w (r.op time) = .ok (w', resp))
    {t0 : Int} (h0 : ValidTick t0) {S : Finset Addr} (ho : OutsidersAround b S t0) (hfine : FineBids w.store) :
    bookWorth S t0 (b.observe (r.op time) w.store w'.store resp) + holdings quote base t0 {r.sender} w'.bank ≤
      bookWorth S t0 b + holdings quote base t0 {r.sender} w.bank := by
  obtain ⟨-, -, hne, ⟨side, hp⟩, out, refund, h1, -, -, h2, hev, h3⟩ := C18_swap_payment hw hd hs
  obtain ⟨refund', dust, g1, g2, -⟩ := C22_input_accounted hw hd hs hp
  obtain ⟨out', k1, k2, k3, -, -, k4, -⟩ := C24_swap_conservation hw hd hs hp
  rw [h1] at k1
  obtain rfl := Option.some.inj k1
  have e : refund' = refund := by
    rw [h2] at g1
    simp only [List.tail_cons] at g1
    by_cases z : refund = 0 <;> by_cases z' : refund' = 0
    · omega
    · rw [if_pos z, if_neg z'] at g1; simp at g1
    · rw [if_neg z, if_pos z'] at g1; simp at g1
    · rw [if_neg z, if_neg z'] at g1
      simp only [List.cons.injEq, SendMsg.mk.injEq, Coin.mk.injEq, true_and, and_true] at g1
      exact g1.symm
  subst e
  -- the book
  have hbook : b.observe (r.op time) w.store w'.store resp = fun t d => fillQ (taken w.store w'.store t d) (b t d) := by
    unfold Book.observe
    rw [hev]
    rfl
  have hother : ∀ t, taken w.store w'.store t side.opposite = 0 := by
    intro t
    unfold taken tickLiquidity
    rw [k4 t]
    omega
  have hq : ∀ t ∈ Finset.Icc (-108000000 : Int) 182402823, ∀ d,
      queueWorth S t0 t d (fillQ (taken w.store w'.store t d) (b t d)) ≤
        queueWorth S t0 t d (b t d) + taken w.store w'.store t d * (value d 1 t * inWorth t0 d.opposite 1 - inWorth t0 d 1) := by
    intro t ht d
    refine queue_filled (fun hb => unit_gain h0 (Finset.mem_Icc.1 ht) hb) ?_ (fun x hx => ho t d x hx) ?_
    · obtain ⟨_, _, hs, -, -⟩ := h.rel.sides t d
      exact hs.ok
    · have := h.rel.tickLiq t d
      unfold taken; omega
  have hbw : bookWorth S t0 (b.observe (r.op time) w.store w'.store resp) ≤
      bookWorth S t0 b + ∑ t ∈ Finset.Icc (-108000000 : Int) 182402823,
        taken w.store w'.store t side * (value side 1 t * inWorth t0 side.opposite 1 - inWorth t0 side 1) := by
    rw [hbook]
    unfold bookWorth overTicksQ
    rw [← Finset.sum_add_distrib]
    refine Finset.sum_le_sum fun t ht => ?_
    have a := hq t ht .bid
    have c := hq t ht .ask
    have z := hother t
    beta_reduce
    cases side
    · simp only [Dir.opposite] at z
      rw [z, Nat.cast_zero, zero_mul, add_zero] at c
      rw [z]
      linarith
    · simp only [Dir.opposite] at z
      rw [z, Nat.cast_zero, zero_mul, add_zero] at a
      rw [z]
      linarith
  have hsum : ∑ t ∈ Finset.Icc (-108000000 : Int) 182402823,
        (taken w.store w'.store t side : ℚ) * (value side 1 t * inWorth t0 side.opposite 1 - inWorth t0 side 1) =
      (∑ t ∈ Finset.Icc (-108000000 : Int) 182402823, value side (taken w.store w'.store t side) t) * inWorth t0 side.opposite 1 - out * inWorth t0 side 1 := by
    rw [← k2]
    unfold overTicks
    push_cast
    rw [Finset.sum_mul, Finset.sum_mul, ← Finset.sum_sub_distrib]
    refine Finset.sum_congr rfl fun t _ => ?_
    rw [value_linear side (taken _ _ _ _)]
    ring
  have hcharge : ∑ t ∈ Finset.Icc (-108000000 : Int) 182402823, value side (taken w.store w'.store t side) t ≤ (r.tokenIn.amount : ℚ) - refund' := by
    have hc : ((overTicks fun t => charge side (taken w.store w'.store t side) t : Nat) : ℚ) ≤ (r.tokenIn.amount : ℚ) - refund' := by
      have : ((overTicks fun t => charge side (taken w.store w'.store t side) t : Nat) + refund' + dust : ℚ) = r.tokenIn.amount := by exact_mod_cast g2
      have hdn : (0 : ℚ) ≤ dust := Nat.cast_nonneg _
      linarith
    refine le_trans ?_ hc
    unfold overTicks
    push_cast
    refine Finset.sum_le_sum fun t ht => ?_
    by_cases hz : taken w.store w'.store t side = 0
    · rw [hz]; cases side <;> simp [value]
    refine ((C21_charge_fair side _ t (Finset.mem_Icc.1 ht)).2.1 ?_).2
    cases side
    · exact Or.inr (hfine t (by unfold taken at hz; omega))
    · exact Or.inl rfl
  -- the sender
  have p1 : (w'.bank r.sender r.tokenIn.denom : ℚ) + r.tokenIn.amount = w.bank r.sender r.tokenIn.denom + refund' := by exact_mod_cast h3.senderIn
  have p2 : (w'.bank r.sender r.outDenom : ℚ) = w.bank r.sender r.outDenom + out := by exact_mod_cast h3.senderOut
  have hH : holdings quote base t0 {r.sender} w'.bank =
      holdings quote base t0 {r.sender} w.bank + out * inWorth t0 side 1 - ((r.tokenIn.amount : ℚ) - refund') * inWorth t0 side.opposite 1 := by
    unfold holdings
    rw [Finset.sum_singleton, Finset.sum_singleton]
    obtain ⟨q1, q2⟩ := hp
    cases side
    · simp only [denomOut, denomIn] at q1 q2
      rw [q1] at p1; rw [q2] at p2
      simp only [inWorth, Dir.opposite]
      rw [p2, show (w'.bank r.sender base : ℚ) = w.bank r.sender base + refund' - r.tokenIn.amount by linarith]
      ring
    · simp only [denomOut, denomIn] at q1 q2
      rw [q1] at p1; rw [q2] at p2
      simp only [inWorth, Dir.opposite]
      rw [p2, show (w'.bank r.sender quote : ℚ) = w.bank r.sender quote + refund' - r.tokenIn.amount by linarith]
      ring
  have hm := mul_le_mul_of_nonneg_right hcharge (inWorth_one_pos h0 side.opposite).le
  rw [hH]
  linarith

theorem fillQ_shrinks {k : Nat} {q : List Entry} : ∀ y ∈ fillQ k q, ∃ x ∈ q, x.owner = y.owner ∧ x.id = y.id ∧ (y.left ≠ 0 → x.left ≠ 0) ∧ (y.Live → x.Live) := by
  induction q generalizing k with
  | nil => simp [fillQ]
  | cons x q ih =>
    intro y hy
    rw [fillQ] at hy
    rcases List.mem_cons.1 hy with rfl | hy
    · refine ⟨x, by simp, rfl, rfl, ?_, fun h => h⟩
      intro hne hz
      apply hne
      rw [hz]
      simpa [Entry.left] using hz
    · obtain ⟨z, hz, h⟩ := ih y hy
      exact ⟨z, by simp [hz], h⟩

/-- Every operation but a placement only shrinks the open orders. -/
theorem StoreStep.shrinks {ch : Chain} {op : Op} {s s' : Store} {b b' : Book} {resp : Response} (h : StoreStep ch op s b resp s' b') :
    Shrinks b b' ∨ ∃ sender funds time tick dir q cb x, op = .execute sender funds time (.placeLimit tick dir q cb) ∧ x.owner = sender ∧
      b' = b.set tick dir (b tick dir ++ [x]) := by
  cases h with
  | place h1 h2 h3 h4 => exact Or.inr ⟨_, _, _, _, _, _, _, _, rfl, rfl, rfl⟩
  | cancel _ _ h3 h4 =>
    refine Or.inl (Shrinks.set h3 rfl rfl ?_ ?_)
    · intro hne; exact absurd (by simp [Entry.left]) hne
    · intro hl; exact h4
  | claim _ _ _ h4 => exact Or.inl h4.shrinks
  | batch _ _ _ h4 => exact Or.inl h4.shrinks
  | swap => exact Or.inl fun t d => fillQ_shrinks
  | config => exact Or.inl (.refl _)

theorem outsiders_step {ch : Chain} {n : Nat} {w w' : World} {b : Book} (h : Traced ch n w b) {op : Op} {resp : Response}
    (hs : step ch w op = .ok (w', resp)) {S : Finset Addr} {t0 : Int} (ho : OutsidersAround b S t0) (hf : FairOp w.store S t0 op) :
    OutsidersAround (b.observe op w.store w'.store resp) S t0 := by
  rcases (h.step hs).shrinks with hsh | ⟨sender, funds, time, tick, dir, q, cb, x, rfl, rfl, e⟩
  · intro t d y hy hn hl
    obtain ⟨x, x1, x2, -, x4, -⟩ := hsh t d y hy
    exact ho t d x x1 (by rw [x2]; exact hn) (x4 hl)
  · rw [e]
    intro t d y hy hn hl
    by_cases e : t = tick ∧ d = dir
    · obtain ⟨rfl, rfl⟩ := e
      rw [Book.set_self] at hy
      rcases List.mem_append.1 hy with hy | hy
      · exact ho t d y hy hn hl
      · rw [List.mem_singleton] at hy
        subst hy
        exact hf.1 hn
    · rw [Book.set_ne _ _ (not_and_or.1 e)] at hy
      exact ho t d y hy hn hl

theorem fine_step {ch : Chain} {w w' : World} (hw : Reachable ch w) {op : Op} {resp : Response} (hs : step ch w op = .ok (w', resp))
    {S : Finset Addr} {t0 : Int} (hfine : FineBids w.store) (hf : FairOp w.store S t0 op) : FineBids w'.store := by
  intro t hl
  rcases liquidity_origin hw hs hl with h | ⟨sender, funds, time, q, bounty, rfl⟩
  · exact hfine t h
  · exact hf.2 rfl

theorem order_of {s : Store} {b : Book} (hr : Rel s b) {t : Int} {d : Dir} {x : Entry} (hx : x ∈ b t d) (hl : x.Live) :
    ∃ o, s.orders.get? (t, x.id) = some o ∧ x.owner = o.owner := by
  obtain ⟨p, q, hsp⟩ := List.append_of_mem hx
  exact ⟨_, (hr.orders t x.id _).2 ⟨d, p, x, q, hsp, hl, rfl, rfl⟩, rfl⟩

/-- What an outsider gives away with the operation, if it is a swap. -/
def lossOf (ch : Chain) (quote base : Denom) (t0 : Int) (S : Finset Addr) (w : World) (op : Op) : ℚ :=
  match swapper op with
  | some a => if a ∈ S then 0 else holdings quote base t0 {a} w.bank - holdings quote base t0 {a} (apply ch w op).bank
  | none => 0

theorem swapper_op (r : SwapReq) (time : Nat) : swapper (r.op time) = some r.sender := by
  obtain ⟨a, c, o, m, f, t⟩ := r
  cases t <;> rfl

theorem swapper_some {op : Op} {a : Addr} (h : swapper op = some a) : ∃ r time, op = SwapReq.op r time ∧ r.sender = a := by
  cases op with
  | «sudo» time msg =>
    cases msg with
    | swapExactAmountIn a' c o m f =>
      simp only [swapper, Option.some.injEq] at h
      exact ⟨⟨a', c, o, m, f, none⟩, time, rfl, h⟩
    | swapToTick a' c o m f t =>
      simp only [swapper, Option.some.injEq] at h
      exact ⟨⟨a', c, o, m, f, some t⟩, time, rfl, h⟩
    | _ => simp [swapper] at h
  | _ => simp [swapper] at h

theorem wealth_eq (quote base : Denom) (t0 : Int) (S : Finset Addr) (bank : Bank) (b : Book) :
    wealth quote base t0 S bank b = holdings quote base t0 S bank + bookWorth S t0 b := rfl

/-- One operation. -/
theorem wealth_step {ch : Chain} {n : Nat} {w w' : World} {b : Book} (h : Traced ch n w b) (hw : Reachable ch w) {quote base : Denom}
    (hd : denoms w.store = .ok (quote, base)) {op : Op} {resp : Response} (hs : step ch w op = .ok (w', resp))
    {t0 : Int} (h0 : ValidTick t0) {S : Finset Addr} (hS : ch.contract ∉ S) (ho : OutsidersAround b S t0) (hfine : FineBids w.store)
    (hf : FairOp w.store S t0 op) :
    wealth quote base t0 S w'.bank (b.observe op w.store w'.store resp) ≤
      wealth quote base t0 S w.bank b + lossOf ch quote base t0 S w op := by
  rw [wealth_eq, wealth_eq]
  have happ : apply ch w op = w' := by unfold apply; rw [hs]
  cases hsw : swapper op with
  | some a =>
    obtain ⟨r, time, rfl, rfl⟩ := swapper_some hsw
    have hsm := swap_worth h hw hd hs h0 ho hfine
    obtain ⟨-, -, -, -, out, refund, -, -, -, -, -, hex⟩ := C18_swap_payment hw hd hs
    have hsame : ∀ a ∈ S, a ≠ r.sender → ∀ d, w'.bank a d = w.bank a d := fun a ha hne d =>
      hex.other a d (Or.inl ⟨hne, by rintro rfl; exact hS ha⟩)
    unfold lossOf
    rw [hsw, happ]
    simp only
    by_cases hin : r.sender ∈ S
    · rw [if_pos hin]
      have e : ∀ bank, holdings quote base t0 S bank = holdings quote base t0 {r.sender} bank + holdings quote base t0 (S.erase r.sender) bank := by
        intro bank
        unfold holdings
        rw [Finset.sum_singleton, Finset.add_sum_erase _ (fun a => (bank a quote : ℚ) + bank a base * price t0) hin]
      have e2 : holdings quote base t0 (S.erase r.sender) w'.bank = holdings quote base t0 (S.erase r.sender) w.bank := by
        unfold holdings
        refine Finset.sum_congr rfl fun a ha => ?_
        obtain ⟨a1, a2⟩ := Finset.mem_erase.1 ha
        rw [hsame a a2 a1, hsame a a2 a1]
      rw [e, e w.bank, e2]
      linarith
    · rw [if_neg hin]
      have e2 : holdings quote base t0 S w'.bank = holdings quote base t0 S w.bank := by
        unfold holdings
        refine Finset.sum_congr rfl fun a ha => ?_
        have hne : a ≠ r.sender := by rintro rfl; exact hin ha
        rw [hsame a ha hne, hsame a ha hne]
      rw [e2]
      linarith
  | none =>
    have hl : lossOf ch quote base t0 S w op = 0 := by unfold lossOf; rw [hsw]
    rw [hl, add_zero]
    obtain ⟨ob, hob, rfl, rfl⟩ := denoms_eq hd
    have hne := filledBook_rel h.rel hob
    have hst := h.step hs
    have hr := h.rel
    generalize b.observe op w.store w'.store resp = b' at hst
    have hpn := pays_nonneg h0 ch op S ob.quoteDenom ob.baseDenom
    generalize hs' : w'.store = s' at hst
    cases hst with
    | @place sender funds time tick dir q cb _ _ ob' h1 h2 h3 h4 =>
      obtain rfl := orderbook_inj h2 hob
      have hfl := holdings_flow (by simp) hs (by intro _ _ _ hp; simp only [payment, Option.some.injEq, Prod.mk.injEq] at hp; exact hp.2.1.symm) hS
        ob.quoteDenom ob.baseDenom t0
      rw [bookWorth_set (mem_tickRange.2 h4.range), queueWorth_append]
      have e1 : sentWorth ob.quoteDenom ob.baseDenom t0 S [] = 0 := sentWorth_none (by simp)
      rw [e1] at hfl
      have e2 : queueWorth S t0 tick dir [newEntry w.store sender q cb time] = if sender ∈ S then inWorth t0 dir q else 0 := by
        simp only [queueWorth, List.map_cons, List.map_nil, List.sum_cons, List.sum_nil, add_zero, newEntry, orderWorth, Entry.left]
        simp only [Bool.false_eq_true, if_false, Nat.sub_zero]
        rw [value_linear dir 0, Nat.cast_zero, zero_mul, inWorth_mul t0 dir.opposite 0, zero_mul, add_zero]
      have e3 : ∑ a ∈ S, ((paysIn ch (.execute sender funds time (.placeLimit tick dir q cb)) a ob.quoteDenom : ℚ) +
          paysIn ch (.execute sender funds time (.placeLimit tick dir q cb)) a ob.baseDenom * price t0) = if sender ∈ S then inWorth t0 dir q else 0 := by
        rw [← Finset.sum_ite_eq' S sender (fun _ => inWorth t0 dir q)]
        refine Finset.sum_congr rfl fun a _ => ?_
        simp only [paysIn, payment, h4.funds]
        by_cases ha : a = sender
        · simp only [if_pos ha]
          cases dir <;> simp [amountOf, Orderbook.expectedDenom, inWorth, hne, Ne.symm hne]
        · simp only [if_neg ha]; simp
      rw [e3] at hfl
      rw [e2]
      linarith
    | @cancel time tick dir _ s1 _ ob' p q x tr ts1 h1 h2 h3 h4 h5 h6 =>
      obtain rfl := orderbook_inj h2 hob
      have hfl := holdings_flow (by simp) hs (by intro _ _ _ hp; simp only [payment, Option.some.injEq, Prod.mk.injEq] at hp; exact hp.2.1.symm) hS
        ob.quoteDenom ob.baseDenom t0
      have ht : tick ∈ tickRange := mem_tickRange.2 (hr.range tick dir (by rw [h3]; simp))
      rw [bookWorth_set ht, h3, queueWorth_append, queueWorth_append, queueWorth_cons, queueWorth_cons]
      have hz : orderWorth t0 tick dir { x with cancelled := true } = 0 := by
        unfold orderWorth Entry.left
        simp only [if_true, h5, Nat.sub_self]
        rw [value_linear dir 0, Nat.cast_zero, zero_mul, inWorth_mul t0 dir.opposite 0, inWorth_mul]
        simp
      have hv : orderWorth t0 tick dir x = inWorth t0 dir (x.placed - x.claimed : Nat) := by
        unfold orderWorth Entry.left
        rw [h4.1, h5]
        simp only [Bool.false_eq_true, if_false, Nat.sub_self]
        rw [value_linear dir 0, Nat.cast_zero, zero_mul, inWorth_mul t0 dir.opposite 0, zero_mul, add_zero]
      rw [hz, hv]
      have hle := sentWorth_le (quote := ob.quoteDenom) (base := ob.baseDenom) h0 S [⟨x.owner, ⟨ob.expectedDenom dir, x.placed - x.claimed⟩, REPLY_ID_REFUND⟩]
      have hsp : (spent ob.quoteDenom [⟨x.owner, ⟨ob.expectedDenom dir, x.placed - x.claimed⟩, REPLY_ID_REFUND⟩] : ℚ) +
          spent ob.baseDenom [⟨x.owner, ⟨ob.expectedDenom dir, x.placed - x.claimed⟩, REPLY_ID_REFUND⟩] * price t0 =
          inWorth t0 dir (x.placed - x.claimed : Nat) := by
        cases dir <;> simp [spent, Orderbook.expectedDenom, inWorth, hne, Ne.symm hne]
      rw [hsp] at hle
      by_cases hin : x.owner ∈ S
      · rw [if_pos hin, if_pos (show ({ x with cancelled := true } : Entry).owner ∈ S from hin)]
        simp only at hfl
        linarith
      · rw [if_neg hin, if_neg (show ({ x with cancelled := true } : Entry).owner ∉ S from hin)]
        have e1 : sentWorth ob.quoteDenom ob.baseDenom t0 S [⟨x.owner, ⟨ob.expectedDenom dir, x.placed - x.claimed⟩, REPLY_ID_REFUND⟩] = 0 :=
          sentWorth_none (by simpa using hin)
        simp only at hfl
        rw [e1] at hfl
        linarith
    | @claim sender time tick id _ _ ob' r _ _ h1 h2 h3 h4 =>
      obtain rfl := orderbook_inj h2 hob
      have hfl := holdings_flow (by simp) hs (by intro _ _ _ hp; simp only [payment, Option.some.injEq, Prod.mk.injEq] at hp; exact hp.2.1.symm) hS
        ob.quoteDenom ob.baseDenom t0
      have hw1 := h4.worth_le hr h2 h0 (S := S) (by
        intro d x hx hlv hid hn
        obtain ⟨o, ho1, ho2⟩ := order_of hr hx hlv
        rw [hid] at ho1
        exact hf o ho1 (by rw [← ho2]; exact hn))
      simp only at hfl
      linarith
    | @batch sender time l _ _ ob' ms es _ _ h1 h2 h3 h4 =>
      obtain rfl := orderbook_inj h2 hob
      have hfl := holdings_flow (by simp) hs (by intro _ _ _ hp; simp only [payment, Option.some.injEq, Prod.mk.injEq] at hp; exact hp.2.1.symm) hS
        ob.quoteDenom ob.baseDenom t0
      have hw1 := h4.worth_le hr h2 h0 (S := S) (by
        intro k hk d x hx hlv hid hn
        obtain ⟨o, ho1, ho2⟩ := order_of hr hx hlv
        rw [hid] at ho1
        exact hf k hk o ho1 (by rw [← ho2]; exact hn))
      simp only at hfl
      linarith
    | @swap time msg sender c out m fee target _ _ ob' dir F q' dust lp h1 h2 h3 =>
      cases msg <;> simp [swapper] at hsw <;> simp [SudoMsg.swapArgs] at h3
    | config h1 _ _ hm =>
      obtain ⟨v0, v1⟩ := validTick_iff.1 h0
      have hpos := (spec_price_pos v0 v1).le
      by_cases htr : ∃ src dst c, op = .transfer src dst c
      · obtain ⟨src, dst, c, rfl⟩ := htr
        unfold holdings
        simp only [Finset.sum_add_distrib, ← Finset.sum_mul]
        have a := worth_transfer hs hS hf ob.quoteDenom
        have c := mul_le_mul_of_nonneg_right (worth_transfer hs hS hf ob.baseDenom) hpos
        linarith
      by_cases hmi : ∃ dst c, op = .mint dst c
      · obtain ⟨dst, c, rfl⟩ := hmi
        simp only [step, Except.ok.injEq, Prod.mk.injEq] at hs
        obtain ⟨rfl, -⟩ := hs
        refine add_le_add_left (le_of_eq ?_) _
        unfold holdings
        refine Finset.sum_congr rfl fun a ha => ?_
        have : a ≠ dst := by rintro rfl; exact hf ha
        simp [this]
      · have hfl := holdings_flow (fun dst c e => hmi ⟨dst, c, e⟩) hs (by
            intro src dst cs hp
            cases op with
            | execute => simp only [payment, Option.some.injEq, Prod.mk.injEq] at hp; exact hp.2.1.symm
            | «sudo» time msg => cases msg <;> simp only [payment, Option.some.injEq, Prod.mk.injEq, reduceCtorEq] at hp <;> exact hp.2.1.symm
            | transfer src dst c => exact absurd ⟨_, _, _, rfl⟩ htr
            | _ => simp [payment] at hp) hS ob.quoteDenom ob.baseDenom t0
        have e1 : sentWorth ob.quoteDenom ob.baseDenom t0 S resp.msgs = 0 := sentWorth_none (by rw [hm]; simp)
        rw [e1] at hfl
        linarith

/-- C96: no exploit. Take any accounts `S` and any price. As long as the others do not bid above or ask below this price - neither with their open
orders nor with new ones -, whatever `S` does, with any number of orders, cancellations, claims, swaps and transfers, mixed in any way
with operations of the others: what `S` owns, orders included, does not grow by more than what the others' own swaps give away. -/
theorem C96_no_exploit {ch : Chain} {n : Nat} {w : World} {b : Book} (h : Traced ch n w b) {quote base : Denom}
    (hd : denoms w.store = .ok (quote, base)) {t0 : Int} (h0 : ValidTick t0) {S : Finset Addr} (hS : ch.contract ∉ S)
    (ho : OutsidersAround b S t0) (hfine : FineBids w.store) {ops : List Op} (hf : Fair ch w ops S t0) :
    wealth quote base t0 S (run ch w ops).bank (noted ch w b ops) ≤
      wealth quote base t0 S w.bank b + outsidersLoss ch quote base t0 S w ops ∧
    Traced ch (n + ops.length) (run ch w ops) (noted ch w b ops) := by
  induction ops generalizing n w b with
  | nil =>
    refine ⟨?_, h⟩
    simp [run, noted, outsidersLoss]
  | cons op ops ih =>
    have hw : Reachable ch w := ⟨_, h.reachable⟩
    have hrun : run ch w (op :: ops) = run ch (apply ch w op) ops := rfl
    have hf' : Fair ch (apply ch w op) ops S t0 := fun pre o post e => hf (op :: pre) o post (by rw [e]; rfl)
    have hf1 : FairOp w.store S t0 op := hf [] op ops rfl
    have hloss : outsidersLoss ch quote base t0 S w (op :: ops) = lossOf ch quote base t0 S w op + outsidersLoss ch quote base t0 S (apply ch w op) ops := rfl
    have hlen : n + (op :: ops).length = n + 1 + ops.length := by rw [List.length_cons]; omega
    rw [hrun, hloss, hlen]
    cases hs : step ch w op with
    | error e =>
      have ha : apply ch w op = w := by unfold apply; rw [hs]
      have hn : noted ch w b (op :: ops) = noted ch w b ops := by simp only [noted, hs]
      have hl : lossOf ch quote base t0 S w op = 0 := by
        unfold lossOf
        rw [ha]
        split
        · split <;> simp
        · rfl
      rw [ha] at hf' ⊢
      rw [hn, hl, zero_add]
      exact ih (Traced.failed h hs) hd ho hfine hf'
    | ok x =>
      obtain ⟨w1, resp⟩ := x
      have ha : apply ch w op = w1 := by unfold apply; rw [hs]
      have hn : noted ch w b (op :: ops) = noted ch w1 (b.observe op w.store w1.store resp) ops := by simp only [noted, hs]
      have hd1 : denoms w1.store = .ok (quote, base) := by
        have := C39_denoms_fixed hw [op]
        rw [show run ch w [op] = w1 from ha] at this
        rw [this, hd]
      rw [ha] at hf' ⊢
      rw [hn]
      have h1 := ih (Traced.ok h hs) hd1 (outsiders_step h hs ho hf1) (fine_step hw hs hfine hf1) hf'
      have h2 := wealth_step h hw hd hs h0 hS ho hfine hf1
      exact ⟨by linarith [h1.1], h1.2⟩

/-- C96 (nobody else swaps): if the others do not swap, what `S` owns does not grow at all. -/
theorem C96_passive {ch : Chain} {n : Nat} {w : World} {b : Book} (h : Traced ch n w b) {quote base : Denom}
    (hd : denoms w.store = .ok (quote, base)) {t0 : Int} (h0 : ValidTick t0) {S : Finset Addr} (hS : ch.contract ∉ S)
    (ho : OutsidersAround b S t0) (hfine : FineBids w.store) {ops : List Op} (hf : Fair ch w ops S t0)
    (hn : ∀ op ∈ ops, ∀ a, swapper op = some a → a ∈ S) :
    wealth quote base t0 S (run ch w ops).bank (noted ch w b ops) ≤ wealth quote base t0 S w.bank b := by
  have h1 := (C96_no_exploit h hd h0 hS ho hfine hf).1
  have e : ∀ (ops : List Op) (w : World), (∀ op ∈ ops, ∀ a, swapper op = some a → a ∈ S) → outsidersLoss ch quote base t0 S w ops = 0 := by
    intro ops
    induction ops with
    | nil => intro w _; rfl
    | cons op ops ih =>
      intro w hn
      unfold outsidersLoss
      rw [ih _ fun o ho => hn o (by simp [ho]), add_zero]
      cases hsw : swapper op with
      | none => rfl
      | some a => simp only; rw [if_pos (hn op (by simp) a hsw)]
  rw [e ops w hn, add_zero] at h1
  exact h1

/-- C96 (cash): the balances of `S` in the end are covered by what they owned in the beginning and by what the others' swaps gave away. -/
theorem C96_cash {ch : Chain} {n : Nat} {w : World} {b : Book} (h : Traced ch n w b) {quote base : Denom}
    (hd : denoms w.store = .ok (quote, base)) {t0 : Int} (h0 : ValidTick t0) {S : Finset Addr} (hS : ch.contract ∉ S)
    (ho : OutsidersAround b S t0) (hfine : FineBids w.store) {ops : List Op} (hf : Fair ch w ops S t0) :
    holdings quote base t0 S (run ch w ops).bank ≤ wealth quote base t0 S w.bank b + outsidersLoss ch quote base t0 S w ops := by
  have h1 := (C96_no_exploit h hd h0 hS ho hfine hf).1
  rw [wealth_eq quote base t0 S (run ch w ops).bank] at h1
  have := bookWorth_nonneg h0 S (noted ch w b ops)
  linarith

theorem fair_cons {ch : Chain} {w : World} {op : Op} {ops : List Op} {S : Finset Addr} {t0 : Int} (h : FairOp w.store S t0 op)
    (h' : Fair ch (apply ch w op) ops S t0) : Fair ch w (op :: ops) S t0 := by
  intro pre o post e
  cases pre with
  | nil =>
    simp only [List.nil_append, List.cons.injEq] at e
    rw [← e.1]; exact h
  | cons x pre =>
    simp only [List.cons_append, List.cons.injEq] at e
    rw [← e.1]
    exact h' pre o post e.2

/-- Dave bids, bob asks. Frank and zed place orders inside and across the spread, trade with each other, are traded with by gina, claim, cancel, and
pass coins on. -/
def Demo.coalition : List Op :=
  [Demo.place "dave" 0 .bid 100000 none, Demo.place "bob" 10 .ask 50000 none, Demo.place "frank" 9 .ask 30000000 none,
    Demo.place "zed" 20 .bid 1000 none, Demo.sell "frank" 500 1, Demo.buy "gina" 10000000 1, Demo.claim "zed" 9 2, Demo.claim "frank" 20 3,
    Demo.cancel "zed" 20 3, Demo.cancel "frank" 9 2, .transfer "zed" "frank" ⟨"q", 3⟩]

theorem Demo.own {s : Store} {sender : Addr} {funds : List Coin} {time : Nat} {tick : Int} {id : Nat} {S : Finset Addr} {t0 : Int} {a : Addr}
    (h : (s.orders.get? (tick, id)).map LimitOrder.owner = some a) (ha : a ∈ S) : FairOp s S t0 (.execute sender funds time (.claimLimit tick id)) := by
  intro o ho hn
  rw [ho] at h
  simp only [Option.map_some, Option.some.injEq] at h
  rw [h] at hn
  exact absurd ha hn

-- The theorem applies to them: they earn more than 38 units of quote from gina's swap, but not more than it gave away (less than 41).
example : (Demo.coalition.foldl (fun x op => (x.1 && (step Demo.ch x.2 op).toOption.isSome, apply Demo.ch x.2 op)) (true, Demo.w0)).1 = true ∧
    holdings "q" "b" 5 {"frank", "zed"} Demo.w0.bank + 38 < holdings "q" "b" 5 {"frank", "zed"} (run Demo.ch Demo.w0 Demo.coalition).bank ∧
    outsidersLoss Demo.ch "q" "b" 5 {"frank", "zed"} Demo.w0 Demo.coalition < 41 ∧
    holdings "q" "b" 5 {"frank", "zed"} (run Demo.ch Demo.w0 Demo.coalition).bank ≤
      holdings "q" "b" 5 {"frank", "zed"} Demo.w0.bank + outsidersLoss Demo.ch "q" "b" 5 {"frank", "zed"} Demo.w0 Demo.coalition := by
  refine ⟨by decide +kernel, by decide +kernel, by decide +kernel, ?_⟩
  have h := C96_cash (.init Demo.initial) (quote := "q") (base := "b") (t0 := 5) (S := {"frank", "zed"}) (ops := Demo.coalition) (by decide +kernel)
    ⟨by norm_num, by norm_num⟩ (by decide) (fun _ _ x hx => by simp [Book.empty] at hx) ?_ ?_
  · have e : wealth "q" "b" 5 {"frank", "zed"} Demo.w0.bank Book.empty = holdings "q" "b" 5 {"frank", "zed"} Demo.w0.bank := by
      unfold wealth overTicksQ
      rw [Finset.sum_eq_zero fun t _ => by simp [Book.empty, queueWorth], add_zero]
    rwa [e] at h
  · intro t hl
    exact absurd (show tickLiquidity Demo.w0.store t .bid = 0 by unfold tickLiquidity; rw [show Demo.w0.store.ticks.get? t = none from rfl]; decide +kernel) hl
  · refine fair_cons ⟨by simp [Better], by norm_num [price]⟩ (fair_cons ⟨by simp [Better], by simp⟩ (fair_cons ⟨by simp, by simp⟩
      (fair_cons ⟨by simp, by norm_num [price]⟩ (fair_cons trivial (fair_cons trivial (fair_cons ?_ (fair_cons ?_ (fair_cons trivial (fair_cons trivial
        (fair_cons (by simp [FairOp]) (fun pre o post e => by simp at e)))))))))))
    · exact Demo.own (a := "frank") (by decide +kernel) (by decide)
    · exact Demo.own (a := "zed") (by decide +kernel) (by decide)

-- The hypotheses are needed: somebody who bids above his own reservation price - here dave, above bob's ask - is taken advantage of
-- (second example of C95).

end OB
