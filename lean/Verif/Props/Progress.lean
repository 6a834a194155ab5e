import Verif.SpecProgress
import Verif.Props.Sync
import Verif.Props.Query
import Verif.Props.Claim
import Verif.Props.Cancel
import Verif.Props.Book
import Verif.Props.Room
/- C88: the progress of an order can be read off public queries. -/
namespace OB
open Spec

theorem answered_listed {ch : Chain} {n : Nat} {w : World} {b : Book} (h : Traced ch n w b) {o : LimitOrder} (ho : Answered w.store o) : Listed b o := by
  rcases ho with ⟨t, lo, hi, limit, ho⟩ | ⟨a, lo, hi, limit, ho⟩
  · obtain ⟨all, h1, h2⟩ := C40_orders_by_tick h t
    rw [h2] at ho
    exact ((h1.2 o).1 (List.mem_of_mem_filter (List.mem_of_mem_take ho))).1
  · obtain ⟨all, h1, h2⟩ := C40_orders_by_owner h a
    rw [h2] at ho
    exact ((h1.2 o).1 (List.mem_of_mem_filter (List.mem_of_mem_take ho))).1

/-- Where a side stands, by the queries: fills and cancels whose turn has come. -/
theorem shown_reached {ch : Chain} {n : Nat} {w : World} {b : Book} (h : Traced ch n w b) {o : LimitOrder} {p q : List Entry} {x : Entry}
    (hq : b o.tickId o.dir = p ++ x :: q) {E U : Nat} (hs : Shown w.store o E U) :
    E + U = 10 ^ 18 * (sumBy Entry.filled (p ++ x :: q) + rz (sumBy Entry.filled (p ++ x :: q)) (p ++ x :: q)) := by
  obtain ⟨ts, u, h1, h2, h3, h4⟩ := hs
  have hu : Used b o.tickId := ⟨o.dir, by rw [hq]; simp⟩
  obtain ⟨l, g1, g2, g3⟩ := (C41_ticks_by_id h [o.tickId]).1 (by simpa using hu)
  rw [g1] at h1
  have hl : l = [(o.tickId, ts)] := by simpa using h1
  have hE := g3 (o.tickId, ts) (by rw [hl]; simp) o.dir
  have hU := (C42_unrealized_cancels h [o.tickId]).1 (by simpa using hu)
  rw [h3] at hU
  obtain ⟨r, rt, hr, -, -⟩ := h.rel.sides o.tickId o.dir
  have hr' : SideRel (tickValues w.store o.tickId o.dir) (b o.tickId o.dir) r := hr
  have hUd : u o.dir = 10 ^ 18 * dueTotal (b o.tickId o.dir) - (tickValues w.store o.tickId o.dir).crc := by
    simp only [List.map_cons, List.map_nil, Option.some.injEq, Answer.unrealized.injEq, List.cons.injEq, Prod.mk.injEq, true_and, and_true] at hU
    cases o.dir
    · exact hU.2
    · exact hU.1
  simp only at hE
  rw [← h2, hE, ← h4, hUd, hr'.etas, hr'.crc, hr'.due, hq]
  have hle := hr'.crc_le
  rw [hr'.crc, hr'.due, hq] at hle
  rw [show (10 ^ 18 : Nat) = D from rfl]
  generalize D = D at *
  rw [Nat.mul_add, Nat.mul_add]
  omega

theorem fifo_filled {S : Nat} {p : List Entry} (h : Fifo S p) : sumBy Entry.filled p = min S (sumBy Entry.cap p) := by
  induction p generalizing S with
  | nil => simp
  | cons x p ih =>
    obtain ⟨h1, h2⟩ := h
    have := ih h2
    simp only [sumBy_cons]
    omega

/-- C88 (the formula is right): what a front end computes from the public answers for a listed order is exactly what time priority has filled of
it and nobody has claimed yet; and what it computes for the queue before the order is at least what is really open before it. -/
theorem C88_formula {ch : Chain} {n : Nat} {w : World} {b : Book} (h : Traced ch n w b) {o : LimitOrder} (ho : Answered w.store o) :
    (∃ E U, Shown w.store o E U) ∧
    ∀ E U, Shown w.store o E U → ∃ p x q, b o.tickId o.dir = p ++ x :: q ∧ x.id = o.orderId ∧ x.Live ∧
      claimable o E U = x.filled - x.claimed ∧ openTotal p ≤ queued o E U ∧
      (0 < claimable o E U → openTotal p = 0) := by
  obtain ⟨tick, dir, p, x, q, hq, hl, rfl⟩ := answered_listed h ho
  have hu : Used b tick := ⟨dir, by rw [hq]; simp⟩
  constructor
  · obtain ⟨l, g1, g2, g3⟩ := (C41_ticks_by_id h [tick]).1 (by simpa using hu)
    have hU := (C42_unrealized_cancels h [tick]).1 (by simpa using hu)
    obtain ⟨ts, rfl⟩ : ∃ ts, l = [(tick, ts)] := by
      match l, g2 with
      | [(t, ts)], g2 => exact ⟨ts, by simp at g2; rw [g2]⟩
    exact ⟨_, _, ts, fun d => 10 ^ 18 * dueTotal (b tick d) - (tickValues w.store tick d).crc, g1, rfl, hU, rfl⟩
  · intro E U hs
    refine ⟨p, x, q, hq, rfl, hl, ?_⟩
    have hreach := shown_reached h (o := shown tick dir (placedTotal p) x) hq hs
    obtain ⟨r, rt, hr, -, -⟩ := h.rel.sides tick dir
    rw [hq] at hr
    have hokp : ∀ y ∈ p, EntryOk y := fun y hy => hr.ok y (by simp [hy])
    have hokx := hr.ok x (by simp)
    obtain ⟨hc, hlt⟩ := hl
    have hpf := posFill hokp (done_rz (sumBy Entry.filled (p ++ x :: q)) (p ++ x :: q)) (rs_le_rz _ _) hc hokx.pos
    have hfifo := hr.fifo
    have hsumf : sumBy Entry.filled (p ++ x :: q) = sumBy Entry.filled p + (x.filled + sumBy Entry.filled q) := by simp
    rw [fifo_append] at hfifo
    have hfill := hfifo.2.1
    have hcap : x.cap = x.placed := by simp [Entry.cap, hc]
    rw [hcap] at hfill
    rw [← hfill] at hpf
    have h1 := hokx.claimed_le
    have h2 := hokx.filled_le
    have hpl : placedTotal p = sumBy Entry.placed p := rfl
    unfold claimable queued
    rw [hreach]
    simp only [shown, hpl]
    rw [← Nat.mul_sub, ← Nat.mul_sub, Nat.mul_div_cancel_left _ (by norm_num), Nat.mul_div_cancel_left _ (by norm_num), openTotal_eq hokp]
    have hcg := sum_cap_gap hokp
    have hfl := sum_filled_left hokp
    have hff := fifo_filled hfifo.1
    have hle : sumBy Entry.cap p ≤ sumBy Entry.filled (p ++ x :: q) → sumBy Entry.left p = 0 := by omega
    have hrz : ¬ sumBy Entry.cap p ≤ sumBy Entry.filled (p ++ x :: q) → rz (sumBy Entry.filled (p ++ x :: q)) (p ++ x :: q) ≤ sumBy Entry.gap p := by
      intro hn
      rw [rz_append, if_neg hn]
      exact rz_le_gap _ _
    refine ⟨by omega, ?_, ?_⟩
    · by_cases hA : sumBy Entry.cap p ≤ sumBy Entry.filled (p ++ x :: q)
      · rw [hle hA]; exact Nat.zero_le _
      · have := hrz hA
        have : x.filled = 0 := by omega
        omega
    · intro hpos
      refine hle ?_
      omega

/-- C88 (what it decides): on an active book with room, anybody can claim a listed order exactly if the front end's number is positive, and its
owner can cancel it exactly if the number is zero; an accepted claim pays out the tick-price value of that number and leaves the rest. -/
theorem C88_decides {ch : Chain} {w : World} (hw : Reachable ch w) {o : LimitOrder} (ho : Answered w.store o) {E U : Nat} (hs : Shown w.store o E U) :
    (w.HasRoom → isActive w.store = true → ∀ anyone time, anyone ≠ ch.contract →
      (Accepted ch w (.execute anyone [] time (.claimLimit o.tickId o.orderId)) ↔ 0 < claimable o E U)) ∧
    (w.HasRoom → isActive w.store = true → ∀ time,
      (Accepted ch w (.execute o.owner [] time (.cancelLimit o.tickId o.orderId)) ↔ claimable o E U = 0)) ∧
    ∀ anyone funds time w' resp, step ch w (.execute anyone funds time (.claimLimit o.tickId o.orderId)) = .ok (w', resp) →
      sentAll resp.msgs = payout o.dir (claimable o E U) o.tickId ∧
      (w'.store.orders.get? (o.tickId, o.orderId)).map LimitOrder.quantity =
        if claimable o E U = o.quantity then none else some (o.quantity - claimable o E U) := by
  obtain ⟨n, hn⟩ := hw
  obtain ⟨b, h⟩ := hn.traced
  obtain ⟨p, x, q, hq, hid, hl, hc, -, -⟩ := (C88_formula h ho).2 E U hs
  have hx : x ∈ b o.tickId o.dir := by rw [hq]; simp
  have hlist := answered_listed h ho
  have hown : o.owner = x.owner ∧ o.quantity = x.placed - x.claimed := by
    obtain ⟨tick, dir, p', x', q', hq', hl', e⟩ := hlist
    have e1 : tick = o.tickId := by rw [e]; rfl
    have e2 : dir = o.dir := by rw [e]; rfl
    have e3 : x'.id = o.orderId := by rw [e]; rfl
    subst e1 e2
    obtain ⟨-, -, e4⟩ := h.rel.same_entry hq' hx (hid.trans e3.symm)
    have e5 : o.owner = x'.owner ∧ o.quantity = x'.placed - x'.claimed := by
      generalize o.tickId = t at *; generalize o.dir = d at *
      rw [e]; exact ⟨rfl, rfl⟩
    rw [← e4] at e5
    exact e5
  obtain ⟨r, rt, hr, -, -⟩ := h.rel.sides o.tickId o.dir
  have hok := hr.ok x hx
  have h1 := hok.claimed_le
  have h2 := hok.filled_le
  refine ⟨?_, ?_, ?_⟩
  · intro hroom ha anyone time hne
    rw [C11_claim_iff_unclaimed_fill h hroom ha hne, hc]
    constructor
    · rintro ⟨-, dir, y, hy, hyid, hyl, hyf⟩
      obtain ⟨-, -, e⟩ := h.rel.same_entry hq hy (hyid.trans hid.symm)
      subst e
      omega
    · intro hp
      exact ⟨rfl, o.dir, x, hx, hid, hl, by omega⟩
  · intro hroom ha time
    rw [hown.1, ← hid, C09_cancel_iff_no_unclaimed_fill h hroom ha hx hl, hc]
    omega
  · intro anyone funds time w' resp hst
    obtain ⟨ob, hob, -⟩ := h.rel.ptr
    obtain ⟨dir, y, hy, rc, hyid, hyl, hyf, -, -, -, hsent, -, -, -, hrem, -⟩ := C12_claim_effects h (denoms_of hob) hst
    obtain ⟨-, e1, e⟩ := h.rel.same_entry hq hy (hyid.trans hid.symm)
    subst e e1
    rw [hc, hown.2]
    refine ⟨hsent, ?_⟩
    rw [hrem]
    have hl2 := hl.2
    by_cases hf : y.filled = y.placed
    · rw [if_pos hf, if_pos (by omega)]
    · rw [if_neg hf, if_neg (by omega)]
      congr 1
      omega

theorem forall₂_split {p q l : List Entry} (h : List.Forall₂ Entry.Evolves (p ++ q) l) :
    ∃ p' q', l = p' ++ q' ∧ List.Forall₂ Entry.Evolves p p' ∧ List.Forall₂ Entry.Evolves q q' := by
  induction p generalizing l with
  | nil => exact ⟨[], l, rfl, .nil, h⟩
  | cons x p ih =>
    cases h with
    | cons h1 h2 =>
      obtain ⟨p', q', rfl, h3, h4⟩ := ih h2
      exact ⟨_ :: p', q', rfl, .cons h1 h3, h4⟩

theorem evolves_left {x x' : Entry} (h : x.Evolves x') : x'.left ≤ x.left := by
  cases hc : x.cancelled with
  | true => rw [h.dead hc]
  | false =>
    have h1 := h.placed
    have h2 := h.filled
    unfold Entry.left
    rw [hc]
    simp only [Bool.false_eq_true, if_false]
    split
    · exact Nat.zero_le _
    · omega

/-- C88 (no queue jumping): whatever happens later, an order keeps its place: the same orders stand before it, and what is open before it
never grows. -/
theorem C88_no_jumping {ch : Chain} {n : Nat} {w : World} {b : Book} (h : Traced ch n w b) {tick : Int} {dir : Dir} {p q : List Entry} {x : Entry}
    (hq : b tick dir = p ++ x :: q) (ops : List Op) :
    ∃ b', Traced ch (n + ops.length) (run ch w ops) b' ∧ ∃ p' x' q', b' tick dir = p' ++ x' :: q' ∧ x'.id = x.id ∧ x'.placed = x.placed ∧
      p'.map Entry.id = p.map Entry.id ∧ openTotal p' ≤ openTotal p ∧ x.filled ≤ x'.filled := by
  obtain ⟨b', h1, h2, -⟩ := h.run_grows ops
  obtain ⟨l, new, h3, h4, -⟩ := h2 tick dir
  rw [hq] at h4
  obtain ⟨p', l', rfl, h5, h6⟩ := forall₂_split h4
  obtain ⟨x', q', h7, h8, rfl⟩ := List.forall₂_cons_left_iff.1 h6
  refine ⟨b', h1, p', x', q' ++ new, by rw [h3]; simp, h7.id, h7.placed, ?_, ?_, h7.filled⟩
  · clear h3 h4 h6 hq
    induction h5 with
    | nil => rfl
    | cons hx _ ih => rw [List.map_cons, List.map_cons, hx.id, ih]
  · obtain ⟨r, rt, hr, -, -⟩ := h.rel.sides tick dir
    obtain ⟨r', rt', hr', -, -⟩ := h1.rel.sides tick dir
    rw [openTotal_eq (q := p) fun y hy => hr.ok y (by rw [hq]; simp [hy]), openTotal_eq (q := p') fun y hy => hr'.ok y (by rw [h3]; simp [hy])]
    clear h3 h4 h6 hq hr hr'
    induction h5 with
    | nil => exact le_refl _
    | cons hx _ ih =>
      rw [sumBy_cons, sumBy_cons]
      have := evolves_left hx
      omega

theorem fillQ_split {f : Nat} {p q : List Entry} {x : Entry} :
    ∃ p' q', fillQ f (p ++ x :: q) = p' ++ { x with filled := x.filled + min (f - sumBy Entry.left p) x.left } :: q' ∧ p'.length = p.length := by
  induction p generalizing f with
  | nil => exact ⟨[], fillQ (f - min f x.left) q, by simp [fillQ], rfl⟩
  | cons y p ih =>
    obtain ⟨p', q', h1, h2⟩ := ih (f := f - min f y.left)
    refine ⟨{ y with filled := y.filled + min f y.left } :: p', q', ?_, by simp [h2]⟩
    rw [List.cons_append, fillQ, h1, sumBy_cons, List.cons_append]
    congr 5
    omega

/-- C88 (the next fill): a swap that takes `f` from the tick and side of an order fills it with what `f` leaves after everything open before it, as
far as the order goes. -/
theorem C88_next_fill {ch : Chain} {n : Nat} {w w' : World} {b : Book} (h : Traced ch n w b) {r : SwapReq} {time : Nat} {resp : Response}
    (hs : step ch w (r.op time) = .ok (w', resp)) {tick : Int} {dir : Dir} {p q : List Entry} {x : Entry} (hq : b tick dir = p ++ x :: q) (hl : x.Live) :
    ∃ b', Traced ch (n + 1) w' b' ∧ ∃ p' x' q', b' tick dir = p' ++ x' :: q' ∧ x'.id = x.id ∧
      x'.filled = x.filled + min (taken w.store w'.store tick dir - openTotal p) (x.placed - x.filled) ∧ x'.claimed = x.claimed := by
  obtain ⟨msg, e1, e2, e3⟩ := swapReq_op_eq r time
  have ht := Traced.ok h hs
  have hst := h.step hs
  refine ⟨_, ht, ?_⟩
  generalize b.observe _ _ _ _ = b' at hst
  rw [e1] at hst
  obtain ⟨rk, rt, hr, -, -⟩ := h.rel.sides tick dir
  have hokp : ∀ y ∈ p, EntryOk y := fun y hy => hr.ok y (by rw [hq]; simp [hy])
  generalize hw' : w'.store = s' at hst ⊢
  generalize hw0 : w.store = s at hst ⊢
  have hrel := h.rel
  rw [hw0] at hrel
  cases hst with
  | config h1 => cases msg <;> simp [Op.isConfig, SudoMsg.swapArgs] at h1 e2
  | @swap time msg sender c out m fee target s b ob d F q' dust lp h1 h2 h3 h4 h5 =>
    have hF := h5.run.fillsOk hrel h2
    have htk : taken s (swappedStore s d.opposite F ob) tick dir = takenBy F d.opposite tick dir := by
      unfold taken; rw [taken_observed hrel hF]
    rw [htk]
    unfold filledBook
    rw [hq]
    obtain ⟨p', q', g1, -⟩ := fillQ_split (f := takenBy F d.opposite tick dir) (p := p) (q := q) (x := x)
    have hleft : x.left = x.placed - x.filled := by simp [Entry.left, hl.1]
    refine ⟨p', _, q', g1, rfl, ?_, rfl⟩
    simp only
    rw [openTotal_eq hokp, hleft]

/-- What the order query answers for dave's order after `Demo.history`. -/
def Demo.daves : LimitOrder := ⟨0, 3, .bid, "dave", 100000, 200000 * 10 ^ 18, some (10 ^ 16), 100000, 7⟩

/-- What the tick queries answer for its side: alice's and carol's cancels before it (200000) are not realized yet, 60000 have been sold. -/
theorem Demo.daves_shown : Answered Demo.after.store Demo.daves ∧ Shown Demo.after.store Demo.daves (60000 * 10 ^ 18) (200000 * 10 ^ 18) := by
  refine ⟨Or.inl ⟨0, none, none, none, ?_⟩, ?_⟩
  · decide +kernel
  · refine ⟨⟨⟨0, 0, 0, 0, 0⟩, ⟨40000 * 10 ^ 18, 300000 * 10 ^ 18, 60000 * 10 ^ 18, 0, 0⟩⟩, fun | .ask => 0 | .bid => 200000 * 10 ^ 18, ?_, ?_, ?_, ?_⟩ <;> decide +kernel

/-- C88 applies: by these answers 60000 of dave's 100000 can be claimed, and a claim is accepted. -/
example : claimable Demo.daves (60000 * 10 ^ 18) (200000 * 10 ^ 18) = 60000 := by decide +kernel
theorem Demo.traced_after : ∃ n b, Traced Demo.ch n Demo.after b := ⟨_, _, Demo.traced Demo.history⟩
example : Accepted Demo.ch Demo.after (.execute "zed" [] 9 (.claimLimit 0 3)) := by
  obtain ⟨n, b, h⟩ := Demo.traced_after
  have hr : Demo.after.HasRoom := Demo.room Demo.history (by decide +kernel)
  have ha : isActive Demo.after.store = true := by decide +kernel
  have hs := Demo.daves_shown
  have hc : 0 < claimable Demo.daves (60000 * 10 ^ 18) (200000 * 10 ^ 18) := by decide +kernel
  generalize Demo.after = w at *
  exact ((C88_decides ⟨_, h.reachable⟩ hs.1 hs.2).1 hr ha "zed" 9 (by decide)).2 hc
example : ∃ n b, Traced Demo.ch n Demo.after b ∧ ∃ p x q, b 0 .bid = p ++ x :: q ∧ x.id = 3 := by
  obtain ⟨n, b, h⟩ := Demo.traced_after
  have hs := Demo.daves_shown
  generalize Demo.after = w at *
  obtain ⟨p, x, q, h1, h2, -⟩ := (C88_formula h hs.1).2 _ _ hs.2
  exact ⟨n, b, h, p, x, q, h1, h2⟩
example : ∃ r, step Demo.ch Demo.after (SwapReq.op ⟨"frank", ⟨"b", 30000⟩, "q", 0, 0, none⟩ 9) = .ok r ∧ taken Demo.after.store r.1.store 0 .bid = 30000 := by
  rcases h : step Demo.ch Demo.after (SwapReq.op ⟨"frank", ⟨"b", 30000⟩, "q", 0, 0, none⟩ 9) with e | r
  · exact absurd h (by have : (step Demo.ch Demo.after (SwapReq.op ⟨"frank", ⟨"b", 30000⟩, "q", 0, 0, none⟩ 9)).isOk = true := by decide +kernel
                       intro h; rw [h] at this; cases this)
  · refine ⟨r, rfl, ?_⟩
    have : (step Demo.ch Demo.after (SwapReq.op ⟨"frank", ⟨"b", 30000⟩, "q", 0, 0, none⟩ 9)).toOption.map (fun r => taken Demo.after.store r.1.store 0 .bid) = some 30000 := by
      decide +kernel
    rw [h] at this
    exact Option.some.inj this

end OB
