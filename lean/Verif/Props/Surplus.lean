import Verif.SpecSurplus
import Verif.Props.Exchange
import Verif.Props.Funds
/- C87: an exact account of the contract's own money. -/
namespace OB
open Spec

/-- The value of one unit. -/
def unitValue (d : Dir) (t : Int) : ℚ := value d 1 t

theorem value_mul (d : Dir) (n : Nat) (t : Int) : value d n t = n * unitValue d t := by
  unfold unitValue value
  cases d
  · simp only [Nat.cast_one]; ring
  · simp only [Nat.cast_one]; ring

/-- The unclaimed fills of a queue. -/
def dueUnits (q : List Entry) : Nat := sumBy (fun x => x.filled - x.claimed) q

theorem exactOwed_eq (d : Dir) (t : Int) (q : List Entry) : exactOwed d t q = dueUnits q * unitValue d t := by
  unfold exactOwed dueUnits
  induction q with
  | nil => simp
  | cons x q ih =>
    rw [List.map_cons, List.sum_cons, ih, sumBy_cons, value_mul, Nat.cast_add, add_mul]

/-- Weighted sum over ticks. -/
def totalQ (d : Dir) (g : Int → Nat) : ℚ := ∑ t ∈ tickRange, g t * unitValue d t

theorem overTicksQ_eq (g : Int → ℚ) : overTicksQ g = ∑ t ∈ tickRange, g t := by
  unfold overTicksQ tickRange MIN_TICK MAX_TICK
  rfl

theorem totalQ_congr {d : Dir} {g g' : Int → Nat} (h : ∀ t, g t = g' t) : totalQ d g = totalQ d g' := by
  rw [show g = g' from funext h]

theorem totalQ_add {d : Dir} {g g' k : Int → Nat} (h : ∀ t, g t = g' t + k t) : totalQ d g = totalQ d g' + totalQ d k := by
  unfold totalQ
  rw [← Finset.sum_add_distrib]
  refine Finset.sum_congr rfl fun t _ => ?_
  rw [h, Nat.cast_add, add_mul]

theorem totalQ_single {d : Dir} {g : Int → Nat} {t : Int} (ht : t ∈ tickRange) (h : ∀ t', t' ≠ t → g t' = 0) :
    totalQ d g = g t * unitValue d t := by
  unfold totalQ
  exact Finset.sum_eq_single_of_mem t ht fun t' _ hne => by rw [h t' hne]; simp

theorem surplus_eq {ch : Chain} {bank : Bank} {ob : Orderbook} {s : Store} {b : Book} (hr : Rel s b) (d : Dir) :
    surplus ch bank ob.quoteDenom ob.baseDenom b d =
      bank ch.contract (ob.expectedDenom d) - openOf b d - totalQ d.opposite fun t => dueUnits (b t d.opposite) := by
  unfold surplus
  rw [denomIn_eq, overTicks_eq, overTicksQ_eq]
  congr 1
  · congr 2
    rw [openOf_eq]
    refine total_congr fun t _ => ?_
    obtain ⟨r, rt, hs, -, -⟩ := hr.sides t d
    exact openTotal_eq hs.ok
  · exact Finset.sum_congr rfl fun t _ => exactOwed_eq ..

theorem dueUnits_set {b : Book} {tick : Int} {dir : Dir} {q : List Entry} (ht : tick ∈ tickRange) (d : Dir) {k : Nat}
    (h : dueUnits q + k = dueUnits (b tick dir)) :
    totalQ d (fun t => dueUnits (b.set tick dir q t d)) + (if d = dir then k * unitValue d tick else 0) = totalQ d fun t => dueUnits (b t d) := by
  by_cases hd : d = dir
  · subst hd
    rw [if_pos rfl]
    have e := totalQ_add (d := d) (g := fun t => dueUnits (b t d)) (g' := fun t => dueUnits (b.set tick d q t d)) (k := fun t => if t = tick then k else 0) (by
      intro t
      by_cases htt : t = tick
      · subst htt; rw [Book.set_same, if_pos rfl, h]
      · rw [Book.set_ne _ _ (Or.inl htt), if_neg htt, Nat.add_zero])
    rw [e, totalQ_single ht (fun t' ht' => if_neg ht')]
    simp
  · rw [if_neg hd, add_zero]
    exact totalQ_congr fun t => by rw [Book.set_ne _ _ (Or.inr hd)]

theorem dueUnits_keep {b : Book} {tick : Int} {dir : Dir} {q : List Entry} (d : Dir) (h : dueUnits q = dueUnits (b tick dir)) :
    totalQ d (fun t => dueUnits (b.set tick dir q t d)) = totalQ d fun t => dueUnits (b t d) := by
  refine totalQ_congr fun t => ?_
  by_cases htd : t = tick ∧ d = dir
  · obtain ⟨rfl, rfl⟩ := htd
    rw [Book.set_same, h]
  · rw [Book.set_ne _ _ (not_and_or.1 htd)]

theorem round_claim {dir : Dir} {t : Int} (ht : MIN_TICK ≤ t ∧ t ≤ MAX_TICK) (a : Nat) :
    (valDown dir a (priceNat t) : ℚ) ≤ a * unitValue dir t ∧ a * unitValue dir t ≤ valDown dir a (priceNat t) + 1 := by
  rw [← value_mul, payout_eq ht]
  have hpos : 0 ≤ value dir a t := by
    rw [value_eq ht.1 ht.2]
    cases dir <;> positivity
  exact ⟨Nat.floor_le hpos, (Nat.lt_floor_add_one _).le⟩

/-- A claim: what it takes off the obligations is what it pays plus a fraction. -/
theorem ClaimStep.account {sender : Addr} {tick : Int} {id : Nat} {s s' : Store} {b b' : Book} {r : Nat × List SendMsg × LimitOrder}
    (h : ClaimStep sender tick id s b r s' b') (hr : Rel s b) {ob : Orderbook} (hob : s.orderbook = some ob) (d : Dir) :
    openOf b' d = openOf b d ∧ ∃ ρ : ℚ, 0 ≤ ρ ∧ ρ ≤ 1 ∧
      totalQ d.opposite (fun t => dueUnits (b' t d.opposite)) + msgSum (ob.expectedDenom d) r.2.1 + ρ = totalQ d.opposite fun t => dueUnits (b t d.opposite) := by
  have hne := filledBook_rel hr hob
  obtain ⟨dir, p, x, q, h1, h2, h3, h4, h5, rfl, h6, h7⟩ := h.msgs_sum hr hob
  constructor
  · have := openOf_set (b := b) (tick := tick) (dir := dir) (q := p ++ { x with claimed := x.filled } :: q) h5 d
    have e : sumBy Entry.left (p ++ { x with claimed := x.filled } :: q) = sumBy Entry.left (b tick dir) := by
      rw [h1]; simp [left_claimed]
    rw [e] at this
    omega
  · have hs := dueUnits_set (b := b) (tick := tick) (dir := dir) (q := p ++ { x with claimed := x.filled } :: q) h5 d.opposite
      (k := x.filled - x.claimed) (by rw [h1]; unfold dueUnits; simp; omega)
    have hdd : dir.opposite = d ↔ d.opposite = dir := by cases dir <;> cases d <;> simp [Dir.opposite]
    rw [h7]
    simp only [expected_ne hne]
    have hrd := round_claim (dir := dir) (mem_tickRange.1 h5) (x.filled - x.claimed)
    by_cases hd : d.opposite = dir
    · rw [if_pos (hdd.2 hd)]
      rw [if_pos hd] at hs
      subst hd
      exact ⟨(x.filled - x.claimed : Nat) * unitValue d.opposite tick - valDown d.opposite (x.filled - x.claimed) (priceNat tick),
        by linarith [hrd.1], by linarith [hrd.2], by rw [← hs]; ring⟩
    · rw [if_neg (fun h => hd (hdd.1 h))]
      rw [if_neg hd] at hs
      exact ⟨0, le_refl _, zero_le_one, by rw [← hs]; simp⟩

theorem claimsIn_claimed (sender : Addr) (o : LimitOrder) (n : Nat) (d1 d2 : Denom) (l : List Event) :
    claimsIn (claimedEvent sender o n d1 d2 :: l) = claimsIn l + 1 := by
  unfold claimsIn claimedEvent
  simp

theorem ClaimRun.account {sender : Addr} {ob : Orderbook} {l : List (Int × Nat)} {s s' : Store} {b b' : Book} {ms : List SendMsg}
    {es : List Event} (h : ClaimRun sender ob l s b ms es s' b') (hr : Rel s b) (hob : s.orderbook = some ob) (d : Dir) :
    openOf b' d = openOf b d ∧ ∃ ρ : ℚ, 0 ≤ ρ ∧ ρ ≤ claimsIn es ∧
      totalQ d.opposite (fun t => dueUnits (b' t d.opposite)) + msgSum (ob.expectedDenom d) ms + ρ = totalQ d.opposite fun t => dueUnits (b t d.opposite) := by
  induction h with
  | nil => exact ⟨rfl, 0, le_refl _, by simp [claimsIn], by simp⟩
  | ok _ h _ ih =>
    obtain ⟨a1, ρ, a2, a3, a4⟩ := h.account hr hob d
    obtain ⟨g1, ρ', g2, g3, g4⟩ := ih h.rel (by rw [h.orderbook]; exact hob)
    refine ⟨g1.trans a1, ρ + ρ', by linarith, ?_, ?_⟩
    · rw [claimsIn_claimed]
      push_cast
      linarith
    · rw [msgSum_append, ← a4, ← g4]
      push_cast
      ring
  | skip _ h _ ih => exact ih (h.rel hr) (by rw [h.orderbook]; exact hob)

/-- The contract does not pay for an accepted operation. -/
theorem payer_ne {ch : Chain} {w w' : World} {op : Op} {resp : Response} (hs : step ch w op = .ok (w', resp)) {src dst : Addr} {cs : List Coin}
    (hp : payment ch op = some (src, dst, cs)) : ch.contract ≠ src := by
  cases op with
  | execute sender funds time msg =>
    obtain ⟨h0, -⟩ := step_execute_ok.1 hs
    cases hp; exact h0.symm
  | «sudo» time msg =>
    cases msg <;> cases hp
    · exact (step_swap_ok (r := ⟨src, _, _, _, _, none⟩).1 hs).2.1.symm
    · exact (step_swap_ok (r := ⟨src, _, _, _, _, some _⟩).1 hs).2.1.symm
  | transfer a b c =>
    cases hp
    simp only [step] at hs
    split at hs
    · simp at hs
    · rename_i h; exact Ne.symm h
  | migrate => cases hp
  | mint => cases hp

theorem pays_zero {ch : Chain} {w w' : World} {op : Op} {resp : Response} (hs : step ch w op = .ok (w', resp)) (d : Denom) :
    paysIn ch op ch.contract d = 0 := by
  unfold paysIn
  cases hp : payment ch op with
  | none => rfl
  | some x => obtain ⟨src, dst, cs⟩ := x; simp only; rw [if_neg (payer_ne hs hp)]

/-- A swap: open orders and obligations. -/
theorem swap_account {s : Store} {b : Book} (hr : Rel s b) {side : Dir} {F : List Fill} (hF : FillsOk b F side)
    (hFr : ∀ f ∈ F, f.tick ∈ tickRange) (d : Dir) :
    openOf (filledBook b F side) d + (if d = side then sumAmount F else 0) = openOf b d ∧
    totalQ d (fun t => dueUnits (filledBook b F side t d)) =
      totalQ d (fun t => dueUnits (b t d)) + if d = side then totalQ d (fillAt F) else 0 := by
  constructor
  · have e : ∀ t, leftAt (filledBook b F side) d t + takenBy F side t d = leftAt b d t := by
      intro t
      have h1 := filled_left hF t d
      have h2 := hF.taken_le t d
      unfold leftAt; omega
    have h3 : openOf (filledBook b F side) d + total (fun t => takenBy F side t d) = openOf b d := by
      unfold openOf
      rw [← total_add]
      exact total_congr (fun t _ => e t)
    rw [← h3]
    congr 1
    unfold takenBy
    split
    · rw [total_fillAt hF.nodup hFr (g := fun _ a => a) (fun _ => rfl)]; rfl
    · exact total_zero.symm
  · have key : ∀ t, dueUnits (filledBook b F side t d) = dueUnits (b t d) + takenBy F side t d := by
      intro t
      obtain ⟨r, rt, hs, -, -⟩ := hr.sides t d
      have hs' : ∀ q : List Entry, (∀ x ∈ q, x.claimed ≤ x.filled) → dueUnits q + sumBy Entry.claimed q = sumBy Entry.filled q := by
        intro q hq
        unfold dueUnits
        induction q with
        | nil => rfl
        | cons x q ih =>
          have := ih fun y hy => hq y (by simp [hy])
          have := hq x (by simp)
          simp only [sumBy_cons]; omega
      have h1 := hs' (b t d) fun x hx => (hs.ok x hx).claimed_le
      have h2 := hs' (filledBook b F side t d) fun x hx => (fillQ_ok hs.ok x hx).claimed_le
      have h3 : sumBy Entry.filled (filledBook b F side t d) = sumBy Entry.filled (b t d) + takenBy F side t d :=
        fillQ_sumFilled (hF.taken_le t d)
      have h4 : sumBy Entry.claimed (filledBook b F side t d) = sumBy Entry.claimed (b t d) := fillQ_sum _ _ _ (fun _ _ => rfl)
      omega
    rw [totalQ_add key]
    congr 1
    unfold takenBy
    split
    · rfl
    · unfold totalQ; simp

theorem place_arith {A B l0 k : Nat} {d dir : Dir} (h : A + (if d = dir then l0 else 0) = B + if d = dir then l0 + k else 0) :
    A = B + if dir = d then k else 0 := by
  by_cases hd : d = dir
  · rw [if_pos hd, if_pos hd] at h; rw [if_pos hd.symm]; omega
  · rw [if_neg hd, if_neg hd] at h; rw [if_neg (fun h => hd h.symm)]; omega

theorem cancel_arith {A B l0 l1 k : Nat} {d dir : Dir} (h : A + (if d = dir then l0 else 0) = B + if d = dir then l1 else 0) (hk : l1 + k = l0) :
    A + (if dir = d then k else 0) = B := by
  by_cases hd : d = dir
  · rw [if_pos hd, if_pos hd] at h; rw [if_pos hd.symm]; omega
  · rw [if_neg hd, if_neg hd] at h; rw [if_neg (fun h => hd h.symm)]; omega

theorem place_open {b : Book} {tick : Int} {dir : Dir} {e : Entry} (ht : tick ∈ tickRange) (d : Dir) :
    openOf (b.set tick dir (b tick dir ++ [e])) d = openOf b d + if dir = d then e.left else 0 := by
  have e1 := openOf_set (b := b) (tick := tick) (dir := dir) (q := b tick dir ++ [e]) ht d
  have e2 : sumBy Entry.left (b tick dir ++ [e]) = sumBy Entry.left (b tick dir) + e.left := by simp
  rw [e2] at e1
  exact place_arith e1

theorem cancel_open {b : Book} {tick : Int} {dir : Dir} {p q : List Entry} {x y : Entry} (ht : tick ∈ tickRange) (hb : b tick dir = p ++ x :: q)
    (hy : y.left = 0) (d : Dir) : openOf (b.set tick dir (p ++ y :: q)) d + (if dir = d then x.left else 0) = openOf b d := by
  have e1 := openOf_set (b := b) (tick := tick) (dir := dir) (q := p ++ y :: q) ht d
  refine cancel_arith e1 ?_
  rw [hb]
  simp only [sumBy_append, sumBy_cons, hy]
  omega

/-- The account of a swap, case by case. -/
theorem swap_arith {A A' T T' X c r out : ℚ} {P Q : Prop} [Decidable P] [Decidable Q] (hPQ : P ↔ ¬ Q)
    (h1 : A' + (if Q then out else 0) = A) (h2 : T' = T + if P then X else 0) :
    A' + T' + ((if Q then out else 0) + if P then r else 0) + ((if P then c - r - X else 0) - 0) + 0 = A + T + if P then c else 0 := by
  by_cases hP : P
  · have hQ : ¬ Q := hPQ.1 hP
    simp only [if_pos hP, if_neg hQ] at *
    rw [h2, ← h1]; ring
  · have hQ : Q := by by_contra h; exact hP (hPQ.2 h)
    simp only [if_neg hP, if_pos hQ] at *
    rw [h2, ← h1]; ring

/-- The account of one operation, balances aside: open orders and obligations after it, the transfers out, the gain and the fractions rounded off
make up open orders and obligations before it, and what came in. -/
theorem StoreStep.account {ch : Chain} {op : Op} {s s' : Store} {b b' : Book} {resp : Response} (h : StoreStep ch op s b resp s' b')
    (hr : Rel s b) {ob : Orderbook} (hob : s.orderbook = some ob) (hpay : ∀ src dst cs, payment ch op = some (src, dst, cs) → ch.contract ≠ src) (d : Dir) :
    ∃ ρ : ℚ, 0 ≤ ρ ∧ ρ ≤ claimsIn resp.events ∧
      openOf b' d + totalQ d.opposite (fun t => dueUnits (b' t d.opposite)) + spent (ob.expectedDenom d) resp.msgs +
        (gain ch ob.quoteDenom ob.baseDenom d op s s' resp - received ch.contract (ob.expectedDenom d) resp.msgs) + ρ =
      openOf b d + totalQ d.opposite (fun t => dueUnits (b t d.opposite)) + brings ch op ch.contract (ob.expectedDenom d) := by
  have hne := filledBook_rel hr hob
  cases h with
  | @place sender funds time tick dir q cb s b ob' h1 h2 h3 h4 =>
    obtain rfl : ob' = ob := by rw [hob] at h2; exact (Option.some.inj h2).symm
    have ht : tick ∈ tickRange := mem_tickRange.2 h4.range
    refine ⟨0, le_refl _, Nat.cast_nonneg _, ?_⟩
    have e2 := dueUnits_keep (b := b) (tick := tick) (dir := dir) (q := b tick dir ++ [newEntry s sender q cb time]) d.opposite
      (by unfold dueUnits; simp [newEntry])
    have e3 : Entry.left (newEntry s sender q cb time) = q := by simp [newEntry, Entry.left]
    have e4 : brings ch (.execute sender funds time (.placeLimit tick dir q cb)) ch.contract (ob'.expectedDenom d) = if dir = d then q else 0 := by
      simp only [brings, getsPaid, payment, if_true, h4.funds, amountOf_eq, coinSum_cons, coinSum_nil, Nat.add_zero, expected_ne hne]
    rw [e2, e4, place_open ht, e3, Nat.cast_add]
    simp only [gain, spent, received, List.map_nil, List.sum_nil]
    ring
  | @cancel time tick dir s s1 b ob' p q x tr ts1 h1 h2 h3 h4 h5 h6 h7 h8 h9 =>
    obtain rfl : ob' = ob := by rw [hob] at h2; exact (Option.some.inj h2).symm
    have ht : tick ∈ tickRange := mem_tickRange.2 (hr.range tick dir (by rw [h3]; simp))
    refine ⟨0, le_refl _, Nat.cast_nonneg _, ?_⟩
    have e2 := dueUnits_keep (b := b) (tick := tick) (dir := dir) (q := p ++ { x with cancelled := true } :: q) d.opposite
      (by rw [h3]; unfold dueUnits; simp)
    have e4 : x.left = x.placed - x.claimed := by simp [Entry.left, h4.1, h5]
    have e5 := cancel_open (y := { x with cancelled := true }) ht h3 (by simp [Entry.left]) d
    have e6 : brings ch (.execute x.owner [] time (.cancelLimit tick x.id)) ch.contract (ob'.expectedDenom d) = 0 := by
      simp [brings, getsPaid, payment, amountOf]
    rw [e4] at e5
    rw [e2, ← e5, spent_eq, e6, Nat.cast_add]
    simp only [gain, msgSum_cons, msgSum_nil, expected_ne hne, denomIn_eq]
    push_cast
    ring
  | @claim sender time tick id s b ob' r s' b' h1 h2 h3 h4 =>
    obtain rfl : ob' = ob := by rw [hob] at h2; exact (Option.some.inj h2).symm
    obtain ⟨a1, ρ, a2, a3, a4⟩ := h4.account hr hob d
    refine ⟨ρ, a2, ?_, ?_⟩
    · rw [claimsIn_claimed]
      push_cast
      have : (0 : ℚ) ≤ claimsIn [] := Nat.cast_nonneg _
      linarith
    · have e6 : brings ch (.execute sender [] time (.claimLimit tick id)) ch.contract (ob'.expectedDenom d) = 0 := by
        simp [brings, getsPaid, payment, amountOf]
      rw [e6, ← a4, a1, spent_eq]
      simp only [gain, denomIn_eq]
      push_cast
      ring
  | @batch sender time l s b ob' ms es s' b' h1 h2 h3 h4 =>
    obtain rfl : ob' = ob := by rw [hob] at h2; exact (Option.some.inj h2).symm
    obtain ⟨a1, ρ, a2, a3, a4⟩ := h4.account hr hob d
    refine ⟨ρ, a2, ?_, ?_⟩
    · have : claimsIn (.method "batchClaimLimit" [("sender", .str sender)] :: es) = claimsIn es := by simp [claimsIn]
      rw [this]; exact a3
    · have e6 : brings ch (.execute sender [] time (.batchClaim l)) ch.contract (ob'.expectedDenom d) = 0 := by
        simp [brings, getsPaid, payment, amountOf]
      rw [e6, ← a4, a1, spent_eq]
      simp only [gain, denomIn_eq]
      push_cast
      ring
  | @swap time msg sender c out m fee target s b ob' dir F q' dust lp h1 h2 h3 h4 h5 =>
    obtain rfl : ob' = ob := by rw [hob] at h2; exact (Option.some.inj h2).symm
    have hF := h5.run.fillsOk hr hob
    have hFr : ∀ f ∈ F, f.tick ∈ tickRange := fun f hf =>
      mem_tickRange.2 (sweepTicks_range hr _ (h5.run.sweep.sublist.subset (List.mem_map_of_mem hf)))
    obtain ⟨a1, -⟩ := swap_account hr hF hFr d
    obtain ⟨-, a2⟩ := swap_account hr hF hFr d.opposite
    have htaken : ∀ t d, taken s (swappedStore s dir.opposite F ob') t d = takenBy F dir.opposite t d := fun t d => by
      unfold taken; rw [taken_observed hr hF]
    refine ⟨0, le_refl _, Nat.cast_nonneg _, ?_⟩
    have hpm : payment ch (.sudo time msg) = some (sender, ch.contract, [c]) := by
      cases msg <;> simp [SudoMsg.swapArgs] at h3 <;> simp [payment, h3]
    have hsend := hpay _ _ _ hpm
    have e1 : (d.opposite = dir.opposite) ↔ dir = d := by cases d <;> cases dir <;> simp [Dir.opposite]
    have e2 : (d = dir.opposite) ↔ dir.opposite = d := eq_comm
    have e3 : msgSum (ob'.expectedDenom d) (if q' = 0 then [] else [⟨sender, ⟨ob'.expectedDenom dir, q'⟩, REPLY_ID_REFUND⟩]) =
        if dir = d then q' else 0 := by
      split
      · subst_vars; simp
      · simp [expected_ne hne]
    have e4 : brings ch (.sudo time msg) ch.contract (ob'.expectedDenom d) = if dir = d then c.amount else 0 := by
      simp only [brings, getsPaid, hpm, if_true, amountOf_eq, coinSum_cons, coinSum_nil, Nat.add_zero, h5.denoms.1, expected_ne hne]
    have e5 : received ch.contract (ob'.expectedDenom d) (swapResponse sender c out m (sumAmount F) q').msgs = 0 := by
      simp only [received, swapResponse, swapMsgs]
      split <;> simp [hsend.symm]
    have e6 : spent (ob'.expectedDenom d) (swapResponse sender c out m (sumAmount F) q').msgs =
        (if d = dir.opposite then sumAmount F else 0) + if dir = d then q' else 0 := by
      rw [spent_eq]
      simp only [swapResponse, swapMsgs, msgSum_cons]
      rw [h5.denoms.1, h5.denoms.2, expected_opposite, e3]
      simp only [expected_ne hne, e2]
    have e7 : dir = d → overTicksQ (fun t => value d.opposite (taken s (swappedStore s dir.opposite F ob') t d.opposite) t) =
        totalQ d.opposite (fillAt F) := by
      intro h
      rw [overTicksQ_eq]
      unfold totalQ
      refine Finset.sum_congr rfl fun t _ => ?_
      rw [htaken, value_mul]
      unfold takenBy
      rw [if_pos (e1.2 h)]
    have e8 : gain ch ob'.quoteDenom ob'.baseDenom d (.sudo time msg) s (swappedStore s dir.opposite F ob')
        (swapResponse sender c out m (sumAmount F) q') =
        if dir = d then (c.amount - q' - totalQ d.opposite (fillAt F) : ℚ) else 0 := by
      have e9 : gain ch ob'.quoteDenom ob'.baseDenom d (.sudo time msg) s (swappedStore s dir.opposite F ob')
          (swapResponse sender c out m (sumAmount F) q') =
          swapGain (ob'.expectedDenom d) d c s (swappedStore s dir.opposite F ob') (swapResponse sender c out m (sumAmount F) q') := by
        cases msg <;> simp [SudoMsg.swapArgs] at h3 <;> simp only [gain, denomIn_eq, h3]
      rw [e9]
      unfold swapGain
      rw [e6, h5.denoms.1]
      simp only [expected_ne hne]
      by_cases hd : dir = d
      · have hd' : ¬ d = dir.opposite := by subst hd; cases dir <;> simp [Dir.opposite]
        rw [if_pos hd, if_pos hd, if_neg hd', if_pos hd, e7 hd, Nat.zero_add]
      · rw [if_neg hd, if_neg hd]
    rw [e4, e5, e6, e8]
    have a1' := congrArg (Nat.cast : Nat → ℚ) a1
    simp only [e1] at a2
    have hPQ : dir = d ↔ ¬ d = dir.opposite := by cases d <;> cases dir <;> simp [Dir.opposite]
    rw [Nat.cast_add, Nat.cast_ite] at a1'
    rw [Nat.cast_add, Nat.cast_ite, Nat.cast_ite, Nat.cast_ite]
    simp only [Nat.cast_zero] at a1' ⊢
    exact swap_arith hPQ a1' a2
  | @config op s b resp s' h1 h2 h3 h4 h5 =>
    refine ⟨0, le_refl _, Nat.cast_nonneg _, ?_⟩
    rw [h4]
    have key : gain ch ob.quoteDenom ob.baseDenom d op s s' resp = brings ch op ch.contract (ob.expectedDenom d) := by
      cases op with
      | execute sender funds time msg =>
        cases msg <;> simp only [Op.isConfig, Bool.false_eq_true] at h1
        simp [gain, brings, getsPaid, payment, denomIn_eq]
      | «sudo» time msg => cases msg <;> simp only [Op.isConfig, Bool.false_eq_true] at h1 <;> simp [gain, brings, getsPaid, payment]
      | migrate => simp [gain, brings, getsPaid, payment]
      | transfer src dst c =>
        simp only [gain, brings, getsPaid, payment, denomIn_eq, eq_comm (a := dst)]
        split <;> simp
      | mint dst c =>
        simp only [gain, brings, denomIn_eq, eq_comm (a := dst), amountOf_eq, coinSum_cons, coinSum_nil, eq_comm (a := c.denom)]
        split <;> simp [*]
    rw [key]
    simp only [spent, received, List.map_nil, List.sum_nil]
    push_cast
    ring

/-- C87 (one operation): whatever happens, the contract's surplus over its exact obligations changes by the gain of the operation and by the
fractions - less than one unit each - that its claims round off. -/
theorem C87_step {ch : Chain} {n : Nat} {w w' : World} {b : Book} (h : Traced ch n w b) {quote base : Denom}
    (hd : denoms w.store = .ok (quote, base)) {op : Op} {resp : Response} (hs : step ch w op = .ok (w', resp)) (d : Dir) :
    ∃ ρ : ℚ, 0 ≤ ρ ∧ ρ ≤ claimsIn resp.events ∧
      surplus ch w'.bank quote base (b.observe op w.store w'.store resp) d =
        surplus ch w.bank quote base b d + gain ch quote base d op w.store w'.store resp + ρ := by
  obtain ⟨ob, hob, rfl, rfl⟩ := denoms_eq hd
  have hst := h.step hs
  obtain ⟨ρ, h1, h2, h3⟩ := hst.account h.rel hob (fun _ _ _ hp => payer_ne hs hp) d
  refine ⟨ρ, h1, h2, ?_⟩
  rw [surplus_eq h.rel, surplus_eq (hst.rel h.rel)]
  have hb := step_brings hs ch.contract (ob.expectedDenom d)
  rw [pays_zero hs, if_pos rfl, Nat.add_zero] at hb
  have hq := congrArg (Nat.cast : Nat → ℚ) hb
  push_cast at hq
  linarith

theorem surplus_empty (ch : Chain) (bank : Bank) (quote base : Denom) (d : Dir) :
    surplus ch bank quote base Book.empty d = bank ch.contract (denomIn quote base d) := by
  unfold surplus
  have e1 : overTicks (fun t => openTotal (Book.empty t d)) = 0 := by
    rw [overTicks_eq]
    exact total_zero
  have e2 : overTicksQ (fun t => exactOwed d.opposite t (Book.empty t d.opposite)) = 0 := by
    rw [overTicksQ_eq]
    exact Finset.sum_eq_zero fun t _ => by rw [exactOwed_eq]; simp [Book.empty, dueUnits]
  rw [e1, e2]
  simp

theorem claimsIn_append (l l' : List Event) : claimsIn (l ++ l') = claimsIn l + claimsIn l' := by
  unfold claimsIn; exact List.countP_append

theorem account_run {ch : Chain} {n : Nat} {w : World} {b : Book} (h : Traced ch n w b) (hw : Reachable ch w) {quote base : Denom}
    (hd : denoms w.store = .ok (quote, base)) (d : Dir) (ops : List Op) :
    ∃ b', Traced ch (n + ops.length) (run ch w ops) b' ∧
      surplus ch w.bank quote base b d + gains ch quote base d w ops ≤ surplus ch (run ch w ops).bank quote base b' d ∧
      surplus ch (run ch w ops).bank quote base b' d ≤
        surplus ch w.bank quote base b d + gains ch quote base d w ops + claimsIn (log ch w ops) := by
  induction ops generalizing n w b with
  | nil =>
    refine ⟨b, h, ?_, ?_⟩
    · simp [gains, run]
    · simp [gains, run, log, claimsIn]
  | cons op ops ih =>
    have hrun : run ch w (op :: ops) = run ch (apply ch w op) ops := rfl
    cases hs : step ch w op with
    | error e =>
      have ha : apply ch w op = w := by unfold apply; rw [hs]
      rw [hrun, ha]
      have hg : gains ch quote base d w (op :: ops) = gains ch quote base d w ops := by simp only [gains, hs]
      have hl : log ch w (op :: ops) = log ch w ops := by simp only [log, hs]
      rw [hg, hl]
      obtain ⟨b', h1, h2⟩ := ih (Traced.failed h hs) hw hd
      exact ⟨b', by rw [List.length_cons, Nat.add_comm ops.length, ← Nat.add_assoc]; exact h1, h2⟩
    | ok r =>
      obtain ⟨w', resp⟩ := r
      have ha : apply ch w op = w' := by unfold apply; rw [hs]
      have hd' : denoms w'.store = .ok (quote, base) := by
        have := C39_denoms_fixed hw [op]
        rw [show run ch w [op] = w' from ha] at this
        rw [this, hd]
      have hw' : Reachable ch w' := by
        have := Reachable.run hw [op]
        rwa [show run ch w [op] = w' from ha] at this
      rw [hrun, ha]
      have hg : gains ch quote base d w (op :: ops) = gain ch quote base d op w.store w'.store resp + gains ch quote base d w' ops := by
        simp only [gains, hs]
      have hl : log ch w (op :: ops) = resp.events ++ log ch w' ops := by simp only [log, hs]
      rw [hg, hl, claimsIn_append, Nat.cast_add]
      obtain ⟨ρ, r1, r2, r3⟩ := C87_step h hd hs d
      obtain ⟨b', h1, h2, h3⟩ := ih (Traced.ok h hs) hw' hd'
      refine ⟨b', by rw [List.length_cons, Nat.add_comm ops.length, ← Nat.add_assoc]; exact h1, ?_, ?_⟩ <;> linarith

/-- C87 (histories): at any time the contract's balance is accounted for: it is what it held at first, the unfilled rests of the live orders, the exact
value of the fills not yet claimed, the gains of the accepted operations, and less than one unit per claim so far. -/
theorem C87_history {ch : Chain} {w0 : World} (hi : Initial ch w0) {quote base : Denom} (hd : denoms w0.store = .ok (quote, base)) (d : Dir) (ops : List Op) :
    ∃ b, Traced ch ops.length (run ch w0 ops) b ∧
      w0.bank ch.contract (denomIn quote base d) + gains ch quote base d w0 ops ≤ surplus ch (run ch w0 ops).bank quote base b d ∧
      surplus ch (run ch w0 ops).bank quote base b d ≤
        w0.bank ch.contract (denomIn quote base d) + gains ch quote base d w0 ops + claimsIn (log ch w0 ops) := by
  obtain ⟨b, h1, h2, h3⟩ := account_run (.init hi) hi.reachable hd d ops
  rw [surplus_empty] at h2 h3
  rw [Nat.zero_add] at h1
  exact ⟨b, h1, h2, h3⟩

/-- C87 (nobody left): when no order is stored, the contract's whole balance is surplus. -/
theorem C87_wound_down {ch : Chain} {n : Nat} {w : World} {b : Book} (h : Traced ch n w b) {quote base : Denom}
    (hd : denoms w.store = .ok (quote, base)) (hn : ∀ k, w.store.orders.get? k = none) (d : Dir) :
    surplus ch w.bank quote base b d = w.bank ch.contract (denomIn quote base d) := by
  obtain ⟨ob, hob, rfl, rfl⟩ := denoms_eq hd
  have key : ∀ t d, ∀ x ∈ b t d, x.left = 0 ∧ x.filled - x.claimed = 0 := by
    intro t d x hx
    obtain ⟨r, rt, hs, -, -⟩ := h.rel.sides t d
    have hok := hs.ok x hx
    have hnl : ¬ x.Live := by
      rcases h.rel.lookup t x.id with ⟨-, h1⟩ | ⟨_, _, _, _, _, _, _, h1⟩
      · exact h1 d x hx rfl
      · rw [hn] at h1; cases h1
    have h2 := hok.claimed_le
    have h3 := hok.filled_le
    unfold Entry.Live at hnl
    cases hc : x.cancelled with
    | true =>
      have := hok.canc hc
      exact ⟨by simp [Entry.left, hc], by omega⟩
    | false =>
      have h4 : ¬ x.claimed < x.placed := fun h => hnl ⟨hc, h⟩
      exact ⟨by simp [Entry.left, hc]; omega, by omega⟩
  have e0 : ∀ (f : Entry → Nat) (q : List Entry), (∀ x ∈ q, f x = 0) → sumBy f q = 0 := by
    intro f q hq
    induction q with
    | nil => rfl
    | cons x q ih => rw [sumBy_cons, hq x (by simp), ih fun y hy => hq y (by simp [hy])]
  rw [surplus_eq h.rel, denomIn_eq]
  have e1 : openOf b d = 0 := by
    rw [openOf_eq, ← total_zero]
    exact total_congr fun t _ => e0 _ _ fun x hx => (key t d x hx).1
  have e2 : totalQ d.opposite (fun t => dueUnits (b t d.opposite)) = 0 := by
    unfold totalQ
    refine Finset.sum_eq_zero fun t _ => ?_
    have : dueUnits (b t d.opposite) = 0 := e0 _ _ fun x hx => (key t d.opposite x hx).2
    simp only [this]; simp
  rw [e1, e2]
  simp

/-- The number of price levels an operation took from. -/
def levels (s s' : Store) (side : Dir) : Nat := overTicks fun t => if taken s s' t side = 0 then 0 else 1

theorem unit_sum {g : Int → ℚ} {m : Int → Nat} {lo hi : ℚ} (h : ∀ t ∈ tickRange, lo * m t ≤ g t ∧ g t ≤ hi * m t) :
    lo * total m ≤ ∑ t ∈ tickRange, g t ∧ ∑ t ∈ tickRange, g t ≤ hi * total m := by
  unfold total
  rw [Nat.cast_sum, Finset.mul_sum, Finset.mul_sum]
  exact ⟨Finset.sum_le_sum fun t ht => (h t ht).1, Finset.sum_le_sum fun t ht => (h t ht).2⟩

theorem charge_none {side : Dir} {t : Int} (ht : MIN_TICK ≤ t ∧ t ≤ MAX_TICK) : charge side 0 t = 0 := by
  rw [← charge_eq ht.1 ht.2, valUp_zero]

/-- C87 (swaps): what a swap leaves behind is the dust that bought nothing and, for each price level it took from, the fraction by which the
charge was rounded: less than one unit in favour of the contract, less than 10^-18 of a unit to its disadvantage, and no disadvantage at all
at a level of asks or at a price of at most 10^18. -/
theorem C87_swap {ch : Chain} {w w' : World} (hw : Reachable ch w) {quote base : Denom} (hd : denoms w.store = .ok (quote, base)) {r : SwapReq}
    {time : Nat} {resp : Response} (hs : step ch w (r.op time) = .ok (w', resp)) {d : Dir} (hp : r.pair quote base d.opposite) :
    ∃ dust : Nat, ∃ φ : ℚ, gain ch quote base d (r.op time) w.store w'.store resp = dust + φ ∧
      (∀ t, r.within d.opposite t → tickLiquidity w'.store t d.opposite ≠ 0 → value d dust t < 1) ∧
      -(levels w.store w'.store d.opposite : ℚ) / 10 ^ 18 ≤ φ ∧ φ ≤ levels w.store w'.store d.opposite ∧
      ((∀ t, ValidTick t → taken w.store w'.store t d.opposite ≠ 0 → d = .bid ∨ price t ≤ 10 ^ 18) → 0 ≤ φ) := by
  have hw' := hw
  obtain ⟨n, hn⟩ := hw'
  obtain ⟨b, h⟩ := hn.traced
  obtain ⟨refund, dust, c1, c2, -, c4, -⟩ := C22_input_accounted hw hd hs hp
  obtain ⟨ob, hob, rfl, rfl⟩ := denoms_eq hd
  obtain ⟨dir, F, q', dust', lp, bank1, -, h2, -, h3, h4, h5, -, -, hF, hFr, h8, -⟩ := h.swap_inv hs hob
  have hne := filledBook_rel h.rel hob
  have hdir : dir.opposite = d.opposite := pair_unique hne hp h3.pair
  obtain rfl : dir = d := by cases dir <;> cases d <;> simp [Dir.opposite] at hdir <;> rfl
  have hq : refund = q' := by
    rw [h4] at c1
    simp only [swapResponse, swapMsgs, List.tail_cons] at c1
    by_cases h0 : q' = 0 <;> by_cases h0' : refund = 0 <;> simp [h0, h0'] at c1 ⊢
    exact c1.1.symm
  have hsp : spent (ob.expectedDenom dir) resp.msgs = refund := by
    rw [h4, spent_eq]
    simp only [swapResponse, swapMsgs, msgSum_cons]
    rw [h3.denoms.1, h3.denoms.2, expected_opposite, hq]
    simp only [expected_ne hne]
    have : ¬ dir.opposite = dir := by cases dir <;> simp [Dir.opposite]
    rw [if_neg this, Nat.zero_add]
    split
    · subst_vars; simp
    · simp
  have hg : gain ch ob.quoteDenom ob.baseDenom dir (r.op time) w.store w'.store resp =
      swapGain (ob.expectedDenom dir) dir r.tokenIn w.store w'.store resp := by
    obtain ⟨a, c, o, m, f, t⟩ := r
    cases t <;> simp only [SwapReq.op, gain, denomIn_eq]
  have hsum : (∑ t ∈ tickRange, ((charge dir.opposite (taken w.store w'.store t dir.opposite) t : ℚ) -
      value dir.opposite (taken w.store w'.store t dir.opposite) t)) =
      (overTicks (fun t => charge dir.opposite (taken w.store w'.store t dir.opposite) t) : ℚ) -
        overTicksQ fun t => value dir.opposite (taken w.store w'.store t dir.opposite) t := by
    rw [Finset.sum_sub_distrib, overTicksQ_eq, overTicks_eq]
    unfold total
    rw [Nat.cast_sum]
  have hz : ∀ t ∈ tickRange, taken w.store w'.store t dir.opposite = 0 →
      (charge dir.opposite (taken w.store w'.store t dir.opposite) t : ℚ) - value dir.opposite (taken w.store w'.store t dir.opposite) t = 0 := by
    intro t ht h0
    rw [h0, charge_none (mem_tickRange.1 ht), value_mul]
    simp
  have hlev : levels w.store w'.store dir.opposite = total fun t => if taken w.store w'.store t dir.opposite = 0 then 0 else 1 := by
    unfold levels; rw [overTicks_eq]
  have hb := unit_sum (g := fun t => (charge dir.opposite (taken w.store w'.store t dir.opposite) t : ℚ) -
      value dir.opposite (taken w.store w'.store t dir.opposite) t) (m := fun t => if taken w.store w'.store t dir.opposite = 0 then 0 else 1)
      (lo := -1 / 10 ^ 18) (hi := 1) (by
    intro t ht
    by_cases h0 : taken w.store w'.store t dir.opposite = 0
    · have := hz t ht h0
      simp only [this, if_pos h0]; simp
    · have := C21_charge_fair dir.opposite (taken w.store w'.store t dir.opposite) t (validTick_iff.2 (mem_tickRange.1 ht))
      simp only [if_neg h0, Nat.cast_one, mul_one]
      exact ⟨by linarith [this.1], by linarith [this.2.2]⟩)
  refine ⟨dust, ∑ t ∈ tickRange, ((charge dir.opposite (taken w.store w'.store t dir.opposite) t : ℚ) -
      value dir.opposite (taken w.store w'.store t dir.opposite) t), ?_, ?_, ?_, ?_, ?_⟩
  · rw [hg, hsum]
    unfold swapGain
    rw [if_pos h3.denoms.1, hsp]
    have := congrArg (Nat.cast : Nat → ℚ) c2
    rw [Nat.cast_add, Nat.cast_add] at this
    linarith
  · intro t ht hl
    have := c4 t ht hl
    rw [Dir.opposite_opposite, value_mul, Nat.cast_add, add_mul] at this
    rw [value_mul]
    by_cases hu : 0 ≤ unitValue dir t
    · have h0 : 0 ≤ (refund : ℚ) * unitValue dir t := mul_nonneg (Nat.cast_nonneg _) hu
      linarith
    · have h0 : (dust : ℚ) * unitValue dir t ≤ 0 := mul_nonpos_of_nonneg_of_nonpos (Nat.cast_nonneg _) (not_le.1 hu).le
      linarith
  · rw [hlev]
    have := hb.1
    rw [neg_div] at this ⊢
    linarith
  · rw [hlev]; linarith [hb.2]
  · intro hall
    refine Finset.sum_nonneg fun t ht => ?_
    by_cases h0 : taken w.store w'.store t dir.opposite = 0
    · rw [hz t ht h0]
    · have := (C21_charge_fair dir.opposite (taken w.store w'.store t dir.opposite) t (validTick_iff.2 (mem_tickRange.1 ht))).2.1
        ((hall t (validTick_iff.2 (mem_tickRange.1 ht)) h0).imp (fun h => by rw [h]; rfl) id)
      linarith [this.2]

/-- A history that ends with everybody gone: zed's purchase for 33333 is rounded, bob's claim is rounded. -/
def Demo.gone : List Op :=
  Demo.history ++ [Demo.buy "zed" 33333 0, Demo.claim "zed" 0 3, Demo.cancel "dave" 0 3, Demo.claim "zed" 10 1, Demo.cancel "bob" 10 1,
    Demo.cancel "erin" (-5000000) 4]

/-- The theorems apply: nobody is left, one unit is, and it is the surplus that the histories' account explains. -/
example : (run Demo.ch Demo.w0 Demo.gone).store.orders.length = 0 ∧ (run Demo.ch Demo.w0 Demo.gone).bank "orderbook" "q" = 1 ∧
    claimsIn (log Demo.ch Demo.w0 Demo.gone) = 2 := by
  refine ⟨?_, ?_, ?_⟩ <;> decide +kernel
example : gains Demo.ch "q" "b" .bid Demo.w0 Demo.gone ≤ 1 ∧ 1 ≤ gains Demo.ch "q" "b" .bid Demo.w0 Demo.gone + 2 := by
  obtain ⟨b, h1, h2, h3⟩ := C87_history Demo.initial (quote := "q") (base := "b") rfl .bid Demo.gone
  have e0 : (Demo.w0.bank Demo.ch.contract (denomIn "q" "b" .bid) : Nat) = 0 := by decide +kernel
  have e1 : (run Demo.ch Demo.w0 Demo.gone).bank Demo.ch.contract (denomIn "q" "b" .bid) = 1 := by decide +kernel
  have e2 : claimsIn (log Demo.ch Demo.w0 Demo.gone) = 2 := by decide +kernel
  have e3 : (run Demo.ch Demo.w0 Demo.gone).store.orders.length = 0 := by decide +kernel
  have hd := C39_denoms_fixed Demo.initial.reachable Demo.gone
  generalize run Demo.ch Demo.w0 Demo.gone = w at *
  have e4 := C87_wound_down h1 (quote := "q") (base := "b") (hd.trans rfl) (fun k => by rw [List.length_eq_zero_iff.1 e3]; rfl) .bid
  rw [e4, e1, e0] at h2 h3
  rw [e2] at h3
  norm_num at h2 h3
  exact ⟨h2, h3⟩

end OB
