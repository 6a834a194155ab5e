import Verif.Proofs.Update
import Verif.Proofs.Value
/- claim_order -/
namespace OB

/-- Bounty taken from a payout of `raw`. -/
def bountyOf (cb : Option Nat) (raw : Nat) : Nat :=
  match cb with
  | none => 0
  | some c => raw * c / D

/-- Maker fee taken from a payout of `raw` of which `rest` is left after the bounty. -/
def feeOf (mf raw rest : Nat) : Nat := if rest = 0 then 0 else raw * mf / D

theorem takeBounty_spec {cb : Option Nat} {raw : Nat} (hb : bountyOk cb = true) (hr : raw * D < U256) :
    takeBounty cb raw = .ok (bountyOf cb raw, raw - bountyOf cb raw) ∧ bountyOf cb raw * 100 ≤ raw := by
  cases cb with
  | none => exact ⟨rfl, Nat.zero_le _⟩
  | some c =>
    have hc : c ≤ 10 ^ 16 := by simpa [bountyOk, percent] using hb
    have h1 : raw * c / D * 100 ≤ raw := by
      have h2 : raw * c / D ≤ raw * 10 ^ 16 / D := Nat.div_le_div_right (Nat.mul_le_mul_left _ hc)
      have h3 : raw * 10 ^ 16 / D = raw / 100 := by
        have : D = 100 * 10 ^ 16 := by unfold D; norm_num
        rw [this, Nat.mul_div_mul_right _ _ (by norm_num)]
      have := Nat.div_mul_le_self raw 100
      omega
    refine ⟨?_, h1⟩
    unfold takeBounty
    simp only [bountyOf]
    split
    · subst_vars; simp
    · rw [fromRatio_one_lt hr]
      have h4 : raw * D * c / D = raw * c := by
        rw [Nat.mul_right_comm, Nat.mul_div_cancel _ D_pos]
      have h5 : raw * c < U256 := lt_of_le_of_lt (Nat.mul_le_mul_left _ (le_trans hc (by unfold D; norm_num))) hr
      have h6 : checkedMul (raw * D) c = .ok (raw * c) := by
        rw [checkedMul_eq_ok, h4]; exact ⟨h5, rfl⟩
      simp only [Except.ok_bind', h6, toUintFloor]
      rw [checkedSub_ok (by omega)]
      rfl

theorem takeMakerFee_spec {mf raw rest : Nat} (hm : mf ≤ MAX_MAKER_FEE_PERCENTAGE) (hr : raw * D < U256)
    (hrest : raw * mf / D ≤ rest) :
    takeMakerFee mf raw rest = .ok (feeOf mf raw rest, rest - feeOf mf raw rest) := by
  unfold takeMakerFee feeOf
  by_cases h0 : mf = 0
  · subst h0; simp
  · rw [if_neg h0]
    split
    · simp
    · rw [fromRatio_one_lt hr]
      have h4 : raw * D * mf / D = raw * mf := by
        rw [Nat.mul_right_comm, Nat.mul_div_cancel _ D_pos]
      have h5 : raw * mf < U256 := lt_of_le_of_lt (Nat.mul_le_mul_left _ (le_trans hm (by
        unfold MAX_MAKER_FEE_PERCENTAGE percent D; norm_num))) hr
      have h6 : checkedMul (raw * D) mf = .ok (raw * mf) := by
        rw [checkedMul_eq_ok, h4]; exact ⟨h5, rfl⟩
      simp only [Except.ok_bind', h6, toUintFloor]
      rw [checkedSub_ok hrest]
      rfl

theorem fee_le {mf raw : Nat} (hm : mf ≤ MAX_MAKER_FEE_PERCENTAGE) : raw * mf / D * 20 ≤ raw := by
  have hm' : mf ≤ 5 * 10 ^ 16 := by simpa [MAX_MAKER_FEE_PERCENTAGE, percent] using hm
  have h2 : raw * mf / D ≤ raw * (5 * 10 ^ 16) / D := Nat.div_le_div_right (Nat.mul_le_mul_left _ hm')
  have h3 : raw * (5 * 10 ^ 16) / D = raw / 20 := by
    have : D = 20 * (5 * 10 ^ 16) := by unfold D; norm_num
    rw [this, Nat.mul_div_mul_right _ _ (by norm_num)]
  have := Nat.div_mul_le_self raw 20
  omega

/-- The transfers of a claim: `raw` is split into bounty (to `sender`), fee (to `recipient`) and the rest (to `owner`). -/
def claimMsgs (sender owner recipient : Addr) (denom : Denom) (cb : Option Nat) (mf raw : Nat) : List SendMsg :=
  let bounty := bountyOf cb raw
  let fee := feeOf mf raw (raw - bounty)
  let amount := raw - bounty - fee
  (if amount = 0 then [] else [⟨owner, ⟨denom, amount⟩, REPLY_ID_CLAIM⟩]) ++
  (if bounty = 0 then [] else [⟨sender, ⟨denom, bounty⟩, REPLY_ID_CLAIM_BOUNTY⟩]) ++
  (if fee = 0 then [] else [⟨recipient, ⟨denom, fee⟩, REPLY_ID_MAKER_FEE⟩])

/-- What the owner gets. -/
def ownerAmount (cb : Option Nat) (mf raw : Nat) : Nat := raw - bountyOf cb raw - feeOf mf raw (raw - bountyOf cb raw)

theorem split_bounds {cb : Option Nat} {mf raw : Nat} (hb : bountyOk cb = true) (hr : raw * D < U256)
    (hm : mf ≤ MAX_MAKER_FEE_PERCENTAGE) :
    raw * mf / D ≤ raw - bountyOf cb raw ∧ feeOf mf raw (raw - bountyOf cb raw) * 20 ≤ raw ∧ bountyOf cb raw * 100 ≤ raw := by
  have h1 := (takeBounty_spec hb hr).2
  have h2 := fee_le (raw := raw) hm
  refine ⟨by omega, ?_, h1⟩
  unfold feeOf; split <;> omega

/-- Store of a claim after the sync. -/
def claimedStore (s : Store) (tick : Int) (o : LimitOrder) : Store :=
  if o.quantity = 0 then { s with orders := s.orders.erase (tick, o.orderId) }
  else { s with orders := s.orders.insert (tick, o.orderId) o }

theorem claimOrder_none {s : Store} {b : Book} (h : Rel s b) {sender : Addr} {tick : Int} {id : Nat}
    (hn : s.orders.get? (tick, id) = none) :
    claimOrder sender tick id s = .err (.orderNotFound tick id) s ∨
    claimOrder sender tick id s = .err (.invalidTickId tick) s := by
  obtain ⟨ob, hob, -⟩ := h.ptr
  unfold claimOrder
  rw [EM.bind_ok_of (loadOrderbook_some hob)]
  simp only [EM.get_bind]
  cases s.ticks.get? tick with
  | none => right; rfl
  | some ts => left; simp only [hn]; rfl

/-- The key arithmetic fact: the position reached after a sync determines the order's fill. -/
theorem claim_amount {v : TickValues} {p q : List Entry} {x : Entry} {r : Nat} (hr : SideRel v (p ++ x :: q) r)
    (hs : rs (sumBy Entry.filled (p ++ x :: q)) (p ++ x :: q) ≤ r) (hl : x.Live) :
    (v.etas > D * (sumBy Entry.placed p + x.claimed) ↔ x.claimed < x.filled) ∧
    min (v.etas - D * (sumBy Entry.placed p + x.claimed)) ((x.placed - x.claimed) * D) = (x.filled - x.claimed) * D ∧
    (¬ x.claimed < x.filled → sumBy Entry.filled (p ++ x :: q) - sumBy Entry.cap p = x.claimed) := by
  obtain ⟨hc, hlt⟩ := hl
  have hokx := hr.ok x (by simp)
  have hok : ∀ y ∈ p, EntryOk y := fun y hy => hr.ok y (by simp [hy])
  set S := sumBy Entry.filled (p ++ x :: q) with hS
  have hpf := posFill hok hr.done hs hc hokx.pos
  have hfifo := hr.fifo
  rw [fifo_append] at hfifo
  have hfill := hfifo.2.1
  have hcap : x.cap = x.placed := by simp [Entry.cap, hc]
  rw [hcap] at hfill
  rw [← hfill] at hpf
  have h1 := hokx.claimed_le
  have h2 := hokx.filled_le
  rw [hr.etas]
  refine ⟨?_, ?_, ?_⟩
  · rw [gt_iff_lt, Nat.mul_lt_mul_left D_pos]
    omega
  · rw [← Nat.mul_sub, Nat.mul_comm (x.placed - x.claimed), Nat.mul_min_mul_left, Nat.mul_comm (x.filled - x.claimed)]
    congr 1
    omega
  · omega

theorem claimOrder_some {s : Store} {b : Book} (h : Rel s b) (sender : Addr) {tick : Int} {dir : Dir} {p q : List Entry}
    {x : Entry} (hsp : b tick dir = p ++ x :: q) (hl : x.Live) {ob : Orderbook} (hob : s.orderbook = some ob) {rc : Addr}
    (hrc : s.makerFeeRecipient = some rc) :
    (¬ s.trees.cnt tick + 2 < U64 ∧ ∃ s', claimOrder sender tick x.id s = .err .panic s') ∨
    ∃ s1, Synced s s1 b tick ∧
      ((x.filled = x.claimed ∧ claimOrder sender tick x.id s = .err .zeroClaim s1) ∨
       (x.claimed < x.filled ∧
        claimOrder sender tick x.id s =
          .ok (ownerAmount x.bounty (getMakerFee s) (valDown dir (x.filled - x.claimed) (priceNat tick)),
            claimMsgs sender x.owner rc (ob.oppositeDenom dir) x.bounty (getMakerFee s)
              (valDown dir (x.filled - x.claimed) (priceNat tick)),
            orderOf tick dir (sumBy Entry.placed p) { x with claimed := x.filled })
          (claimedStore s1 tick (orderOf tick dir (sumBy Entry.placed p) { x with claimed := x.filled })))) := by
  have hne : b tick dir ≠ [] := by rw [hsp]; simp
  obtain ⟨ts, hts⟩ := h.known_of_ne hne
  have hord : s.orders.get? (tick, x.id) = some (orderOf tick dir (sumBy Entry.placed p) x) :=
    (h.orders _ _ _).2 ⟨dir, p, x, q, hsp, hl, rfl, rfl⟩
  obtain ⟨hm0, hm1⟩ := h.range tick dir hne
  have hxmem : x ∈ b tick dir := by rw [hsp]; simp
  unfold claimOrder
  rw [EM.bind_ok_of (loadOrderbook_some hob)]
  simp only [EM.get_bind, hts, hord]
  rcases syncTick_spec h hts with ⟨hc, s', hs'⟩ | ⟨s1, e1, hs1⟩
  · left
    exact ⟨hc, s', by rw [EM.bind_err_of hs']⟩
  right
  refine ⟨s1, hs1, ?_⟩
  rw [EM.bind_ok_of e1]
  obtain ⟨ts1, hts1⟩ := Option.ne_none_iff_exists'.1 hs1.known
  obtain ⟨r, r', -, hr', hrs, -, -, -⟩ := hs1.sides dir
  rw [hsp] at hr' hrs
  have hokx := hr'.ok x (by simp)
  obtain ⟨ha1, ha2, ha3⟩ := claim_amount hr' hrs hl
  rw [tv_of_get hts1] at ha1 ha2
  simp only [EM.get_bind, hts1, orderOf]
  have hcl := hokx.claimed_le
  have hfl := hokx.filled_le
  have hlt := hokx.lt
  by_cases hpos : x.claimed < x.filled
  swap
  · left
    refine ⟨by omega, ?_⟩
    simp only [ha1, hpos, decide_false, EM.ensure_false_bind]
  right
  refine ⟨hpos, ?_⟩
  have hgt := ha1.2 hpos
  simp only [ha1, hpos, decide_true, EM.ensure_true_bind]
  rw [checkedSub_ok (le_of_lt hgt)]
  simp only [EM.lift_ok_bind, fromRatio_one (x := x.placed - x.claimed) (by omega), ha2, toUintFloor_mul]
  simp only [u128TryFrom_ok (x := x.filled - x.claimed) (by omega), EM.lift_ok_bind,
    checkedSub_ok (x := x.placed - x.claimed) (y := x.filled - x.claimed) (by omega)]
  have hadd : D * (sumBy Entry.placed p + x.claimed) + (x.filled - x.claimed) * D = D * (sumBy Entry.placed p + x.filled) := by
    rw [Nat.mul_comm (x.filled - x.claimed), ← Nat.mul_add]; congr 1; omega
  have hadd' : checkedAdd (D * (sumBy Entry.placed p + x.claimed)) ((x.filled - x.claimed) * D) =
      .ok (D * (sumBy Entry.placed p + x.filled)) := by
    rw [checkedAdd_ok, hadd]
    rw [hadd]
    refine lt_of_le_of_lt ?_ hr'.bound
    rw [hr'.ctv]
    refine Nat.mul_le_mul_left _ ?_
    simp only [sumBy_append, sumBy_cons]; omega
  simp only [hadd', EM.lift_ok_bind]
  have hsub : x.placed - x.claimed - (x.filled - x.claimed) = x.placed - x.filled := by omega
  simp only [hsub]
  have ho : (LimitOrder.mk tick x.id dir x.owner (x.placed - x.filled) (D * (sumBy Entry.placed p + x.filled)) x.bounty
    x.placed x.placedAt) = orderOf tick dir (sumBy Entry.placed p) { x with claimed := x.filled } := rfl
  have ho1 : orderOf tick dir (sumBy Entry.placed p) { x with claimed := x.filled } = (LimitOrder.mk tick x.id dir x.owner (x.placed - x.filled) (D * (sumBy Entry.placed p + x.filled)) x.bounty
    x.placed x.placedAt) := rfl
  rw [ho]
  set o' := orderOf tick dir (sumBy Entry.placed p) { x with claimed := x.filled } with ho'
  have hq' : x.placed - x.filled = o'.quantity := rfl
  have hid' : x.id = o'.orderId := rfl
  have hmf : getMakerFee (claimedStore s1 tick o') = getMakerFee s := by
    unfold claimedStore getMakerFee
    rw [hs1.store]
    split <;> rfl
  have hrc' : (claimedStore s1 tick o').makerFeeRecipient = some rc := by
    unfold claimedStore
    rw [hs1.store]
    split <;> exact hrc
  have hlt' : x.filled - x.claimed < U128 := by omega
  have hval := amountToValue_spec (dir := dir) (a := x.filled - x.claimed) hm0 hm1 hlt' .down
  simp only [valR] at hval
  have hraw := valDown_mul_lt (dir := dir) hm0 hm1 hlt'
  set raw := valDown dir (x.filled - x.claimed) (priceNat tick) with hrawdef
  have hbo := h.bounty tick dir x hxmem
  obtain ⟨hb1, hb2⟩ := takeBounty_spec hbo hraw
  have hsb := split_bounds hbo hraw h.conf.fee
  have hfee := takeMakerFee_spec h.conf.fee hraw hsb.1
  have hrest : ∀ act : M Unit, act s1 = .ok () (claimedStore s1 tick o') → ∀ k : Unit → M (Nat × List SendMsg × LimitOrder),
      (act >>= k) s1 = k () (claimedStore s1 tick o') := fun act ha k => EM.bind_ok_of ha
  split
  all_goals
    rw [hrest _ (by unfold claimedStore; first | rw [if_pos ‹_›]; rfl | rw [if_neg ‹_›]; rfl)]
  all_goals
    simp only [tickToPrice_ok hm0 hm1, EM.lift_ok_bind, hval, hb1, EM.get_bind, hmf, hfee, hrc']
    split
    · rename_i hf0
      simp only [EM.pure_apply, ownerAmount, claimMsgs, hf0, if_true, List.append_nil]
    · rename_i hf0
      simp only [EM.pure_apply, ownerAmount, claimMsgs, hf0, if_false]

/-- Two claims of the same order differ only in the bounty's recipient; the relation after a claim. -/
theorem Rel.claimed {s1 : Store} {b : Book} (h : Rel s1 b) {tick : Int} {dir : Dir} {p q : List Entry}
    {x : Entry} (hsp : b tick dir = p ++ x :: q) (hl : x.Live) :
    Rel (claimedStore s1 tick (orderOf tick dir (sumBy Entry.placed p) { x with claimed := x.filled }))
      (b.set tick dir (p ++ { x with claimed := x.filled } :: q)) := by
  set x' : Entry := { x with claimed := x.filled } with hx'
  set o' := orderOf tick dir (sumBy Entry.placed p) x' with ho'
  have hne : b tick dir ≠ [] := by rw [hsp]; simp
  obtain ⟨ts, hts⟩ := h.known_of_ne hne
  have e : claimedStore s1 tick o' = { s1 with orders := (claimedStore s1 tick o').orders } := by
    unfold claimedStore; split <;> rfl
  have hq : o'.quantity = x.placed - x.filled := rfl
  obtain ⟨r, rt, a1, a2, a3⟩ := h.sides tick dir
  rw [hsp] at a1 a3
  have hokx := a1.ok x (by simp)
  have hcx' : x'.cap = x.cap := by simp [hx', Entry.cap, hl.1]
  have hgx' : x'.gap = x.gap := by unfold Entry.gap; rw [hcx']
  have hmaps : (p ++ x' :: q).map (fun x => (x.cap, x.gap)) = (p ++ x :: q).map (fun x => (x.cap, x.gap)) := by
    simp [hcx', hgx']
  have hrz := fun S => rz_congr (S := S) hmaps
  have hsum : ∀ f : Entry → Nat, f x' = f x → sumBy f (p ++ x' :: q) = sumBy f (p ++ x :: q) := by
    intro f hf; simp [hf]
  have h1 : (claimedStore s1 tick o').ticks = s1.ticks := by rw [e]
  have h2 : (claimedStore s1 tick o').trees = s1.trees := by rw [e]
  have h3 : (claimedStore s1 tick o').dirLiq = s1.dirLiq := by rw [e]
  have hleft : x'.left = x.left := rfl
  refine Rel.update (x' := x') (s' := claimedStore s1 tick o') h hsp ⟨rfl, rfl, rfl, rfl, rfl⟩ (le_of_eq hleft) ?_ ?_ ?_ ?_ ?_ ?_ ?_ ?_ ?_ ?_ ?_ ?_
  · rw [h1, h2, h3]; exact e
  · refine ⟨r, rt, ?_, by rw [h2]; exact a2, ?_⟩
    · rw [tv_congr (s := s1) (by rw [h1])]
      refine ⟨by rw [hsum _ rfl]; exact a1.ctv, by rw [hsum _ rfl]; exact a1.etas, a1.crc, by rw [hsum _ hleft]; exact a1.tal,
        ?_, ?_, ?_, a1.sync_le, ?_, a1.bound⟩
      · have hf := a1.fifo
        rw [hsum _ rfl]
        rw [fifo_append] at hf ⊢
        refine ⟨hf.1, ?_⟩
        simp only [Fifo] at hf ⊢
        rw [hcx']
        exact hf.2
      · intro y hy
        simp only [List.mem_append, List.mem_cons] at hy
        rcases hy with hy | rfl | hy
        · exact a1.ok y (by simp [hy])
        · exact ⟨hokx.pos, hokx.lt, le_refl _, hokx.filled_le, by
            intro hc; simp [hx', hl.1] at hc⟩
        · exact a1.ok y (by simp [hy])
      · rw [hsum _ rfl, (hrz _).2.2]; exact a1.done
      · rw [hsum _ rfl, (hrz _).2.1]; exact a1.synced
    · rw [a3]
      congr 1
      apply leavesOf_congr
      simp [hx', hl.1]
  · rw [h1]; exact h.ticksSorted
  · rw [h1]; simp [hts]
  · intro t _; rw [h1]
  · intro d _; exact tv_congr (by rw [h1]) d
  · rw [h2]; exact TickFrame.refl ..
  · rw [h2]; exact h.fresh tick
  · intro d rt' _ hr; rw [h2]; exact hr
  · have hlive : x'.Live ↔ ¬ o'.quantity = 0 := by
      unfold Entry.Live
      rw [hq]
      have : x'.cancelled = false := hl.1
      simp only [this, true_and]
      show x.filled < x.placed ↔ _
      omega
    unfold claimedStore
    by_cases hz : o'.quantity = 0
    · rw [if_pos hz, if_neg (by rw [hlive]; simp [hz])]
      rfl
    · rw [if_neg hz, if_pos (by rw [hlive]; exact hz)]
      rfl
  · intro d
    have := h.liq d
    unfold getDirectionalLiquidity sumTal at this ⊢
    rw [h3, h1]; exact this
  · intro d
    unfold getDirectionalLiquidity
    rw [h3]

end OB
