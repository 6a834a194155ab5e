import Verif.Proofs.CostSync
import Verif.Proofs.Cancel
import Verif.Proofs.TreeObs
/- Costs of the handlers in reachable states. -/
namespace OB
open Spec TreeNode T

/-- A bound on the height of a side's tree. -/
def hgt (b : Book) (t : Int) (d : Dir) : Nat := 2 * Nat.log2 ((b t d).filter Entry.cancelled).length + 2

theorem hgt_pos (b : Book) (t : Int) (d : Dir) : 1 ≤ hgt b t d := by unfold hgt; omega

theorem leavesOf_length (P : Nat) (q : List Entry) : (leavesOf P q).length = (q.filter Entry.cancelled).length := by
  induction q generalizing P with
  | nil => rfl
  | cons x q ih =>
    cases hx : x.cancelled <;> simp [leavesOf, hx, ih, List.filter_cons]

theorem height_hgt {st : TreeSt} {b : Book} {t : Int} {d : Dir} {rt : RT} (hr : RootRep st t d rt) (hl : rt.leaves = scale (leavesOf 0 (b t d))) :
    rt.height ≤ hgt b t d := by
  have h1 := ValidTree.height_le hr.valid
  have h2 : rt.leaves.length = ((b t d).filter Entry.cancelled).length := by
    rw [hl]
    simp only [scale, List.length_map, leavesOf_length]
  rw [h2] at h1
  exact h1

theorem Rel.low {s : Store} {b : Book} (h : Rel s b) : Low (hgt b) s.trees := by
  intro t
  refine ⟨h.fresh t, fun d root hr x R => ?_⟩
  obtain ⟨r, rt, a1, a2, a3⟩ := h.sides t d
  obtain ⟨h1, h2⟩ := a2.walk_depth' hr x R
  exact ⟨rt.height, height_hgt a2 a3, h2, h1⟩

theorem UsesX.uses {α : Type} {S0 : List Cell} {k : Nat} {x : M α} {s : Store} (h : UsesX S0 k x s) : Uses sview (S0.length + k) x s := by
  obtain ⟨S, h1, h2⟩ := h
  exact ⟨S0 ++ S, by simp; omega, h2.mono fun c hc => by simpa using hc⟩

/-! ### Claims -/

/-- Orders are stored under their tick. -/
def KeyOk (s : Store) : Prop := ∀ k o, s.orders.get? k = some o → o.tickId = k.1

theorem Rel.keyOk {s : Store} {b : Book} (h : Rel s b) : KeyOk s := by
  intro k o ho
  obtain ⟨dir, p, x, q, -, -, -, rfl⟩ := (h.orders k.1 k.2 o).1 ho
  rfl

theorem Pres.bindGet {σ β : Type} {I : σ → Prop} {f : σ → EM σ β} (hf : ∀ s, I s → Pres I (f s)) : Pres I (EM.get >>= f) := by
  intro s h
  rw [EM.get_bind]
  exact hf s h s h

theorem loadOrderbook_pres {I : Store → Prop} : Pres I loadOrderbook := by
  unfold loadOrderbook
  refine .bind .get fun s => ?_
  split
  · exact .pure _
  · exact .fail _

def LowKey (h : Int → Dir → Nat) (s : Store) : Prop := Low h s.trees ∧ KeyOk s

theorem claimOrder_low {h : Int → Dir → Nat} (sender : Addr) (tick : Int) (id : Nat) : Pres (LowKey h) (claimOrder sender tick id) := by
  unfold claimOrder
  refine .bind loadOrderbook_pres fun ob => .bindGet fun s hs => ?_
  split
  · exact .fail _
  split
  · exact .fail _
  next o ho =>
  have ht : o.tickId = tick := hs.2 _ _ ho
  refine .bind (fun s hs => ?_) fun _ => .bind .get fun s => ?_
  · refine ⟨syncTick_low h _ _ _ _ hs.1, ?_⟩
    intro k o' ho'
    rw [syncTick_orders s.orders _ _ _ s rfl] at ho'
    exact hs.2 k o' ho'
  split
  · exact .fail _
  refine .bind (.ensure _ _) fun _ => .bind (.lift _) fun _ => .bind (.lift _) fun _ => .bind (.lift _) fun _ => .bind (.lift _) fun _ => .bind (.lift _) fun _ => ?_
  have tail : ∀ (q et am : Nat), Pres (LowKey h) (do
      let tickPrice ← EM.lift (tickToPrice tick)
      let rawAmount ← EM.lift (amountToValue o.dir am tickPrice .down)
      let (bounty, amount) ← EM.lift (takeBounty o.claimBounty rawAmount)
      let s ← EM.get
      let (fee, amount) ← EM.lift (takeMakerFee (getMakerFee s) rawAmount amount)
      let ownerMsgs : List SendMsg := if amount = 0 then [] else [⟨o.owner, ⟨ob.oppositeDenom o.dir, amount⟩, REPLY_ID_CLAIM⟩]
      let bountyMsgs : List SendMsg := if bounty = 0 then [] else [⟨sender, ⟨ob.oppositeDenom o.dir, bounty⟩, REPLY_ID_CLAIM_BOUNTY⟩]
      if fee = 0 then pure (amount, ownerMsgs ++ bountyMsgs, { o with quantity := q, etas := et })
      else
        match s.makerFeeRecipient with
        | none => EM.fail .noMakerFeeRecipient
        | some r =>
          pure (amount, ownerMsgs ++ bountyMsgs ++ [⟨r, ⟨ob.oppositeDenom o.dir, fee⟩, REPLY_ID_MAKER_FEE⟩], { o with quantity := q, etas := et }) :
        M (Nat × List SendMsg × LimitOrder)) := by
    intro q et am
    refine .bind (.lift _) fun _ => .bind (.lift _) fun _ => .bind (.lift _) fun _ => .bind .get fun _ => .bind (.lift _) fun _ => ?_
    simp only
    split
    · exact .pure _
    · split
      · exact .fail _
      · exact .pure _
  simp only
  split
  · refine .bind (.modify fun s hs => ⟨hs.1, fun k o' ho' => ?_⟩) fun _ => tail _ _ _
    simp only [SMap.get?_erase] at ho'
    split at ho'
    · cases ho'
    · exact hs.2 _ _ ho'
  · refine .bind (.modify fun s hs => ⟨hs.1, fun k o' ho' => ?_⟩) fun _ => tail _ _ _
    simp only [SMap.get?_insert] at ho'
    split at ho'
    · next e => cases ho'; rw [e]; exact ht
    · exact hs.2 _ _ ho'

/-- The cost of a claim on a tick, the tick's own cell included. -/
def claimCost (h : Int → Dir → Nat) (tick : Int) : Nat := 2 * (h tick .bid + h tick .ask) + 16

theorem claimOrder_uses' {S0 : List Cell} {h : Int → Dir → Nat} {s : Store} (hl : LowKey h s) (sender : Addr) (tick : Int) (id : Nat)
    (hh : ∀ d, 1 ≤ h tick d) (hc : ∀ c ∈ [Cell.orderbook, .makerFee, .makerFeeRecipient], c ∈ S0) :
    UsesX S0 (claimCost h tick) (claimOrder sender tick id) s := by
  obtain ⟨S, h1, h2⟩ := claimOrder_uses (S0 := .tick tick :: S0) hl.1 sender id hh (fun c hc' => by
    simp only [claimCells, List.mem_cons, List.not_mem_nil, or_false] at hc'
    rcases hc' with rfl | rfl | rfl | rfl
    · simp [hc Cell.orderbook (by simp)]
    · simp [hc Cell.makerFee (by simp)]
    · simp [hc Cell.makerFeeRecipient (by simp)]
    · simp) (fun o ho => hl.2 _ _ ho)
  refine ⟨.tick tick :: S, by simp only [List.length_cons]; unfold claimCost; omega, h2.mono fun c hc => ?_⟩
  simp only [List.mem_cons] at hc ⊢
  tauto

section
variable {σ α β : Type} {view : σ → Cell → Option Val}
/-- Going on after an error. -/
def goOn (x : EM σ α) (f : α → EM σ β) (g : Err → EM σ β) : EM σ β := fun s =>
  match x s with
  | .ok a t => f a t
  | .err e t => g e t
theorem UsesOn.catch {S : Cell → Prop} {x : EM σ α} {f : α → EM σ β} {g : Err → EM σ β} {s : σ} (hx : UsesOn view S x s)
    (hf : ∀ a t, x s = .ok a t → UsesOn view S (f a) t) (hg : ∀ e t, x s = .err e t → UsesOn view S (g e) t) :
    UsesOn view S (goOn x f g) s := by
  intro s' ha
  have h1 := hx s' ha
  have tr : ∀ t t' u u', After view S s s' t t' → After view S t t' u u' → After view S s s' u u' := fun t t' u u' h2 h => ⟨h.1, fun c hc => by
    obtain ⟨a1, a2⟩ := h.2 c hc
    obtain ⟨b1, b2⟩ := h2.2 c hc
    exact ⟨a1.trans b1, a2.trans b2⟩⟩
  have fin : ∀ (t t' : σ) (r r' : Res σ β), After view S s s' t t' → Matches view S t t' r r' → Matches view S s s' r r' := by
    intro t t' r r' h2 h3
    revert h3
    cases r <;> cases r' <;> simp only [Matches]
    · exact fun h => ⟨h.1, tr _ _ _ _ h2 h.2⟩
    · exact id
    · exact id
    · exact fun h => ⟨h.1, tr _ _ _ _ h2 h.2⟩
  cases e : x s with
  | err er t =>
    rw [e] at h1
    cases e' : x s' with
    | ok a' t' => rw [e'] at h1; exact h1.elim
    | err er' t' =>
      rw [e'] at h1
      obtain ⟨rfl, h1⟩ := h1
      unfold goOn
      simp only [e, e']
      exact fin _ _ _ _ h1 (hg er' t e t' h1.1)
  | ok a t =>
    rw [e] at h1
    cases e' : x s' with
    | err er' t' => rw [e'] at h1; exact h1.elim
    | ok a' t' =>
      rw [e'] at h1
      obtain ⟨rfl, h1⟩ := h1
      unfold goOn
      simp only [e, e']
      exact fin _ _ _ _ h1 (hf a' t e t' h1.1)
end

theorem UsesX.catch {α β : Type} {S0 : List Cell} {k k1 : Nat} {s : Store} {x : M α} {f : α → M β} {g : Err → M β} (hx : UsesX S0 k1 x s) (hk : k1 ≤ k)
    (hf : ∀ a t, x s = .ok a t → UsesX S0 (k - k1) (f a) t) (hg : ∀ e t, x s = .err e t → UsesX S0 (k - k1) (g e) t) :
    UsesX S0 k (goOn x f g) s := by
  obtain ⟨S1, h1, h2⟩ := hx
  cases e : x s with
  | err er t =>
    obtain ⟨S2, h3, h4⟩ := hg er t e
    have h5 : UsesOn sview (fun c => c ∈ S0 ∨ c ∈ S1 ++ S2) x s := h2.mono fun c hc => by rcases hc with h | h <;> simp [h]
    refine ⟨S1 ++ S2, by simp; omega, UsesOn.catch (f := f) (g := g) h5 (fun a' t' e' => ?_) fun a' t' e' => ?_⟩
    · rw [e] at e'; cases e'
    · rw [e] at e'
      cases e'
      exact h4.mono fun c hc => by rcases hc with h | h <;> simp [h]
  | ok a t =>
    obtain ⟨S2, h3, h4⟩ := hf a t e
    have h5 : UsesOn sview (fun c => c ∈ S0 ∨ c ∈ S1 ++ S2) x s := h2.mono fun c hc => by rcases hc with h | h <;> simp [h]
    refine ⟨S1 ++ S2, by simp; omega, UsesOn.catch (f := f) (g := g) h5 (fun a' t' e' => ?_) fun a' t' e' => ?_⟩
    · rw [e] at e'
      cases e'
      exact h4.mono fun c hc => by rcases hc with h | h <;> simp [h]
    · rw [e] at e'; cases e'

theorem batchLoop_uses {S0 : List Cell} {h : Int → Dir → Nat} (hh : ∀ t d, 1 ≤ h t d)
    (hc : ∀ c ∈ [Cell.orderbook, .makerFee, .makerFeeRecipient], c ∈ S0) (sender : Addr) (ob : Orderbook) (l : List (Int × Nat)) {s : Store}
    (hl : LowKey h s) : UsesX S0 ((l.map fun p => claimCost h p.1).sum) (batchLoop sender ob l) s := by
  induction l generalizing s with
  | nil => exact .pure _ _
  | cons p rest ih =>
    obtain ⟨tick, id⟩ := p
    have e : batchLoop sender ob ((tick, id) :: rest) = goOn (claimOrder sender tick id) (fun a => do
            let (ms, es) ← batchLoop sender ob rest
            pure (a.2.1 ++ ms, claimedEvent sender a.2.2 a.1 (ob.expectedDenom a.2.2.dir) (ob.oppositeDenom a.2.2.dir) :: es))
          fun e => match e with | .panic => EM.fail .panic | .diverge => EM.fail .diverge | _ => batchLoop sender ob rest := by
      funext s
      conv_lhs => unfold batchLoop
      unfold goOn
      cases claimOrder sender tick id s with
      | ok a t => rfl
      | err e t => cases e <;> rfl
    rw [e]
    simp only [List.map_cons, List.sum_cons]
    have keep : LowKey h (claimOrder sender tick id s).st := claimOrder_low sender tick id s hl
    refine UsesX.catch (k1 := claimCost h tick) (claimOrder_uses' hl sender tick id (hh tick) hc) (by omega) (fun a t e => ?_) fun e t e' => ?_
    · rw [e] at keep
      refine .step ((ih keep).mono (by omega)) (le_refl _) fun _ _ _ => .pure _ _
    · rw [e'] at keep
      split
      · exact .fail _ _
      · exact .fail _ _
      · exact (ih keep).mono (by omega)

/-! ### Cancels -/

/-- Enough recursion depth is enough. -/
theorem insert_uses_fuel {f F : Nat} (hle : f ≤ F) {n m r : TreeNode} {st st' : TreeSt} (h : TreeNode.insert f n m st = .ok r st') :
    TUses (46 * f) (TreeNode.insert F n m) st := by
  obtain ⟨S, h1, h2⟩ := insert_uses f n m st
  refine ⟨S, h1, fun st2 ha => ?_⟩
  have h3 := h2 st2 ha
  rw [h] at h3
  rw [insert_fuel hle h]
  cases e : TreeNode.insert f n m st2 with
  | err er t => rw [e] at h3; exact h3.elim
  | ok a t => rw [e] at h3; rw [insert_fuel hle e]; exact h3

/-- The leaf of a cancelled order finds its place. -/
theorem cancel_leaf {s1 : Store} {b : Book} (hrel : Rel s1 b) {tick : Int} {dir : Dir} {p q : List Entry} {x : Entry} (hsp : b tick dir = p ++ x :: q)
    (hl : x.Live) : ∃ rt, RootRep s1.trees tick dir rt ∧ rt.height ≤ hgt b tick dir ∧
      Disj (D * (sumBy Entry.placed p + x.claimed)) ((x.placed - x.claimed) * D) rt.leaves ∧ (∀ y ∈ rt.leaves, y.1 + y.2 < U256) ∧
      (x.placed - x.claimed) * D + D * (sumBy Entry.placed p + x.claimed) < U256 ∧ sumv rt.leaves + (x.placed - x.claimed) * D < U256 := by
  obtain ⟨r, rt, hr', a2, a3⟩ := hrel.sides tick dir
  have hhg := height_hgt a2 a3
  rw [hsp] at hr' a3
  have hokx := hr'.ok x (by simp)
  have hcl := hokx.claimed_le
  have hfl := hokx.filled_le
  have hlt := hl.2
  obtain ⟨hdisj, hins⟩ := leaf_room hr'.ok hl.1 hlt
  rw [← a3] at hdisj hins
  have hsumP := sum_cap_gap hr'.ok
  have hbound := hr'.bound
  rw [hr'.ctv] at hbound
  have hle2 : ∀ y ∈ rt.leaves, y.1 + y.2 < U256 := by
    intro y hy
    rw [a3] at hy
    simp only [scale, List.mem_map] at hy
    obtain ⟨z, hz, rfl⟩ := hy
    have := (leavesOf_bounds hr'.ok z hz).2.2
    simp only
    rw [← Nat.mul_add]
    exact lt_of_le_of_lt (Nat.mul_le_mul_left _ (by omega)) hbound
  have hh : (x.placed - x.claimed) * D + D * (sumBy Entry.placed p + x.claimed) < U256 := by
    refine lt_of_le_of_lt ?_ hbound
    rw [Nat.mul_comm (x.placed - x.claimed), ← Nat.mul_add]
    refine Nat.mul_le_mul_left _ ?_
    simp only [sumBy_append, sumBy_cons]; omega
  have hsv : sumv rt.leaves + (x.placed - x.claimed) * D < U256 := by
    refine lt_of_le_of_lt ?_ hbound
    rw [a3, sumv_scale, leavesOf_sum, Nat.mul_comm (x.placed - x.claimed), ← Nat.mul_add]
    refine Nat.mul_le_mul_left _ ?_
    rw [← hsumP]
    have hcx : x.cap = x.placed := by simp [Entry.cap, hl.1]
    simp only [sumBy_append, sumBy_cons, hcx]; omega
  exact ⟨rt, a2, hhg, hdisj, hle2, hh, hsv⟩

theorem cancelLimit_uses {s : Store} {b : Book} (h : Rel s b) (env : Env) (info : MessageInfo) (tick : Int) (id : Nat)
    (hroom : s.trees.cnt tick + 4 < U64) {H : Nat} (hH : ∀ d, hgt b tick d ≤ H) :
    Uses sview (4 * H + 28 + 46 * (H - 1)) (cancelLimit env info tick id) s := by
  have hH2 : 2 ≤ H := le_trans (by unfold hgt; omega) (hH .bid)
  cases hoo : s.orders.get? (tick, id) with
  | none =>
    refine (UsesX.uses (S0 := [.order (tick, id)]) (k := 0) ?_).mono (by simp; omega)
    unfold cancelLimit
    refine .liftBind fun _ _ => ?_
    have e : ∀ s', (∀ c ∈ [Cell.order (tick, id)], sview s' c = sview s c) → s'.orders.get? (tick, id) = none := fun s' ha => by
      rw [order_of_view (ha _ (by simp)), hoo]
    refine .get (fun s' ha => by simp only [e s' ha, hoo]) ?_
    simp only [hoo]
    exact .fail _ _
  | some o =>
    obtain ⟨dir, p, x, q, hsp, hl, hid, rfl⟩ := (h.orders tick id o).1 hoo
    subst hid
    have hne : b tick dir ≠ [] := by rw [hsp]; simp
    obtain ⟨ts, hts⟩ := h.known_of_ne hne
    generalize hS : orderCells (tick, x.id) x.owner tick ++ [.orderbook, .tick tick, .dirLiq dir] = S0
    have hlen : S0.length = 6 := by rw [← hS]; rfl
    have c1 : Cell.order (tick, x.id) ∈ S0 := by rw [← hS]; simp [orderCells]
    have c2 : Cell.tick tick ∈ S0 := by rw [← hS]; simp
    have c3 : Cell.orderbook ∈ S0 := by rw [← hS]; simp
    have c4 : Cell.dirLiq dir ∈ S0 := by rw [← hS]; simp
    have c5 : ∀ c ∈ orderCells (tick, x.id) x.owner tick, c ∈ S0 := by rw [← hS]; simp +contextual
    refine (UsesX.uses (S0 := S0) (k := 4 * H + 22 + 46 * (H - 1)) ?_).mono (by omega)
    unfold cancelLimit
    refine .liftBind fun _ _ => ?_
    refine .get (fun s' ha => by rw [order_of_view (ha _ c1), tick_of_view (ha _ c2)]) ?_
    simp only [hoo, orderOf, hts, Option.getD_some]
    refine .ensureBind fun hs => ?_
    have hb := hH .bid
    have ha := hH .ask
    refine .step (syncTick_uses (h := hgt b) h.low _ _ (hgt_pos b tick) c2) (by omega) fun _ t e => ?_
    obtain ⟨t', e', hsy⟩ : ∃ s', syncTick tick (ts.getValues .bid).etas (ts.getValues .ask).etas s = .ok () s' ∧ Synced s s' b tick := by
      rcases syncTick_spec h hts with ⟨hc, -⟩ | h1
      · omega
      · exact h1
    rw [e'] at e
    obtain ⟨-, rfl⟩ : () = () ∧ t' = t := by simpa using e
    have hord : t'.orders = s.orders := (syncTick_orders s.orders _ _ _).ok rfl e'
    obtain ⟨ts1, hts1⟩ := Option.ne_none_iff_exists'.1 hsy.known
    refine .get (fun s' ha => by rw [tick_of_view (ha _ c2)]) ?_
    simp only [hts1, Option.getD_some]
    refine .ensureBind fun _ => ?_
    obtain ⟨rt, a2, hhg, hdisj, hle2, hh, hsv⟩ := cancel_leaf hsy.rel hsp hl
    have h64 : t'.trees.cnt tick + rt.need < U64 := by
      have := hsy.cnt
      have : rt.need ≤ 2 := by cases rt <;> simp [RT.need]
      omega
    have hlt := hl.2
    obtain ⟨root, st1, nk, st2, n, st3, rt', g1, g2, g3, g4, -⟩ :=
      cancelTree_spec a2 (hsy.rel.fresh tick) h64 (Nat.mul_pos (by omega) D_pos) hdisj hle2 hh hsv
    refine .step (k1 := 5) (.of (liftTree_uses (getOrInit_uses tick dir t'.trees))) (by omega) fun root' t1 e1 => ?_
    rw [liftTree_ok_of g1] at e1
    obtain ⟨rfl, rfl⟩ : root = root' ∧ { t' with trees := st1 } = t1 := by simpa using e1
    refine .step (k1 := 2) (.of (liftTree_uses (generate_uses tick _))) (by omega) fun nk' t2 e2 => ?_
    rw [liftTree_ok_of (s := { t' with trees := st1 }) g2] at e2
    obtain ⟨rfl, rfl⟩ : nk = nk' ∧ { t' with trees := st2 } = t2 := by simpa using e2
    refine .read [.counter tick, .tick tick] 2 (by simp) (by omega) (fun s' ha => ?_) ?_
    · have e3 : treeFuel s'.trees tick = treeFuel st2 tick := by
        unfold treeFuel
        rw [counter_of_view (st := st2) (tree_of_view (ha (.counter tick) (by simp)))]
      have e4 : s'.ticks.get? tick = t'.ticks.get? tick := tick_of_view (ha (.tick tick) (by simp))
      simp only [e3, e4]
    simp only [hts1]
    refine .liftBind fun qd hqd => ?_
    have hfr : fromRatio (x.placed - x.claimed) 1 = .ok ((x.placed - x.claimed) * D) :=
      fromRatio_one (lt_of_le_of_lt (Nat.sub_le _ _) ((hsy.rel.sides tick dir).elim fun r hr => by
        obtain ⟨rt, a1, -⟩ := hr
        exact (a1.ok x (by rw [hsp]; simp)).lt))
    rw [hfr] at hqd
    cases hqd
    have hf : 1 ≤ max 1 (rt.height - 1) := le_max_left _ _
    have g5 := cancelTree_fuel a2 h64 (Nat.mul_pos (by omega) D_pos) hdisj hle2 hh hsv g1 g2 g3 hf (by omega)
    have hfle : max 1 (rt.height - 1) ≤ H - 1 := by have := hH dir; omega
    have hiu : TUses (46 * (H - 1)) (TreeNode.insert (treeFuel st2 tick) root (TreeNode.mk' tick dir nk (.leaf ((x.placed - x.claimed) * D)
        (D * (sumBy Entry.placed p + x.claimed))))) st2 := by
      rcases Nat.le_total (max 1 (rt.height - 1)) (treeFuel st2 tick) with hft | hft
      · exact (insert_uses_fuel hft g5).mono (Nat.mul_le_mul_left 46 hfle)
      · exact (insert_uses_fuel (le_refl _) g3).mono (Nat.mul_le_mul_left 46 (hft.trans hfle))
    refine .step (k1 := 46 * (H - 1)) (.of (liftTree_uses hiu)) (by omega) fun n' t3 e3 => ?_
    rw [liftTree_ok_of (s := { t' with trees := st2 }) g3] at e3
    obtain ⟨rfl, rfl⟩ : n = n' ∧ { t' with trees := st3 } = t3 := by simpa using e3
    refine .on_step (loadOrderbook_on c3) fun ob t4 e4 => ?_
    have ho4 : t4.orders = s.orders := by
      have := (loadOrderbook_pres (I := fun s1 => s1.orders = s.orders)).ok (s := { t' with trees := st3 }) hord e4
      exact this
    refine .on_step (removeOrder_on (owner := x.owner) (tick := tick) (fun o ho => ?_) c5) fun _ t5 _ => ?_
    · rw [ho4, hoo] at ho
      cases ho
      exact ⟨rfl, rfl⟩
    refine .liftBind fun _ _ => .liftBind fun _ _ => ?_
    refine .on_step (saveTick_on _ _ c2) fun _ _ _ => .on_step (subLiq_on _ _ c4) fun _ t6 _ => ?_
    refine .step (k1 := 1) (.of (liftTree_uses (save_uses _ _))) (by omega) fun _ _ _ => .pure _ _

end OB
