import Verif.Proofs.CostStore
import Verif.Proofs.Writes
/- Syncing a tick, claims. -/
namespace OB
open Spec TreeNode

/-- The computation keeps `I`, also when it fails. -/
def Pres {σ α : Type} (I : σ → Prop) (x : EM σ α) : Prop := ∀ s, I s → I (x s).st

section
variable {σ α β : Type} {I : σ → Prop}
theorem Pres.pure (a : α) : Pres I (Pure.pure a : EM σ α) := fun _ h => h
theorem Pres.fail (e : Err) : Pres I (EM.fail e : EM σ α) := fun _ h => h
theorem Pres.get : Pres I (EM.get : EM σ σ) := fun _ h => h
theorem Pres.lift (x : Except Err α) : Pres I (EM.lift x : EM σ α) := fun s h => by cases x <;> exact h
theorem Pres.ensure (c : Bool) (e : Err) : Pres I (EM.ensure c e : EM σ Unit) := fun s h => by cases c <;> exact h
theorem Pres.modify {g : σ → σ} (hg : ∀ s, I s → I (g s)) : Pres I (EM.modify g : EM σ Unit) := fun s h => hg s h
theorem Pres.bind {x : EM σ α} {f : α → EM σ β} (hx : Pres I x) (hf : ∀ a, Pres I (f a)) : Pres I (x >>= f) := by
  intro s h
  have h1 := hx s h
  rw [EM.bind_apply]
  cases e : x s with
  | ok a t => rw [e] at h1; exact hf a t h1
  | err er t => rw [e] at h1; exact h1
theorem Pres.ok {x : EM σ α} (hx : Pres I x) {s t : σ} {a : α} (h : I s) (e : x s = .ok a t) : I t := by
  have := hx s h
  rw [e] at this
  exact this
end

/-- All trees are at most `h` high, as far as walks go. -/
def Low (h : Int → Dir → Nat) (st : TreeSt) : Prop :=
  ∀ t, st.Fresh t ∧ ∀ d root, getRootNode st t d = .ok root → ∀ x R, ∃ f, f ≤ h t d ∧ f ≤ treeFuel st root.tickId ∧
    prefixSumWalk st f root root.getValue x R ≠ .error .diverge

theorem walk_nodes {st st' : TreeSt} (hn : st'.nodes = st.nodes) (f : Nat) (node : TreeNode) (cs x R : Nat) :
    prefixSumWalk st' f node cs x R = prefixSumWalk st f node cs x R := by
  induction f generalizing node cs x with
  | zero => rfl
  | succ f ih =>
    rw [walk_body, walk_body]
    have e1 : node.getLeft st' = node.getLeft st := by unfold TreeNode.getLeft; rw [hn]
    have e2 : node.getRight st' = node.getRight st := by unfold TreeNode.getRight; rw [hn]
    rw [e1, e2]
    have e3 : (fun n c t => prefixSumWalk st' f n c t R) = fun n c t => prefixSumWalk st f n c t R := by
      funext n c t; exact ih n c t
    rw [e3]

theorem Low.rootInit {h : Int → Dir → Nat} {st : TreeSt} (hl : Low h st) (tick : Int) (dir : Dir) : Low h (rootInit st tick dir) := by
  unfold OB.rootInit
  cases hg : getRootNode st tick dir with
  | ok n => exact hl
  | error e =>
    simp only
    intro t
    refine ⟨fun q hq => (hl t).1 q ?_, fun d root hr x R => ?_⟩
    · refine lt_of_le_of_lt ?_ hq
      unfold TreeSt.cnt
      simp only
      split
      · next e => subst e; simp
      · exact le_refl _
    · have hne : ¬ (t = tick ∧ d = dir) := by
        rintro ⟨rfl, rfl⟩
        unfold getRootNode at hr
        simp only [and_self, if_true] at hr
        have := (hl t).1 ((st.counter t).getD 0 + 1) (by unfold TreeSt.cnt; omega)
        rw [this] at hr
        cases hr
      have hr' : getRootNode st t d = .ok root := by
        rw [← hr]
        unfold getRootNode
        simp only [if_neg hne]
      obtain ⟨f, h1, h2, h3⟩ := (hl t).2 d root hr' x R
      refine ⟨f, h1, h2.trans ?_, ?_⟩
      · unfold treeFuel
        simp only
        split
        · next e => rw [e]; simp
        · exact le_refl _
      · refine fun hd => h3 ?_
        rw [← hd]
        refine Eq.symm (walk_nodes ?_ _ _ _ _ _)
        rfl

theorem getOrInit_low {h : Int → Dir → Nat} (tick : Int) (dir : Dir) : Pres (Low h) (getOrInitRootNode tick dir) := by
  intro st hl
  cases e : getOrInitRootNode tick dir st with
  | ok n st' => rw [getOrInit_trees e]; exact hl.rootInit tick dir
  | err er st' =>
    have : st' = st := by
      unfold getOrInitRootNode generateNodeId at e
      simp only [EM.get_bind] at e
      cases hg : getRootNode st tick dir with
      | ok m => simp only [hg] at e; cases e
      | error e2 =>
        simp only [hg] at e
        cases hu : u64Succ ((st.counter tick).getD 0) with
        | error e3 =>
          rw [EM.bind_apply] at e
          simp only [EM.get_bind, hu, EM.lift_error_bind] at e
          cases e; rfl
        | ok c =>
          rw [EM.bind_apply] at e
          simp only [EM.get_bind, hu, EM.lift_ok_bind, EM.modify_bind] at e
          cases e
    rw [this]; exact hl

theorem Pres.liftTree {α : Type} {J : TreeSt → Prop} {x : TM α} (hx : Pres J x) : Pres (fun s => J s.trees) (OB.liftTree x) := by
  intro s h
  have := hx s.trees h
  unfold OB.liftTree
  revert this
  cases x s.trees <;> exact id

theorem syncSide_pres {I : Store → Prop} (hI : ∀ tick dir, Pres I (liftTree (getOrInitRootNode tick dir))) (tick : Int) (dir : Dir) (v : TickValues)
    (target : Nat) : Pres I (syncSide tick dir v target) := by
  unfold syncSide
  split
  · exact .pure _
  · exact .bind (hI _ _) fun _ => .bind .get fun _ => .bind (.lift _) fun _ => .bind (.lift _) fun _ => .bind (.lift _) fun _ =>
      .bind (.ensure _ _) fun _ => .pure _

theorem syncTick_pres {I : Store → Prop} (hI : ∀ tick dir, Pres I (liftTree (getOrInitRootNode tick dir)))
    (hs : ∀ tick ts, Pres I (saveTick tick ts)) (tick : Int) (x y : Nat) : Pres I (syncTick tick x y) := by
  unfold syncTick
  refine .bind .get fun s => ?_
  split
  · exact .fail _
  · simp only
    split
    · exact .pure _
    · exact .bind (syncSide_pres hI _ _ _ _) fun _ => .bind (syncSide_pres hI _ _ _ _) fun _ => hs _ _

theorem syncTick_low (h : Int → Dir → Nat) (tick : Int) (x y : Nat) : Pres (fun s => Low h s.trees) (syncTick tick x y) :=
  syncTick_pres (fun t d => (getOrInit_low t d).liftTree) (fun t ts => .modify fun s hs => hs) tick x y
theorem syncTick_orders (O : SMap (Int × Nat) LimitOrder) (tick : Int) (x y : Nat) : Pres (fun s => s.orders = O) (syncTick tick x y) :=
  syncTick_pres (fun t d s hs => by unfold liftTree; cases getOrInitRootNode t d s.trees <;> exact hs) (fun t ts => .modify fun s hs => hs) tick x y

variable {S0 : List Cell}

/-- Looking up a prefix sum costs the way down a low tree. -/
theorem prefix_uses {h : Nat} {st : TreeSt} {root : TreeNode} {x R f : Nat} (h1 : f ≤ h) (h2 : f ≤ treeFuel st root.tickId)
    (h3 : prefixSumWalk st f root root.getValue x R ≠ .error .diverge) :
    ∃ S : List Cell, S.length ≤ 2 * h + 1 ∧ ∀ st', (∀ c ∈ S, treeView st' c = treeView st c) → getPrefixSum st' root x R = getPrefixSum st root x R := by
  obtain ⟨S, h4, h5⟩ := walk_uses st f root root.getValue x R
  refine ⟨.counter root.tickId :: S, by simp only [List.length_cons]; omega, fun st' ha => ?_⟩
  have e1 : treeFuel st' root.tickId = treeFuel st root.tickId := by
    unfold treeFuel; rw [counter_of_view (ha (.counter root.tickId) (by simp))]
  have e2 := h5 st' fun c hc => ha c (by simp [hc])
  unfold getPrefixSum
  rw [e1, walk_fuel h2 h3, walk_fuel h2 (by rw [e2]; exact h3), e2]

theorem fresh_walk (st : TreeSt) (tick : Int) (dir : Dir) (id x R : Nat) :
    prefixSumWalk st 1 (mk' tick dir id .default) (mk' tick dir id .default).getValue x R ≠ .error .diverge := by
  unfold prefixSumWalk
  simp only [mk', NodeType.default, getMinRange, getMaxRange, isInternal, getLeft, getRight, getValue]
  by_cases hx : x < decMax
  · simp [hx, pure, Except.pure]
  · simp [hx, pure, Except.pure, bind, Except.bind]

theorem syncSide_uses {h : Int → Dir → Nat} {s : Store} (hl : Low h s.trees) (tick : Int) (dir : Dir) (v : TickValues) (target : Nat)
    (hh : 1 ≤ h tick dir) : UsesX S0 (2 * h tick dir + 6) (syncSide tick dir v target) s := by
  unfold syncSide
  split
  · exact .pure _ _
  refine .step (.of (liftTree_uses (getOrInit_uses tick dir s.trees))) (by omega) fun root t e => ?_
  have hlt : Low h t.trees := ((getOrInit_low tick dir).liftTree).ok (I := fun s => Low h s.trees) hl e
  have hw : ∃ f, f ≤ h tick dir ∧ f ≤ treeFuel t.trees root.tickId ∧ prefixSumWalk t.trees f root root.getValue target v.crc ≠ .error .diverge := by
    rw [liftTree_eq_ok] at e
    obtain ⟨st', e, rfl⟩ := e
    unfold getOrInitRootNode at e
    simp only [EM.get_bind] at e
    cases hg : getRootNode s.trees tick dir with
    | ok m =>
      simp only [hg] at e
      cases e
      exact (hl tick).2 dir _ hg target v.crc
    | error e2 =>
      simp only [hg] at e
      rw [EM.bind_eq_ok] at e
      obtain ⟨id, st1, -, e⟩ := e
      rw [EM.bind_eq_ok] at e
      obtain ⟨u, st2, -, e⟩ := e
      rw [EM.pure_eq_ok] at e
      obtain ⟨rfl, rfl⟩ := e
      exact ⟨1, hh, by unfold treeFuel; omega, fresh_walk _ _ _ _ _ _⟩
  obtain ⟨f, h1, h2, h3⟩ := hw
  obtain ⟨S, h4, h5⟩ := prefix_uses (h := h tick dir) h1 h2 h3
  refine .read S (2 * h tick dir + 1) h4 (by omega) (fun s' ha => by rw [h5 s'.trees fun c hc => tree_of_view (ha c hc)]) ?_
  exact .liftBind fun _ _ => .liftBind fun _ _ => .liftBind fun _ _ => .ensureBind fun _ => .pure _ _

theorem syncTick_uses {h : Int → Dir → Nat} {s : Store} (hl : Low h s.trees) {tick : Int} (x y : Nat) (hh : ∀ d, 1 ≤ h tick d)
    (ht : Cell.tick tick ∈ S0) : UsesX S0 (2 * (h tick .bid + h tick .ask) + 12) (syncTick tick x y) s := by
  unfold syncTick
  refine .get (fun s' ha => by rw [tick_of_view (ha _ ht)]) ?_
  split
  · exact .fail _ _
  · simp only
    split
    · exact .pure _ _
    · refine .step (syncSide_uses hl tick .bid _ _ (hh _)) (by omega) fun v t e => ?_
      have hlt : Low h t.trees := (syncSide_pres (I := fun s => Low h s.trees) (fun t d => (getOrInit_low t d).liftTree) _ _ _ _).ok hl e
      refine .step (syncSide_uses hlt tick .ask _ _ (hh _)) (by omega) fun v t e => ?_
      exact .on (saveTick_on _ _ ht)

/-- The cells a claim uses besides those of the order and the trees. -/
def claimCells (tick : Int) : List Cell := [.orderbook, .makerFee, .makerFeeRecipient, .tick tick]

theorem claimOrder_uses {h : Int → Dir → Nat} {s : Store} (hl : Low h s.trees) (sender : Addr) {tick : Int} (id : Nat) (hh : ∀ d, 1 ≤ h tick d)
    (hc : ∀ c ∈ claimCells tick, c ∈ S0) (ho : ∀ o, s.orders.get? (tick, id) = some o → o.tickId = tick) :
    UsesX S0 (2 * (h tick .bid + h tick .ask) + 15) (claimOrder sender tick id) s := by
  suffices hs : UsesX (orderCells (tick, id) (((s.orders.get? (tick, id)).map LimitOrder.owner).getD "") tick ++ S0)
      (2 * (h tick .bid + h tick .ask) + 12) (claimOrder sender tick id) s by
    obtain ⟨S, h1, h2⟩ := hs
    refine ⟨orderCells (tick, id) (((s.orders.get? (tick, id)).map LimitOrder.owner).getD "") tick ++ S, by simp [orderCells]; omega,
      h2.mono fun c hc => ?_⟩
    rcases hc with hc | hc
    · rcases List.mem_append.1 hc with hc | hc
      · right; simp [hc]
      · left; exact hc
    · right; simp [hc]
  generalize hS : orderCells (tick, id) (((s.orders.get? (tick, id)).map LimitOrder.owner).getD "") tick ++ S0 = S1
  have hc' : ∀ c ∈ claimCells tick, c ∈ S1 := fun c h => by rw [← hS]; simp [hc c h]
  have horder : Cell.order (tick, id) ∈ S1 := by rw [← hS]; simp [orderCells]
  have hcT := hc' (.tick tick) (by simp [claimCells])
  unfold claimOrder
  refine .on_step (loadOrderbook_on (hc' _ (by simp [claimCells]))) fun ob t e => ?_
  have : s = t := by
    unfold loadOrderbook at e
    simp only [EM.get_bind] at e
    cases hob : s.orderbook with
    | none => rw [hob] at e; cases e
    | some b => rw [hob] at e; cases e; rfl
  subst this
  refine .get (fun s' ha => by rw [tick_of_view (ha _ hcT), order_of_view (ha _ horder)]) ?_
  cases hts : s.ticks.get? tick with
  | none => exact .fail _ _
  | some ts =>
  simp only
  cases hoo : s.orders.get? (tick, id) with
  | none => exact .fail _ _
  | some o =>
  simp only
  refine .step (syncTick_uses hl _ _ hh hcT) (by omega) fun _ t e => ?_
  have hord : t.orders = s.orders := (syncTick_orders s.orders _ _ _).ok rfl e
  refine .get (fun s' ha => by rw [tick_of_view (ha _ hcT)]) ?_
  cases hts2 : t.ticks.get? tick with
  | none => exact .fail _ _
  | some ts2 =>
  simp only
  refine .ensureBind fun _ => .liftBind fun _ _ => .liftBind fun _ _ => .liftBind fun _ _ => .liftBind fun _ _ => .liftBind fun _ _ => ?_
  have hso : SameIndex t (tick, id) o.owner o.tickId := by
    intro o' h'
    rw [hord, hoo] at h'
    cases h'; exact ⟨rfl, rfl⟩
  have hcells : ∀ c ∈ orderCells (tick, id) o.owner o.tickId, c ∈ S1 := by
    rw [← hS, hoo, ho o hoo]
    simp +contextual
  have tail : ∀ (t : Store) (q et am : Nat), UsesX S1 0 (do
      let tickPrice ← EM.lift (tickToPrice tick)
      let rawAmount ← EM.lift (amountToValue o.dir am tickPrice .down)
      let (bounty, amount) ← EM.lift (takeBounty o.claimBounty rawAmount)
      let s ← EM.get
      let (fee, amount) ← EM.lift (takeMakerFee (getMakerFee s) rawAmount amount)
      let ownerMsgs : List SendMsg := if amount = 0 then [] else [⟨o.owner, ⟨ob.oppositeDenom o.dir, amount⟩, REPLY_ID_CLAIM⟩]
      let bountyMsgs : List SendMsg := if bounty = 0 then [] else [⟨sender, ⟨ob.oppositeDenom o.dir, bounty⟩, REPLY_ID_CLAIM_BOUNTY⟩]
      if fee = 0 then pure (amount, ownerMsgs ++ bountyMsgs, { o with quantity := q, etas := et })
      else
        match s.makerFeeRecipient with
        | none => EM.fail .noMakerFeeRecipient
        | some r =>
          pure (amount, ownerMsgs ++ bountyMsgs ++ [⟨r, ⟨ob.oppositeDenom o.dir, fee⟩, REPLY_ID_MAKER_FEE⟩], { o with quantity := q, etas := et }) :
        M (Nat × List SendMsg × LimitOrder)) t := by
    intro t q et am
    refine .liftBind fun _ _ => .liftBind fun _ _ => .liftBind fun ba _ => ?_
    refine .get (fun s' ha => by
      unfold getMakerFee
      rw [fee_of_view (ha _ (hc' _ (by simp [claimCells]))), recipient_of_view (ha _ (hc' _ (by simp [claimCells])))]) ?_
    refine .liftBind fun fa _ => ?_
    simp only
    split
    · exact .pure _ _
    · split
      · exact .fail _ _
      · exact .pure _ _
  split
  · exact .on_step (removeOrder_on hso hcells) fun _ _ _ => (tail _ _ _ _).mono (by omega)
  · exact .on_step (saveOrder_on (o := { o with quantity := _, etas := _ }) hso hcells) fun _ _ _ => (tail _ _ _ _).mono (by omega)

end OB
