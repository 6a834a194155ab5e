import Verif.Proofs.Sym
/- Queries of the reference exchange commute with renamings. -/
namespace OB
open Spec
namespace Sym
variable {f : Renaming} {ch : Chain}

theorem filledTotal_rn (q : List Entry) : filledTotal (q.map f.entry) = filledTotal q := by
  unfold filledTotal; rw [List.map_map]; rfl

theorem placedTotal_rn (q : List Entry) : placedTotal (q.map f.entry) = placedTotal q := by
  unfold placedTotal; rw [List.map_map]; rfl

theorem dueTotal_rn (q : List Entry) : dueTotal (q.map f.entry) = dueTotal q := by
  induction q with
  | nil => rfl
  | cons x q ih => simp only [List.map_cons, dueTotal, ih]; rfl

theorem used_rn (r : Ref) (t : Int) : Used (f.ref r).queues t = Used r.queues t := by
  unfold Used Renaming.ref
  simp only [ne_eq, List.map_eq_nil_iff]

theorem running_rn (r : Ref) (m : Marks) (t : Int) (d : Dir) : (f.ref r).running m t d = r.running m t d := by
  unfold Ref.running
  exact congrArg (· + _) (filledTotal_rn _)

theorem sync_rn (r : Ref) (m : Marks) (tick : Int) : (f.ref r).sync m tick = r.sync m tick := by
  unfold Ref.sync
  funext t d
  rw [running_rn]
  have : dueTotal ((f.ref r).queues t d) = dueTotal (r.queues t d) := dueTotal_rn _
  rw [this]

theorem claimMarks_rn (h0 : f.acct "" = "") (sender : Addr) (l : List (Int × Nat)) (r : Ref) (m : Marks) :
    (f.ref r).claimMarks (f.acct sender) m l = r.claimMarks sender m l := by
  induction l generalizing r m with
  | nil => rfl
  | cons k l ih =>
    obtain ⟨tick, id⟩ := k
    unfold Ref.claimMarks
    rw [order_rn]
    cases r.order tick id with
    | none => exact ih r m
    | some y =>
      obtain ⟨side, x⟩ := y
      simp only [Option.map_some]
      have e : ((f.entry x).claimed < (f.entry x).filled) = (x.claimed < x.filled) := rfl
      simp only [e, sync_rn, claim_rn h0, ih]

theorem marksAfter_rn (hf : f.Ok ch) (r : Ref) (m : Marks) (op : Op) : (f.ref r).marksAfter m (f.op op) = r.marksAfter m op := by
  cases op with
  | execute sender funds time msg =>
    cases msg with
    | cancelLimit tick id => exact sync_rn r m tick
    | claimLimit tick id => exact sync_rn r m tick
    | batchClaim l => exact claimMarks_rn hf.empty sender l r m
    | _ => rfl
  | _ => rfl

theorem runMarks_rn (hf : f.Ok ch) (ops : List Op) (r : Ref) (m : Marks) :
    Ref.runMarks ch (f.ref r) m (ops.map f.op) = (f.ref (r.runMarks ch m ops).1, (r.runMarks ch m ops).2) := by
  induction ops generalizing r m with
  | nil => rfl
  | cons op ops ih =>
    show Ref.runMarks ch (f.ref r) m (f.op op :: ops.map f.op) = _
    unfold Ref.runMarks
    rw [step_rn hf]
    cases r.step ch op with
    | error e => simp only [ih]
    | ok x => simp only [marksAfter_rn hf, ih]

theorem values_rn (r : Ref) (m : Marks) (t : Int) (d : Dir) : (f.ref r).values m t d = r.values m t d := by
  have h1 : openTotal ((f.ref r).queues t d) = openTotal (r.queues t d) := openTotal_rn _ _
  have h2 : placedTotal ((f.ref r).queues t d) = placedTotal (r.queues t d) := placedTotal_rn _
  unfold Ref.values
  rw [running_rn, h1, h2]

theorem tick_rn (r : Ref) (m : Marks) : (f.ref r).tick m = r.tick m := by
  funext t
  unfold Ref.tick
  rw [values_rn, values_rn]

theorem used_eq (r : Ref) : Used (f.ref r).queues = Used r.queues := funext fun t => used_rn r t

theorem usedTicks_rn (r : Ref) : (f.ref r).usedTicks = r.usedTicks := by
  unfold Ref.usedTicks
  rw [used_eq]

theorem shownQ_rn (tick : Int) (dir : Dir) (q : List Entry) (n : Nat) :
    shownQ tick dir n (q.map f.entry) = (shownQ tick dir n q).map f.order := by
  induction q generalizing n with
  | nil => rfl
  | cons x q ih =>
    have e : (f.entry x).Live = x.Live := rfl
    have e2 : (f.entry x).placed = x.placed := rfl
    simp only [List.map_cons, shownQ, e, e2, ih]
    split <;> rfl

theorem listing_rn (r : Ref) : (f.ref r).listing = r.listing.map f.order := by
  unfold Ref.listing
  rw [usedTicks_rn]
  rw [List.map_mergeSort (s := fun o o' : LimitOrder => decide (o.tickId < o'.tickId ∨ o.tickId = o'.tickId ∧ o.orderId ≤ o'.orderId))
    (r := fun o o' : LimitOrder => decide (o.tickId < o'.tickId ∨ o.tickId = o'.tickId ∧ o.orderId ≤ o'.orderId)) (f := f.order) (fun a _ b _ => rfl)]
  congr 1
  rw [List.map_flatMap]
  congr 1
  funext t
  rw [List.map_append, ← shownQ_rn, ← shownQ_rn]
  rfl

theorem quoteFor_rn (r : Ref) (s : SwapReq) : (f.ref r).quoteFor (req f s) = (r.quoteFor s).map f.coinOf := by
  have h1 : (req f s).side (f.ref r).base = s.side r.base := side_rn s r.base
  have h2 : ∀ d, (f.ref r).levels (req f s) d = r.levels s d := fun d => levels_rn f r s (req f s) rfl d
  unfold Ref.quoteFor
  simp only [h1, h2]
  have e : (req f s).tokenIn.amount = s.tokenIn.amount := rfl
  rw [e]
  cases matchLevels (s.side r.base) (r.levels s (s.side r.base)) s.tokenIn.amount with
  | none => rfl
  | some x =>
    obtain ⟨F, left, dust⟩ := x
    have h3 : (req f s).pair (f.ref r).quote (f.ref r).base (s.side r.base) = s.pair r.quote r.base (s.side r.base) := pair_rn s _ _ _
    have h4 : (req f s).fee = s.fee := rfl
    have hc : ((req f s).fee = 0 ∧ s.tokenIn.amount ≠ 0 ∧ (req f s).pair (f.ref r).quote (f.ref r).base (s.side r.base) ∧
        usedUp (s.side r.base) F left ∧ (F.map Prod.snd).sum < 2 ^ 128) =
        (s.fee = 0 ∧ s.tokenIn.amount ≠ 0 ∧ s.pair r.quote r.base (s.side r.base) ∧
        usedUp (s.side r.base) F left ∧ (F.map Prod.snd).sum < 2 ^ 128) := by rw [h3, h4]
    simp only
    split_ifs with c1 c2 c2
    · rfl
    · rw [h1, hc] at c1; exact absurd c1 c2
    · rw [h1, hc] at c1; exact absurd c2 c1
    · rfl

theorem answer_rn (r : Ref) (m : Marks) (q : QueryMsg) : (f.ref r).answer m (f.query q) = (r.answer m q).map f.answer := by
  have ho : ∀ t d, openTotal ((f.ref r).queues t d) = openTotal (r.queues t d) := fun t d => openTotal_rn _ _
  have hd : ∀ t d, dueTotal ((f.ref r).queues t d) = dueTotal (r.queues t d) := fun t d => dueTotal_rn _
  cases q with
  | spotPrice quote base =>
    have e : ∀ a b, (f.coin a = f.coin b) = (a = b) := fun a b => propext f.coin.injective.eq_iff
    simp only [Renaming.query, Ref.answer, Renaming.ref, e]
    split
    · rfl
    · split <;> rfl
  | calcOutAmountGivenIn c out fee =>
    have := quoteFor_rn (f := f) r ⟨f.acct.symm "", c, out, 0, fee, none⟩
    unfold req at this
    simp only [Equiv.apply_symm_apply] at this
    simp only [Renaming.query, Ref.answer]
    rw [this]
    rw [Option.map_map, Option.map_map]
    rfl
  | calcOutAmtGivenIn c out fee =>
    have := quoteFor_rn (f := f) r ⟨f.acct.symm "", c, out, 0, fee, none⟩
    unfold req at this
    simp only [Equiv.apply_symm_apply] at this
    simp only [Renaming.query, Ref.answer]
    rw [this]
    rw [Option.map_map, Option.map_map]
    rfl
  | getTotalPoolLiquidity =>
    simp only [Renaming.query, Ref.answer, ho]
    generalize (overTicks fun t => openTotal (r.queues t .ask)) = A
    generalize (overTicks fun t => openTotal (r.queues t .bid)) = B
    split <;> rfl
  | calcInAmtGivenOut => rfl
  | allTicks lo hi limit => simp only [Renaming.query, Ref.answer, usedTicks_rn, tick_rn]; rfl
  | isActive => rfl
  | getSwapFee => rfl
  | ordersByOwner owner lo hi limit =>
    have e : ∀ o, (fun o : LimitOrder => decide (o.owner = f.acct owner)) (f.order o) = decide (o.owner = owner) := fun o => by
      simp only [Renaming.order, f.acct.injective.eq_iff]
    have e2 : ∀ o, within lo hi (f.order o) = within lo hi o := fun o => rfl
    simp only [Renaming.query, Ref.answer, listing_rn, List.filter_map, Option.map_some, Renaming.answer, List.length_map, ← List.map_take]
    simp only [Function.comp_def, e, e2]
  | orderbookState => rfl
  | ticksById ids => 
    simp only [Renaming.query, Ref.answer, tick_rn]
    rw [used_eq]
    split <;> rfl
  | ordersByTick tick lo hi limit =>
    have e : ∀ o, (fun o : LimitOrder => decide (o.tickId = tick) && withinIds lo hi o) (f.order o) = (decide (o.tickId = tick) && withinIds lo hi o) := fun o => rfl
    simp only [Renaming.query, Ref.answer, listing_rn, List.filter_map, Option.map_some, Renaming.answer, List.length_map, ← List.map_take]
    simp only [Function.comp_def, e]
  | denoms => rfl
  | getMakerFee => rfl
  | getUnrealizedCancels ids =>
    simp only [Renaming.query, Ref.answer, hd]
    rw [used_eq]
    split <;> rfl
  | auth q => cases q <;> rfl

theorem queryFits_rn (q : QueryMsg) : QueryFits (f.query q) = QueryFits q := by cases q <;> rfl

end Sym
end OB
