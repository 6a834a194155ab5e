import Verif.Proofs.Cells
import Verif.Proofs.Commute
/- Writes keep the raw storage and the typed store in step. -/
namespace OB
open Spec

theorem load_save {r : Raw} {c c' : Cell} (v : Val) (hc : CellOk c) (hc' : CellOk c') :
    (r.save c v).load c' = if c' = c then some v else r.load c' := by
  unfold Raw.save Raw.load
  rw [SMap.get?_insert]
  by_cases h : c' = c
  · subst h; simp
  · rw [if_neg h, if_neg (fun e => h (Cell.key_inj hc' hc e))]

theorem load_remove {r : Raw} {c c' : Cell} (hc : CellOk c) (hc' : CellOk c') :
    (r.remove c).load c' = if c' = c then none else r.load c' := by
  unfold Raw.remove Raw.load
  rw [SMap.get?_erase]
  by_cases h : c' = c
  · subst h; simp
  · rw [if_neg h, if_neg (fun e => h (Cell.key_inj hc' hc e))]

theorem Spec.HoldsCells.save {r : Raw} {F : Cell → Option Val} (h : HoldsCells r F) {c : Cell} (hc : CellOk c) (v : Val) :
    HoldsCells (r.save c v) (fun c' => if c' = c then some v else F c') where
  sorted := h.sorted.insert _ _
  cells k w hm := by
    rcases SMap.mem_insert_keys hm with e | e
    · exact ⟨c, hc, congrArg Prod.fst e⟩
    · exact h.cells k w e
  load c' hc' := by rw [load_save v hc hc', h.load c' hc']

theorem Spec.HoldsCells.remove {r : Raw} {F : Cell → Option Val} (h : HoldsCells r F) {c : Cell} (hc : CellOk c) :
    HoldsCells (r.remove c) (fun c' => if c' = c then none else F c') where
  sorted := h.sorted.erase _
  cells k w hm := h.cells k w (List.mem_of_mem_filter hm)
  load c' hc' := by rw [load_remove hc hc', h.load c' hc']

theorem Spec.HoldsCells.congr {r : Raw} {F G : Cell → Option Val} (h : HoldsCells r F) (hFG : ∀ c, CellOk c → F c = G c) : HoldsCells r G :=
  ⟨h.sorted, h.cells, fun c hc => by rw [h.load c hc, hFG c hc]⟩

theorem Spec.HoldsCells.opt {r : Raw} {F : Cell → Option Val} (h : HoldsCells r F) {c : Cell} (hc : CellOk c) (a : Option Addr) :
    HoldsCells (optCell r c a) (fun c' => if c' = c then a.map .addr else F c') := by
  cases a with
  | none => exact h.remove hc
  | some a => exact h.save hc _

/-- The raw storage is determined by the cell contents. -/
theorem Spec.HoldsCells.unique {r r' : Raw} {F : Cell → Option Val} (h : HoldsCells r F) (h' : HoldsCells r' F) : r = r' := by
  have key : ∀ (a b : Raw), HoldsCells a F → HoldsCells b F → ∀ k v, SMap.get? a k = some v → SMap.get? b k = some v := by
    intro a b ha hb k v hk
    obtain ⟨c, hc, rfl⟩ := ha.cells k v (SMap.get?_mem hk)
    have h1 := ha.load c hc
    have h2 := hb.load c hc
    unfold Raw.load at h1 h2
    rw [h2, ← h1, hk]
  apply SMap.Sorted.ext h.sorted h'.sorted
  intro k
  cases h1 : SMap.get? r k with
  | some v => exact (key r r' h h' k v h1).symm
  | none =>
    cases h2 : SMap.get? r' k with
    | none => rfl
    | some v => rw [key r' r h' h k v h2] at h1; cases h1

theorem Write.cells_ok {s : Store} (hs : StoreOk s) {w : Write} (hw : w.Ok) : StoreOk (w.apply s) := by
  intro c hne
  cases c <;> cases w <;> first
    | trivial
    | (exact hs _ hne)
    | skip
  case tick.tick t t' x =>
    simp only [Store.cell, Write.apply, SMap.get?_insert] at hne
    by_cases h : t = t'
    · subst h; exact hw.1
    · rw [if_neg h] at hne; exact hs (.tick t) hne
  case order.saveOrder k k' o =>
    simp only [Store.cell, Write.apply, SMap.get?_insert] at hne
    by_cases h : k = k'
    · subst h; exact ⟨hw.1, hw.2.1⟩
    · rw [if_neg h] at hne; exact hs (.order k) hne
  case order.removeOrder k k' =>
    simp only [Store.cell, Write.apply, SMap.get?_erase] at hne
    by_cases h : k = k'
    · rw [if_pos h] at hne; exact absurd rfl hne
    · rw [if_neg h] at hne; exact hs (.order k) hne
  case ownerIdx.saveOrder a k k' o =>
    simp only [Store.cell, Write.apply, SMap.get?_insert] at hne
    by_cases h : k = k'
    · subst h
      simp only [if_true] at hne
      split_ifs at hne with ho
      · subst ho; exact ⟨hw.2.2.2.2.1, hw.1, hw.2.1⟩
      · exact absurd rfl hne
    · rw [if_neg h] at hne; exact hs (.ownerIdx a k) hne
  case ownerIdx.removeOrder a k k' =>
    simp only [Store.cell, Write.apply, SMap.get?_erase] at hne
    by_cases h : k = k'
    · rw [if_pos h] at hne; exact absurd rfl hne
    · rw [if_neg h] at hne; exact hs (.ownerIdx a k) hne
  case tickOwnerIdx.saveOrder t a k k' o =>
    simp only [Store.cell, Write.apply, SMap.get?_insert] at hne
    by_cases h : k = k'
    · subst h
      simp only [if_true] at hne
      split_ifs at hne with ho
      · obtain ⟨rfl, rfl⟩ := ho; exact ⟨hw.2.2.1, hw.2.2.2.2.1, hw.1, hw.2.1⟩
      · exact absurd rfl hne
    · rw [if_neg h] at hne; exact hs (.tickOwnerIdx t a k) hne
  case tickOwnerIdx.removeOrder t a k k' =>
    simp only [Store.cell, Write.apply, SMap.get?_erase] at hne
    by_cases h : k = k'
    · rw [if_pos h] at hne; exact absurd rfl hne
    · rw [if_neg h] at hne; exact hs (.tickOwnerIdx t a k) hne
  case node.node t i n =>
    simp only [Store.cell, Write.apply] at hne
    by_cases h : t = n.tickId ∧ i = n.key
    · obtain ⟨rfl, rfl⟩ := h; exact ⟨hw.1, hw.2.1⟩
    · rw [if_neg h] at hne; exact hs (.node t i) hne
  case node.dropNode t i t' i' =>
    simp only [Store.cell, Write.apply] at hne
    by_cases h : t = t' ∧ i = i'
    · rw [if_pos h] at hne; exact absurd rfl hne
    · rw [if_neg h] at hne; exact hs (.node t i) hne
  case root.root t d t' d' i =>
    simp only [Store.cell, Write.apply] at hne
    by_cases h : t = t' ∧ d = d'
    · obtain ⟨rfl, rfl⟩ := h; exact hw.1
    · rw [if_neg h] at hne; exact hs (.root t d) hne
  case counter.counter t t' n =>
    simp only [Store.cell, Write.apply] at hne
    by_cases h : t = t'
    · subst h; exact hw.1
    · rw [if_neg h] at hne; exact hs (.counter t) hne

theorem storeOk_old {s : Store} (hs : StoreOk s) {k : Int × Nat} {o : LimitOrder} (h : SMap.get? s.orders k = some o) :
    CellOk (.ownerIdx o.owner k) ∧ CellOk (.tickOwnerIdx o.tickId o.owner k) := by
  constructor
  · apply hs; simp [Store.cell, h]
  · apply hs; simp [Store.cell, h]

/-- Removing the index entries of the order stored at `k`, if any. -/
theorem holds_unindex {info : Option Val} {r : Raw} {s : Store} (h : Holds info r s) (hs : StoreOk s) {k : Int × Nat} (hk : CellOk (.order k)) :
    HoldsCells (match r.load (.order k) with
      | some (.order old) => r.indexRemove k old
      | _ => r) (fun c => match c with
        | .ownerIdx _ k' => if k' = k then none else s.cell info c
        | .tickOwnerIdx _ _ k' => if k' = k then none else s.cell info c
        | _ => s.cell info c) := by
  rw [h.load _ hk]
  cases ho : SMap.get? s.orders k with
  | none =>
    rw [show s.cell info (.order k) = none by simp [Store.cell, ho]]
    refine HoldsCells.congr h fun c hc => ?_
    clear hc
    cases c <;> try rfl
    · next a k' =>
      by_cases e : k' = k
      · subst e; simp [Store.cell, ho]
      · simp [Store.cell, e]
    · next t a k' =>
      by_cases e : k' = k
      · subst e; simp [Store.cell, ho]
      · simp [Store.cell, e]
  | some o =>
    rw [show s.cell info (.order k) = some (.order o) by simp [Store.cell, ho]]
    obtain ⟨h1, h2⟩ := storeOk_old hs ho
    refine HoldsCells.congr ((HoldsCells.remove h h1).remove h2) fun c hc => ?_
    clear hc
    cases c <;> try rfl
    · next a k' =>
      by_cases e : k' = k
      · subst e
        simp only [Store.cell, ho, reduceCtorEq, if_false, if_true, Cell.ownerIdx.injEq, and_true]
        split_ifs with h3 h4
        · rfl
        · exact absurd h4.symm h3
        · rfl
      · simp [Store.cell, e]
    · next t a k' =>
      by_cases e : k' = k
      · subst e
        simp only [Store.cell, ho, reduceCtorEq, if_false, if_true, Cell.tickOwnerIdx.injEq, and_true]
        split_ifs with h3 h4
        · rfl
        · exact absurd ⟨h4.1.symm, h4.2.symm⟩ h3
        · rfl
      · simp [Store.cell, e]

/-- Each write keeps the raw storage in step with the typed store. -/
theorem Write.holds {info : Option Val} {r : Raw} {s : Store} (h : Holds info r s) (hs : StoreOk s) {w : Write} (hw : w.Ok) :
    Holds info (w.raw r) (w.apply s) := by
  unfold Holds
  cases w with
  | orderId n => exact HoldsCells.congr (HoldsCells.save h (c := .orderId) trivial _) fun c _ => by cases c <;> rfl
  | orderbook n => exact HoldsCells.congr (HoldsCells.save h (c := .orderbook) trivial _) fun c _ => by cases c <;> rfl
  | isActive n => exact HoldsCells.congr (HoldsCells.save h (c := .isActive) trivial _) fun c _ => by cases c <;> rfl
  | makerFee n => exact HoldsCells.congr (HoldsCells.save h (c := .makerFee) trivial _) fun c _ => by cases c <;> rfl
  | makerFeeRecipient n => exact HoldsCells.congr (HoldsCells.save h (c := .makerFeeRecipient) trivial _) fun c _ => by cases c <;> rfl
  | admin a => exact HoldsCells.congr (HoldsCells.opt h (c := .admin) trivial _) fun c _ => by cases c <;> rfl
  | adminOffer a => exact HoldsCells.congr (HoldsCells.opt h (c := .adminOffer) trivial _) fun c _ => by cases c <;> rfl
  | moderator a => exact HoldsCells.congr (HoldsCells.opt h (c := .moderator) trivial _) fun c _ => by cases c <;> rfl
  | moderatorOffer a => exact HoldsCells.congr (HoldsCells.opt h (c := .moderatorOffer) trivial _) fun c _ => by cases c <;> rfl
  | tick t x =>
    refine HoldsCells.congr (HoldsCells.save h (c := .tick t) hw.1 _) fun c hc => ?_
    clear hc
    cases c <;> try rfl
    next t' =>
    simp only [Store.cell, Write.apply, SMap.get?_insert, Cell.tick.injEq]
    split_ifs <;> rfl
  | dirLiq d x =>
    refine HoldsCells.congr (HoldsCells.save h (c := .dirLiq d) trivial _) fun c hc => ?_
    clear hc
    cases c <;> try rfl
    next d' =>
    simp only [Store.cell, Write.apply, Cell.dirLiq.injEq]
    split_ifs <;> rfl
  | saveOrder k o =>
    obtain ⟨w1, w2, w3, -, w4, -⟩ := hw
    have hu := holds_unindex h hs (k := k) ⟨w1, w2⟩
    have hr := ((hu.save (c := .ownerIdx o.owner k) ⟨w4, w1, w2⟩ (.pkLen (pkBytes k).length)).save
      (c := .tickOwnerIdx o.tickId o.owner k) ⟨w3, w4, w1, w2⟩ (.pkLen (pkBytes k).length)).save (c := .order k) ⟨w1, w2⟩ (.order o)
    refine HoldsCells.congr hr fun c hc => ?_
    clear hc
    cases c <;> try rfl
    · next k' =>
      simp only [Store.cell, Write.apply, SMap.get?_insert, Cell.order.injEq, reduceCtorEq, if_false]
      split_ifs <;> rfl
    · next a k' =>
      simp only [Store.cell, Write.apply, SMap.get?_insert, Cell.ownerIdx.injEq, reduceCtorEq, if_false]
      by_cases e : k' = k
      · subst e
        simp only [and_true, if_true, eq_comm]
      · simp [e]
    · next t a k' =>
      simp only [Store.cell, Write.apply, SMap.get?_insert, Cell.tickOwnerIdx.injEq, reduceCtorEq, if_false]
      by_cases e : k' = k
      · subst e
        simp only [and_true, if_true, eq_comm]
      · simp [e]
  | removeOrder k =>
    have hu := holds_unindex h hs (k := k) hw
    refine HoldsCells.congr (hu.remove (c := .order k) hw) fun c hc => ?_
    clear hc
    cases c <;> try rfl
    · next k' =>
      simp only [Store.cell, Write.apply, SMap.get?_erase, Cell.order.injEq]
      split_ifs <;> rfl
    · next a k' =>
      simp only [Store.cell, Write.apply, SMap.get?_erase, reduceCtorEq, if_false]
      by_cases e : k' = k <;> simp [e]
    · next t a k' =>
      simp only [Store.cell, Write.apply, SMap.get?_erase, reduceCtorEq, if_false]
      by_cases e : k' = k <;> simp [e]
  | node n =>
    refine HoldsCells.congr (HoldsCells.save h (c := .node n.tickId n.key) ⟨hw.1, hw.2.1⟩ _) fun c hc => ?_
    clear hc
    cases c <;> try rfl
    next t i =>
    simp only [Store.cell, Write.apply, Cell.node.injEq]
    split_ifs <;> rfl
  | dropNode t i =>
    refine HoldsCells.congr (HoldsCells.remove h (c := .node t i) hw) fun c hc => ?_
    clear hc
    cases c <;> try rfl
    next t' i' =>
    simp only [Store.cell, Write.apply, Cell.node.injEq]
    split_ifs <;> rfl
  | root t d i =>
    refine HoldsCells.congr (HoldsCells.save h (c := .root t d) hw.1 _) fun c hc => ?_
    clear hc
    cases c <;> try rfl
    next t' d' =>
    simp only [Store.cell, Write.apply, Cell.root.injEq]
    split_ifs <;> rfl
  | counter t n =>
    refine HoldsCells.congr (HoldsCells.save h (c := .counter t) hw.1 _) fun c hc => ?_
    clear hc
    cases c <;> try rfl
    next t' =>
    simp only [Store.cell, Write.apply, Cell.counter.injEq]
    split_ifs <;> rfl

theorem writes_holds {info : Option Val} {r : Raw} {s : Store} (h : Holds info r s) (hs : StoreOk s) (ws : List Write)
    (hw : ∀ w ∈ ws, w.Ok) : Holds info (ws.foldl Write.raw r) (ws.foldl Write.apply s) ∧ StoreOk (ws.foldl Write.apply s) := by
  induction ws generalizing r s with
  | nil => exact ⟨h, hs⟩
  | cons w ws ih =>
    have hw1 := hw w (by simp)
    exact ih (Write.holds h hs hw1) (Write.cells_ok hs hw1) fun x hx => hw x (by simp [hx])

end OB
