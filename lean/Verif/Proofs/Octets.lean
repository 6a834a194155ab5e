import Verif.SpecOctets
import Verif.Props.Json
/- Bytes and texts; byte storage and the raw storage of Model/Storage.lean. -/
namespace OB
open Spec

theorem toOctets_eq (t : List Char) : toOctets t = t.utf8Encode.data.toList := by
  unfold toOctets List.utf8Encode
  simp

theorem ofOctets_toOctets (t : List Char) : ofOctets (toOctets t) = some t := by
  have : (⟨(toOctets t).toArray⟩ : ByteArray) = t.utf8Encode := by rw [toOctets_eq]
  unfold ofOctets
  rw [this, List.utf8Decode?_utf8Encode]
  rfl

theorem ofOctets_iff {b : Bytes} {t : List Char} : ofOctets b = some t ↔ b = toOctets t := by
  constructor
  · intro h
    unfold ofOctets at h
    rw [Option.map_eq_some_iff] at h
    obtain ⟨a, h1, rfl⟩ := h
    have h2 : (ByteArray.utf8Decode? ⟨b.toArray⟩).isSome := by rw [h1]; rfl
    have h3 := ByteArray.utf8Encode_get_utf8Decode? (h := h2)
    have h4 : (ByteArray.utf8Decode? ⟨b.toArray⟩).get h2 = a := by simp [h1]
    rw [h4] at h3
    rw [toOctets_eq, h3]
  · rintro rfl
    exact ofOctets_toOctets t

theorem utf8_iff {t : List Char} {b : Bytes} : Utf8 t b ↔ b = toOctets t := by
  unfold Utf8 toOctets
  rw [List.flatMap_def]

theorem fromOctets_to {α : Type} {rd : Json → Option α} {t : List Char} : fromOctets rd (toOctets t) = fromText rd t := by
  unfold fromOctets
  rw [ofOctets_toOctets]
  rfl

theorem fromOctets_none {α : Type} {rd : Json → Option α} {b : Bytes} (h : ofOctets b = none) : fromOctets rd b = none := by
  unfold fromOctets
  rw [h]
  rfl

/-- The value of a cell, read back from its bytes. -/
theorem octets_val {s : Store} (hs : StOk s) {c : Cell} (hc : c ≠ .contractInfo) {v : Val} (h : s.cell none c = some v) :
    fromOctets c.readVal (c.octets v) = some v := by
  have := cell_val hs hc h
  unfold Cell.octets
  rw [fromOctets_to]
  exact fromText_of this.1 this.2

/-- The bytes that go with a raw storage. -/
structure Enc (info : Option Bytes) (r : Raw) (R : Octets) : Prop where
  sorted : SMap.Sorted R
  cells : ∀ k b, (k, b) ∈ R → ∃ c, CellOk c ∧ k = c.key
  load : ∀ c, CellOk c → SMap.get? R c.key = if c = .contractInfo then info else (r.load c).map c.octets

variable {info : Option Bytes} {r : Raw} {R : Octets}

theorem get_save {c c' : Cell} (v : Val) (hc : CellOk c) (hc' : CellOk c') :
    SMap.get? (R.save c v) c'.key = if c' = c then some (c.octets v) else SMap.get? R c'.key := by
  unfold Octets.save
  rw [SMap.get?_insert]
  by_cases h : c' = c
  · subst h; simp
  · rw [if_neg h, if_neg (fun e => h (Cell.key_inj hc' hc e))]

theorem get_remove {c c' : Cell} (hc : CellOk c) (hc' : CellOk c') :
    SMap.get? (R.remove c) c'.key = if c' = c then none else SMap.get? R c'.key := by
  unfold Octets.remove
  rw [SMap.get?_erase]
  by_cases h : c' = c
  · subst h; simp
  · rw [if_neg h, if_neg (fun e => h (Cell.key_inj hc' hc e))]

theorem Enc.save (h : Enc info r R) {c : Cell} (hc : CellOk c) (hn : c ≠ .contractInfo) (v : Val) : Enc info (r.save c v) (R.save c v) where
  sorted := h.sorted.insert _ _
  cells k w hm := by
    rcases SMap.mem_insert_keys hm with e | e
    · exact ⟨c, hc, congrArg Prod.fst e⟩
    · exact h.cells k w e
  load c' hc' := by
    rw [get_save v hc hc', load_save v hc hc', h.load c' hc']
    by_cases e : c' = c
    · subst e; simp [hn]
    · simp [e]

theorem Enc.remove (h : Enc info r R) {c : Cell} (hc : CellOk c) (hn : c ≠ .contractInfo) : Enc info (r.remove c) (R.remove c) where
  sorted := h.sorted.erase _
  cells k w hm := h.cells k w (List.mem_of_mem_filter hm)
  load c' hc' := by
    rw [get_remove hc hc', load_remove hc hc', h.load c' hc']
    by_cases e : c' = c
    · subst e; simp [hn]
    · simp [e]

theorem Enc.opt (h : Enc info r R) {c : Cell} (hc : CellOk c) (hn : c ≠ .contractInfo) (a : Option Addr) :
    Enc info (optCell r c a) (optOctets R c a) := by
  cases a with
  | none => exact h.remove hc hn
  | some a => exact h.save hc hn _

theorem Enc.unindex (h : Enc info r R) {inf : Option Val} {s : Store} (hr : Holds inf r s) (hs : StoreOk s)
    (ho : ∀ k o, SMap.get? s.orders k = some o → OrderOk o) {k : Int × Nat} (hk : CellOk (.order k)) :
    Enc info (match r.load (.order k) with
      | some (.order old) => r.indexRemove k old
      | _ => r) (R.unindex k) := by
  have hl := hr.load _ hk
  have hR := h.load _ hk
  rw [if_neg (by simp)] at hR
  unfold Octets.unindex Octets.load
  rw [hR]
  rw [hl]
  cases e : SMap.get? s.orders k with
  | none =>
    rw [show s.cell inf (.order k) = none by simp [Store.cell, e]]
    exact h
  | some o =>
    rw [show s.cell inf (.order k) = some (.order o) by simp [Store.cell, e]]
    have hread : fromOctets (Cell.order k).readVal ((Cell.order k).octets (.order o)) = some (.order o) := by
      unfold Cell.octets
      rw [fromOctets_to]
      refine fromText_of (d := 10) ((within_limitOrder o).mono (by omega)) ?_
      simp only [Cell.readVal, Cell.json, read_limitOrder (ho k o e), Option.map_some]
    simp only [Option.map_some, hread]
    obtain ⟨h1, h2⟩ := storeOk_old hs e
    exact (h.remove h1 (by simp)).remove h2 (by simp)

/-- Each write keeps the bytes in step with the raw storage. -/
theorem Enc.write (h : Enc info r R) {inf : Option Val} {s : Store} (hr : Holds inf r s) (hs : StoreOk s)
    (ho : ∀ k o, SMap.get? s.orders k = some o → OrderOk o) {w : Write} (hw : w.Ok) : Enc info (w.raw r) (w.octets R) := by
  cases w with
  | orderId n => exact h.save (c := .orderId) trivial (by simp) _
  | orderbook n => exact h.save (c := .orderbook) trivial (by simp) _
  | isActive n => exact h.save (c := .isActive) trivial (by simp) _
  | makerFee n => exact h.save (c := .makerFee) trivial (by simp) _
  | makerFeeRecipient n => exact h.save (c := .makerFeeRecipient) trivial (by simp) _
  | admin a => exact h.opt (c := .admin) trivial (by simp) _
  | adminOffer a => exact h.opt (c := .adminOffer) trivial (by simp) _
  | moderator a => exact h.opt (c := .moderator) trivial (by simp) _
  | moderatorOffer a => exact h.opt (c := .moderatorOffer) trivial (by simp) _
  | tick t x => exact h.save (c := .tick t) hw.1 (by simp) _
  | dirLiq d x => exact h.save (c := .dirLiq d) trivial (by simp) _
  | saveOrder k o =>
    obtain ⟨w1, w2, w3, -, w4, -⟩ := hw
    exact (((h.unindex hr hs ho (k := k) ⟨w1, w2⟩).save (c := .ownerIdx o.owner k) ⟨w4, w1, w2⟩ (by simp) _).save
      (c := .tickOwnerIdx o.tickId o.owner k) ⟨w3, w4, w1, w2⟩ (by simp) _).save (c := .order k) ⟨w1, w2⟩ (by simp) (.order o)
  | removeOrder k => exact (h.unindex hr hs ho (k := k) hw).remove (c := .order k) hw (by simp)
  | node n => exact h.save (c := .node n.tickId n.key) ⟨hw.1, hw.2.1⟩ (by simp) _
  | dropNode t i => exact h.remove (c := .node t i) hw (by simp)
  | root t d i => exact h.save (c := .root t d) hw.1 (by simp) _
  | counter t n => exact h.save (c := .counter t) hw.1 (by simp) _

theorem Write.orders_ok {s : Store} (ho : ∀ k o, SMap.get? s.orders k = some o → OrderOk o) {w : Write} (hw : w.Ok) :
    ∀ k o, SMap.get? (w.apply s).orders k = some o → OrderOk o := by
  intro k o h
  cases w <;> try exact ho k o h
  · next k' o' =>
    simp only [Write.apply, SMap.get?_insert] at h
    split_ifs at h with e
    · cases h; exact hw.2.2
    · exact ho k o h
  · next k' =>
    simp only [Write.apply, SMap.get?_erase] at h
    split_ifs at h with e
    exact ho k o h

theorem Enc.writes (h : Enc info r R) {inf : Option Val} {s : Store} (hr : Holds inf r s) (hs : StoreOk s)
    (ho : ∀ k o, SMap.get? s.orders k = some o → OrderOk o) (ws : List Write) (hw : ∀ w ∈ ws, w.Ok) :
    Enc info (ws.foldl Write.raw r) (ws.foldl Write.octets R) := by
  induction ws generalizing r R s with
  | nil => exact h
  | cons w ws ih =>
    have hw1 := hw w (by simp)
    exact ih (h.write hr hs ho hw1) (Write.holds hr hs hw1) (Write.cells_ok hs hw1) (Write.orders_ok ho hw1) fun x hx => hw x (by simp [hx])

theorem enc_iff {inf : Option Val} {s : Store} (hr : Holds inf r s) : Enc info r R ↔ HoldsOctets info R s := by
  have key : ∀ c, CellOk c → c ≠ .contractInfo → r.load c = s.cell none c := by
    intro c hc hn
    rw [hr.load c hc]
    cases c <;> first | rfl | exact absurd rfl hn
  constructor
  · intro h
    refine ⟨h.sorted, h.cells, fun c hc => ?_⟩
    rw [h.load c hc]
    by_cases e : c = .contractInfo
    · simp [e]
    · simp only [if_neg e, key c hc e]
  · intro h
    refine ⟨h.sorted, h.cells, fun c hc => ?_⟩
    rw [h.load c hc]
    by_cases e : c = .contractInfo
    · simp [e]
    · simp only [if_neg e, key c hc e]

theorem Spec.HoldsBytes.unique {R R' : Octets} {F : Cell → Option Bytes} (h : HoldsBytes R F) (h' : HoldsBytes R' F) : R = R' := by
  have key : ∀ (a b : Octets), HoldsBytes a F → HoldsBytes b F → ∀ k v, SMap.get? a k = some v → SMap.get? b k = some v := by
    intro a b ha hb k v hk
    obtain ⟨c, hc, rfl⟩ := ha.cells k v (SMap.get?_mem hk)
    rw [hb.load c hc, ← ha.load c hc, hk]
  apply SMap.Sorted.ext h.sorted h'.sorted
  intro k
  cases h1 : SMap.get? R k with
  | some v => exact (key R R' h h' k v h1).symm
  | none =>
    cases h2 : SMap.get? R' k with
    | none => rfl
    | some v => rw [key R' R h' h k v h2] at h1; cases h1

end OB
