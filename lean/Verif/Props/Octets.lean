import Verif.Proofs.OctetsQuery
import Verif.Props.Live
/- C105: bytes in, bytes out, bytes in the storage. -/
namespace OB
open Spec

/-- C105: decoding bytes undoes UTF-8 encoding, and accepts nothing else. -/
theorem C105_utf8 (t : List Char) (b : Bytes) : (ofOctets b = some t ↔ Utf8 t b) ∧ Utf8 t (toOctets t) ∧ ∀ t', Utf8 t b → Utf8 t' b → t = t' := by
  refine ⟨by rw [utf8_iff, ofOctets_iff], utf8_iff.2 rfl, fun t' h h' => ?_⟩
  rw [utf8_iff, ← ofOctets_iff] at h h'
  rw [h] at h'
  exact Option.some.inj h'

theorem fromOctets_iff {α : Type} {rd : Json → Option α} {P : α → Json → Prop} {b : Bytes}
    (h : ∀ t a, fromText rd t = some a ↔ ∃ j, Readable t j ∧ P a j) (a : α) :
    fromOctets rd b = some a ↔ ∃ t j, Utf8 t b ∧ Readable t j ∧ P a j := by
  unfold fromOctets
  rw [Option.bind_eq_some_iff]
  constructor
  · rintro ⟨t, h1, h2⟩
    obtain ⟨j, h3, h4⟩ := (h t a).1 h2
    exact ⟨t, j, (C105_utf8 t b).1.1 h1, h3, h4⟩
  · rintro ⟨t, j, h1, h2⟩
    exact ⟨t, (C105_utf8 t b).1.2 h1, (h t a).2 ⟨j, h2⟩⟩

/-- C105: bytes are read as a message exactly if they are the UTF-8 encoding of a JSON text of that message. -/
theorem C105_messages (b : Bytes) :
    (∀ m, fromOctets readExecuteMsg b = some m ↔ ∃ t j, Utf8 t b ∧ Readable t j ∧ ExecuteJ m j) ∧
    (∀ m, fromOctets readSudoMsg b = some m ↔ ∃ t j, Utf8 t b ∧ Readable t j ∧ SudoJ m j) ∧
    (∀ m, fromOctets readQueryMsg b = some m ↔ ∃ t j, Utf8 t b ∧ Readable t j ∧ QueryJ m j) ∧
    (∀ base quote, fromOctets readInstantiateMsg b = some (base, quote) ↔ ∃ t j, Utf8 t b ∧ Readable t j ∧ InstantiateJ base quote j) :=
  ⟨fromOctets_iff fun t => (C90_messages t).1, fromOctets_iff fun t => (C90_messages t).2.1, fromOctets_iff fun t => (C90_messages t).2.2.1,
    fun base quote => fromOctets_iff (P := fun x : Denom × Denom => InstantiateJ x.1 x.2) (fun t x => (C90_messages t).2.2.2 x.1 x.2) (base, quote)⟩

/-! ### The wire -/

/-- The reply in bytes. -/
def Reply.octets : Reply → OctetReply
  | .response raw msgs data => .response raw msgs (data.map toOctets)
  | .answer t => .answer (toOctets t)
  | .refusal t => .refusal t

theorem encodes_octets (r : Reply) : EncodesReply r r.octets := by
  cases r with
  | response raw msgs data =>
    cases data with
    | none => exact ⟨rfl, rfl⟩
    | some t => exact ⟨rfl, rfl, utf8_iff.2 rfl⟩
  | answer t => exact utf8_iff.2 rfl
  | refusal t => rfl

theorem settleOctets_eq (ch : Chain) (w : World) (op : Op) : settleOctets ch w op = ((settleOp ch w op).1, (settleOp ch w op).2.octets) := by
  unfold settleOctets settleOp
  cases step ch w op with
  | error e => rfl
  | ok x =>
    obtain ⟨w', r⟩ := x
    simp only [Reply.octets]
    cases r.data <;> rfl

/-- A call in bytes is its text's call. -/
theorem enter_encoded (ch : Chain) (w : World) {c : Call} {o : OctetCall} (h : Encodes c o) :
    enterOctets ch w o = ((enter ch w c).1, (enter ch w c).2.octets) := by
  cases c <;> cases o <;> first | exact h.elim | skip
  · obtain ⟨rfl, rfl, rfl, h⟩ := h
    rw [utf8_iff] at h
    subst h
    simp only [enterOctets, enter, fromOctets_to]
    cases fromText readExecuteMsg _ with
    | none => rfl
    | some m => exact settleOctets_eq _ _ _
  · obtain ⟨rfl, h⟩ := h
    rw [utf8_iff] at h
    subst h
    simp only [enterOctets, enter, fromOctets_to]
    cases fromText readSudoMsg _ with
    | none => rfl
    | some m => exact settleOctets_eq _ _ _
  · have h : Utf8 _ _ := h
    rw [utf8_iff] at h
    subst h
    simp only [enterOctets, enter, fromOctets_to]
    cases fromText readQueryMsg _ with
    | none => rfl
    | some q => cases e : queryResult w.store q <;> simp only [e] <;> rfl
  · simp only [enterOctets, enter]
    exact settleOctets_eq _ _ _
  · obtain ⟨rfl, rfl⟩ := h
    simp only [enterOctets, enter]
    exact settleOctets_eq _ _ _
  · obtain ⟨rfl, rfl, rfl⟩ := h
    simp only [enterOctets, enter]
    exact settleOctets_eq _ _ _

/-- A call whose message is not UTF-8 is refused. -/
theorem enter_noise (ch : Chain) (w : World) {o : OctetCall} (h : ∀ c, ¬ Encodes c o) : enterOctets ch w o = (w, .refusal none) := by
  have key : ∀ {b : Bytes}, (∀ t, ¬ Utf8 t b) → ofOctets b = none := by
    intro b hb
    cases e : ofOctets b with
    | none => rfl
    | some t => exact absurd ((C105_utf8 t b).1.1 e) (hb t)
  cases o with
  | execute sender funds time b =>
    have := key fun t ht => h (.execute sender funds time t) ⟨rfl, rfl, rfl, ht⟩
    simp only [enterOctets, fromOctets_none this]
  | «sudo» time b =>
    have := key fun t ht => h (.sudo time t) ⟨rfl, ht⟩
    simp only [enterOctets, fromOctets_none this]
  | query b =>
    have := key fun t ht => h (.query t) ht
    simp only [enterOctets, fromOctets_none this]
  | migrate => exact absurd trivial (h .migrate)
  | mint dst c => exact absurd ⟨rfl, rfl⟩ (h (.mint dst c))
  | transfer src dst c => exact absurd ⟨rfl, rfl, rfl⟩ (h (.transfer src dst c))

theorem sane_encoded {c : Call} {o : OctetCall} (h : Encodes c o) (hs : Spec.OctetCall.Sane o) : Spec.Call.Sane c := by
  cases c <;> cases o <;> first | exact h.elim | (obtain ⟨rfl, rfl, rfl, -⟩ := h; exact hs)

/-- The texts of the calls that have one. -/
theorem decode_calls (ch : Chain) (os : List OctetCall) (hs : ∀ o ∈ os, Spec.OctetCall.Sane o) (w : World) :
    ∃ cs : List Call, (∀ c ∈ cs, Spec.Call.Sane c) ∧ (serveOctets ch w os).1 = (serve ch w cs).1 ∧
      ∀ r m r' m', Session ch r m cs (serve ch w cs).2 r' m' → OctetSession ch r m os (serveOctets ch w os).2 r' m' := by
  induction os generalizing w with
  | nil =>
    refine ⟨[], by simp, rfl, fun r m r' m' h => ?_⟩
    cases h
    exact .done
  | cons o os ih =>
    by_cases hc : ∃ c, Encodes c o
    · obtain ⟨c, hc⟩ := hc
      have he := enter_encoded ch w hc
      obtain ⟨cs, h1, h2, h3⟩ := ih (fun x hx => hs x (by simp [hx])) (enter ch w c).1
      refine ⟨c :: cs, fun x hx => ?_, ?_, fun r m r' m' h => ?_⟩
      · rcases List.mem_cons.1 hx with rfl | hx
        · exact sane_encoded hc (hs o (by simp))
        · exact h1 x hx
      · show (serveOctets ch (enterOctets ch w o).1 os).1 = (serve ch (enter ch w c).1 cs).1
        rw [he]; exact h2
      · cases h with
        | call g gs =>
          show OctetSession ch r m (o :: os) ((enterOctets ch w o).2 :: (serveOctets ch (enterOctets ch w o).1 os).2) r' m'
          rw [he]
          exact .call hc g (encodes_octets _) (h3 _ _ _ _ gs)
    · have hc' : ∀ c, ¬ Encodes c o := fun c h => hc ⟨c, h⟩
      have he := enter_noise ch w hc'
      obtain ⟨cs, h1, h2, h3⟩ := ih (fun x hx => hs x (by simp [hx])) w
      refine ⟨cs, h1, ?_, fun r m r' m' h => ?_⟩
      · show (serveOctets ch (enterOctets ch w o).1 os).1 = _
        rw [he]; exact h2
      · show OctetSession ch r m (o :: os) ((enterOctets ch w o).2 :: (serveOctets ch (enterOctets ch w o).1 os).2) r' m'
        rw [he]
        exact .noise hc' (h3 _ _ _ _ h)

/-- C105: the world sends any bytes. The replies are the encodings of the right texts, and at the end all balances are those of the reference exchange. -/
theorem C105_wire {ch : Chain} {w0 : World} (hi : Initial ch w0) {quote base : Denom} (hd : denoms w0.store = .ok (quote, base))
    (hq : DenomText quote) (hb : DenomText base) (calls : List OctetCall) (hc : ∀ c ∈ calls, Spec.OctetCall.Sane c)
    (hn : (serveOctets ch w0 calls).1.HasRoom) :
    ∃ r m, OctetSession ch (Ref.fresh quote base w0.bank) (fun _ _ => ⟨0, 0⟩) calls (serveOctets ch w0 calls).2 r m ∧
      (serveOctets ch w0 calls).1.bank = r.bank := by
  obtain ⟨cs, h1, h2, h3⟩ := decode_calls ch calls hc w0
  rw [h2] at hn
  obtain ⟨r, m, h4, h5⟩ := C101_wire hi hd hq hb cs h1 hn
  exact ⟨r, m, h3 _ _ _ _ h4, by rw [h2]; exact h5⟩

/-- A byte message determines its text. -/
theorem encodes_inj {c c' : Call} {o : OctetCall} (h : Encodes c o) (h' : Encodes c' o) : c = c' := by
  have key : ∀ {t t' : List Char} {b : Bytes}, Utf8 t b → Utf8 t' b → t = t' := fun {t t' b} h h' => (C105_utf8 t b).2.2 t' h h'
  cases o <;> cases c <;> first | exact h.elim | (cases c' <;> first | exact h'.elim | skip)
  · obtain ⟨rfl, rfl, rfl, h⟩ := h
    obtain ⟨rfl, rfl, rfl, h'⟩ := h'
    rw [key h h']
  · obtain ⟨rfl, h⟩ := h
    obtain ⟨rfl, h'⟩ := h'
    rw [key h h']
  · rw [key (show Utf8 _ _ from h) (show Utf8 _ _ from h')]
  · rfl
  · obtain ⟨rfl, rfl⟩ := h
    obtain ⟨rfl, rfl⟩ := h'
    rfl
  · obtain ⟨rfl, rfl, rfl⟩ := h
    obtain ⟨rfl, rfl, rfl⟩ := h'
    rfl

/-- C105: a session in bytes has one outcome only. -/
theorem C105_unique {ch : Chain} {r r1 r2 : Ref} {m m1 m2 : Marks} {calls : List OctetCall} {replies replies' : List OctetReply}
    (h1 : OctetSession ch r m calls replies r1 m1) (h2 : OctetSession ch r m calls replies' r2 m2) : r1 = r2 ∧ m1 = m2 := by
  induction h1 generalizing replies' r2 m2 with
  | done => cases h2; exact ⟨rfl, rfl⟩
  | call ho h hr hs ih =>
    cases h2 with
    | call ho' h' hr' hs' =>
      obtain rfl := encodes_inj ho ho'
      obtain ⟨rfl, rfl⟩ := C101_unique (.call h .done) (.call h' .done)
      exact ih hs'
    | noise ho' _ => exact absurd ho (ho' _)
  | noise ho hs ih =>
    cases h2 with
    | call ho' _ _ _ => exact absurd ho' (ho _)
    | noise _ hs' => exact ih hs'

/-- C105: bytes instantiate the contract exactly as the text they encode does; bytes that are not UTF-8 do not. -/
theorem C105_instantiate (env : Env) (supply : Denom → Nat) (b : Bytes) :
    (∀ t, Utf8 t b → instantiateOctets env supply b = instantiateText env supply t) ∧
    ((∀ t, ¬ Utf8 t b) → instantiateOctets env supply b = .error none) := by
  constructor
  · intro t h
    rw [utf8_iff] at h
    subst h
    unfold instantiateOctets instantiateText
    rw [fromOctets_to]
    cases fromText readInstantiateMsg t with
    | none => rfl
    | some x => rfl
  · intro h
    have : ofOctets b = none := by
      cases e : ofOctets b with
      | none => rfl
      | some t => exact absurd ((C105_utf8 t b).1.1 e) (h t)
    unfold instantiateOctets
    rw [fromOctets_none this]

/-! ### The storage -/

theorem written_orders {s : Store} (h : Written s) : ∀ k o, SMap.get? s.orders k = some o → OrderOk o :=
  fun k o hk => (h.1.orders k o hk).2.2

/-- The bytes of an empty storage with cw2's record. -/
theorem octets_empty (info : Option Bytes) : ∃ R, Enc info (match info with | some _ => Raw.save [] .contractInfo (.nat 0) | none => []) R ∧
    Holds (info.map fun _ => .nat 0) (match info with | some _ => Raw.save [] .contractInfo (.nat 0) | none => []) Store.empty := by
  have h0 : ∀ F : Cell → Option Val, (∀ c, F c = none) → HoldsCells [] F := fun F hF =>
    ⟨List.Pairwise.nil, fun _ _ h => (by cases h), fun c _ => (hF c).symm⟩
  have hnone : ∀ c, Store.empty.cell none c = none := by intro c; cases c <;> rfl
  cases info with
  | none =>
    refine ⟨[], ⟨List.Pairwise.nil, fun _ _ h => (by cases h), fun c _ => ?_⟩, h0 _ hnone⟩
    show none = _
    split_ifs <;> rfl
  | some b =>
    refine ⟨SMap.insert [] (Cell.key .contractInfo) b, ⟨SMap.Sorted.insert List.Pairwise.nil _ _, fun k v h => ?_, fun c hc => ?_⟩, ?_⟩
    · rcases SMap.mem_insert_keys h with e | e
      · exact ⟨.contractInfo, trivial, congrArg Prod.fst e⟩
      · cases e
    · rw [SMap.get?_insert, load_save (c := .contractInfo) (.nat 0) trivial hc]
      by_cases e : c = .contractInfo
      · subst e; simp
      · rw [if_neg fun h => e (Cell.key_inj hc trivial h), if_neg e, if_neg e]; rfl
    · refine ((h0 (fun _ => none) fun _ => rfl).save (c := .contractInfo) trivial (.nat 0)).congr fun c _ => ?_
      by_cases e : c = .contractInfo
      · subst e; rfl
      · rw [if_neg e, cell_other e, hnone]

/-- Bytes for a written state, with the raw storage they go with. -/
theorem Written.octets {s : Store} (h : Written s) (info : Option Bytes) :
    ∃ r R, Holds (info.map fun _ => .nat 0) r s ∧ Enc info r R ∧ StoreOk s := by
  obtain ⟨-, ws, hw, rfl⟩ := h
  obtain ⟨R, h1, h2⟩ := octets_empty info
  have h3 : ∀ k o, SMap.get? Store.empty.orders k = some o → OrderOk o := fun _ _ h => by cases h
  obtain ⟨h4, h5⟩ := writes_holds h2 storeOk_empty ws hw
  exact ⟨_, _, h4, h1.writes h2 storeOk_empty h3 ws hw, h5⟩

/-- C105: after any history there is exactly one byte storage that holds the contract's state (and cw2's record `info`). -/
theorem C105_storage {ch : Chain} {w0 : World} (hi : Initial ch w0) {ops : List Op} (ho : OpsOk ops) (info : Option Bytes) :
    ∃ R, HoldsOctets info R (run ch w0 ops).store ∧ ∀ R', HoldsOctets info R' (run ch w0 ops).store → R' = R := by
  obtain ⟨r, R, h1, h2, -⟩ := (run_written (ch := ch) (initial_written hi) ho).octets info
  exact ⟨R, (enc_iff h1).1 h2, fun R' h' => h'.unique ((enc_iff h1).1 h2)⟩

/-- C105: what is in those bytes: under the key of every cell, the UTF-8 encoding of a JSON text, of the form published for the cell, of its value; and
loading the cell gives back that value. -/
theorem C105_values {ch : Chain} {w0 : World} (hi : Initial ch w0) {ops : List Op} (ho : OpsOk ops) {info : Option Bytes} {R : Octets}
    (hR : HoldsOctets info R (run ch w0 ops).store) {c : Cell} (hc : CellOk c) (hn : c ≠ .contractInfo) :
    R.load c = ((run ch w0 ops).store.cell none c).map some ∧
    ∀ b, SMap.get? R c.key = some b ↔ ∃ v, (run ch w0 ops).store.cell none c = some v ∧ b = c.octets v ∧
      ∃ t j, Utf8 t b ∧ WrittenText t j ∧ CellJ c v j := by
  have hl := hR.load c hc
  simp only [if_neg hn] at hl
  have hs := (run_written (ch := ch) (initial_written hi) ho).1
  constructor
  · unfold Octets.load
    rw [hl]
    cases e : (run ch w0 ops).store.cell none c with
    | none => rfl
    | some v => simp only [Option.map_some, octets_val hs hn e]
  · intro b
    rw [hl, Option.map_eq_some_iff]
    constructor
    · rintro ⟨v, hv, rfl⟩
      have := cell_val hs hn hv
      exact ⟨v, hv, rfl, _, _, utf8_iff.2 rfl, written_of this.1, readVal_iff.1 this.2⟩
    · rintro ⟨v, hv, rfl, -⟩
      exact ⟨v, hv, rfl⟩

/-- C105: a transaction is a sequence of writes and removals of bytes: if the bytes hold the state before it, those after it hold the state after it. -/
theorem C105_transaction {ch : Chain} {w0 : World} (hi : Initial ch w0) {ops : List Op} (ho : OpsOk ops) {info : Option Bytes} {R : Octets}
    (hR : HoldsOctets info R (run ch w0 ops).store) {op : Op} (hop : OpsOk [op]) {w' : World} {resp : Response}
    (hs : step ch (run ch w0 ops) op = .ok (w', resp)) :
    ∃ ws : List Write, (∀ a ∈ ws, a.Ok) ∧ w'.store = ws.foldl Write.apply (run ch w0 ops).store ∧
      HoldsOctets info (ws.foldl Write.octets R) w'.store := by
  have hw := run_written (ch := ch) (initial_written hi) ho
  obtain ⟨ws, h1, h2, -⟩ := step_writes (hop op (by simp)) hw.1 hs
  obtain ⟨r, R', h3, -, h5⟩ := hw.octets info
  have h4 := (enc_iff h3).2 hR
  refine ⟨ws, h1, h2, ?_⟩
  rw [h2]
  exact (enc_iff (writes_holds h3 h5 ws h1).1).1 (h4.writes h3 h5 (written_orders hw) ws h1)

theorem store_ext {s s' : Store} (e1 : s.orderId = s'.orderId) (e2 : s.orderbook = s'.orderbook) (e10 : s.ticks = s'.ticks) (e12 : s.dirLiq = s'.dirLiq)
    (e3 : s.isActive = s'.isActive) (e4 : s.makerFee = s'.makerFee) (e5 : s.makerFeeRecipient = s'.makerFeeRecipient) (e11 : s.orders = s'.orders)
    (e13 : s.trees.nodes = s'.trees.nodes) (e14 : s.trees.roots = s'.trees.roots) (e15 : s.trees.counter = s'.trees.counter) (e6 : s.admin = s'.admin)
    (e7 : s.adminOffer = s'.adminOffer) (e8 : s.moderator = s'.moderator) (e9 : s.moderatorOffer = s'.moderatorOffer) : s = s' := by
  have et : s.trees = s'.trees := by
    cases h : s.trees; cases h' : s'.trees
    simp only [h, h'] at e13 e14 e15
    subst e13 e14 e15; rfl
  cases s; cases s'
  simp only at *
  subst e1 e2 e10 e12 e3 e4 e5 e11 et e6 e7 e8 e9; rfl

/-- C105: the bytes determine the state, all of it: contracts with the same bytes, whatever their histories, are in the same state. -/
theorem C105_determined {ch ch' : Chain} {w0 w1 : World} (h0 : Initial ch w0) (h1 : Initial ch' w1) {ops0 ops1 : List Op} (ho0 : OpsOk ops0)
    (ho1 : OpsOk ops1) {info info' : Option Bytes} {R : Octets} (hR : HoldsOctets info R (run ch w0 ops0).store)
    (hR' : HoldsOctets info' R (run ch' w1 ops1).store) : (run ch w0 ops0).store = (run ch' w1 ops1).store := by
  have hw := run_written (ch := ch) (initial_written h0) ho0
  have hw' := run_written (ch := ch') (initial_written h1) ho1
  obtain ⟨g1, g2, g3, -⟩ := hw.facts none
  obtain ⟨g1', g2', g3', -⟩ := hw'.facts none
  have hcell : ∀ c, c ≠ .contractInfo → (run ch w0 ops0).store.cell none c = (run ch' w1 ops1).store.cell none c := by
    intro c hn
    by_cases hc : CellOk c
    · have e1 := (C105_values h0 ho0 hR hc hn).1
      have e2 := (C105_values h1 ho1 hR' hc hn).1
      rw [e1] at e2
      exact Option.map_injective (Option.some_injective _) e2
    · have a := not_imp_comm.1 (g1 c) hc
      have b := not_imp_comm.1 (g1' c) hc
      rw [a, b]
  generalize (run ch w0 ops0).store = s at *
  generalize (run ch' w1 ops1).store = s' at *
  have inj : ∀ {α : Type} {f : α → Val}, Function.Injective f → ∀ {a b : Option α}, a.map f = b.map f → a = b :=
    fun hf _ _ h => Option.map_injective hf h
  have hnat : Function.Injective Val.nat := fun _ _ h => Val.nat.inj h
  have haddr : Function.Injective Val.addr := fun _ _ h => Val.addr.inj h
  have e1 : s.orderId = s'.orderId := inj hnat (hcell .orderId (by simp))
  have e2 : s.orderbook = s'.orderbook := inj (fun _ _ h => Val.book.inj h) (hcell .orderbook (by simp))
  have e3 : s.isActive = s'.isActive := inj (fun _ _ h => Val.bool.inj h) (hcell .isActive (by simp))
  have e4 : s.makerFee = s'.makerFee := inj hnat (hcell .makerFee (by simp))
  have e5 : s.makerFeeRecipient = s'.makerFeeRecipient := inj haddr (hcell .makerFeeRecipient (by simp))
  have e6 : s.admin = s'.admin := inj haddr (hcell .admin (by simp))
  have e7 : s.adminOffer = s'.adminOffer := inj haddr (hcell .adminOffer (by simp))
  have e8 : s.moderator = s'.moderator := inj haddr (hcell .moderator (by simp))
  have e9 : s.moderatorOffer = s'.moderatorOffer := inj haddr (hcell .moderatorOffer (by simp))
  have e10 : s.ticks = s'.ticks := SMap.Sorted.ext g2 g2' fun t => inj (fun _ _ h => Val.tick.inj h) (hcell (.tick t) (by simp))
  have e11 : s.orders = s'.orders := SMap.Sorted.ext g3 g3' fun k => inj (fun _ _ h => Val.order.inj h) (hcell (.order k) (by simp))
  have e12 : s.dirLiq = s'.dirLiq := funext fun d => inj hnat (hcell (.dirLiq d) (by simp))
  have e13 : s.trees.nodes = s'.trees.nodes := funext fun t => funext fun i => inj (fun _ _ h => Val.node.inj h) (hcell (.node t i) (by simp))
  have e14 : s.trees.roots = s'.trees.roots := funext fun t => funext fun d => inj hnat (hcell (.root t d) (by simp))
  have e15 : s.trees.counter = s'.trees.counter := funext fun t => inj hnat (hcell (.counter t) (by simp))
  exact store_ext e1 e2 e10 e12 e3 e4 e5 e11 e13 e14 e15 e6 e7 e8 e9

/-- C105: iterating over the bytes gives the answers of the typed model: all ticks, the ticks of a market order, the orders of a tick and of an owner. -/
theorem C105_iteration {ch : Chain} {w0 : World} (hi : Initial ch w0) {ops : List Op} (ho : OpsOk ops) {info : Option Bytes} {R : Octets}
    (hR : HoldsOctets info R (run ch w0 ops).store) :
    let s := (run ch w0 ops).store
    (∀ lo up limit, BoundsOk TickOk lo up → R.allTicks lo up limit = some (allTicks s lo up limit)) ∧
    (∀ lo up desc, TickOk lo → TickOk up →
      ∃ l, R.tickRange lo up desc = some l ∧ l.map Prod.fst = tickKeys s lo up desc ∧ ∀ t x, (t, x) ∈ l → SMap.get? s.ticks t = some x) ∧
    (∀ tick lo up limit, TickOk tick → BoundsOk IdOk lo up → R.ordersByTick tick lo up limit = some (ordersByTick s tick lo up limit)) ∧
    (∀ f lo up size, FilterOk f → BoundsOk (fun k : Int × Nat => TickOk k.1 ∧ IdOk k.2) lo up →
      R.getOrdersByOwner f lo up size = getOrdersByOwner s f lo up size) ∧
    (∀ owner lo up size, AddrOk owner → BoundsOk (fun k : Int × Nat => TickOk k.1 ∧ IdOk k.2) lo up →
      R.ordersByOwner owner lo up size = ordersByOwner s owner lo up size) := by
  intro s
  have hw := run_written (ch := ch) (initial_written hi) ho
  obtain ⟨r, R', h3, -, -⟩ := hw.octets info
  have h4 := (enc_iff h3).2 hR
  obtain ⟨q1, q2, q3, q4, q5⟩ := oct_queries h4 h3 (by cases info <;> rfl) hw.1
  obtain ⟨k1, k2, k3, k4, k5⟩ := C70_iteration hi ho h3
  exact ⟨fun lo up limit h => by rw [q1]; exact k1 lo up limit h, fun lo up desc a b => by rw [q2]; exact k2 lo up desc a b,
    fun tick lo up limit a b => by rw [q3]; exact k3 tick lo up limit a b, fun f lo up size a b => by rw [q4]; exact k4 f lo up size a b,
    fun owner lo up size a b => by rw [q5]; exact k5 owner lo up size a b⟩

/-! ### Non-vacuity -/

/-- A call in bytes. -/
def Demo.encode : Call → OctetCall
  | .execute sender funds time t => .execute sender funds time (toOctets t)
  | .sudo time t => .sudo time (toOctets t)
  | .query t => .query (toOctets t)
  | .migrate => .migrate
  | .mint dst c => .mint dst c
  | .transfer src dst c => .transfer src dst c

/-- The texts of the demo in bytes, with three messages that are not UTF-8 in between. -/
def Demo.octets : List OctetCall :=
  [.query [0xFF], .execute "alice" [⟨"q", 5⟩] 1 [0x7B, 0x22, 0xC3, 0x28, 0x22, 0x7D]] ++ Demo.texts.map Demo.encode ++ [.sudo 9 [0xED, 0xA0, 0x80]]

theorem Demo.encodes (c : Call) : Encodes c (Demo.encode c) := by
  cases c with
  | execute => exact ⟨rfl, rfl, rfl, utf8_iff.2 rfl⟩
  | «sudo» => exact ⟨rfl, utf8_iff.2 rfl⟩
  | query => exact utf8_iff.2 rfl
  | migrate => trivial
  | mint => exact ⟨rfl, rfl⟩
  | transfer => exact ⟨rfl, rfl, rfl⟩

theorem Demo.encode_world (ch : Chain) (w : World) (cs : List Call) (more : List OctetCall) :
    (serveOctets ch w (cs.map Demo.encode ++ more)).1 = (serveOctets ch (serve ch w cs).1 more).1 := by
  induction cs generalizing w with
  | nil => rfl
  | cons c cs ih =>
    show (serveOctets ch (enterOctets ch w (Demo.encode c)).1 (cs.map Demo.encode ++ more)).1 = (serveOctets ch (serve ch (enter ch w c).1 cs).1 more).1
    rw [enter_encoded ch w (Demo.encodes c)]
    exact ih _

theorem Demo.octets_world : (serveOctets Demo.ch Demo.w0 Demo.octets).1 = (serve Demo.ch Demo.w0 Demo.texts).1 := by
  have n1 : ofOctets [0xFF] = none := by decide +kernel
  have n2 : ofOctets [0x7B, 0x22, 0xC3, 0x28, 0x22, 0x7D] = none := by decide +kernel
  have n3 : ofOctets [0xED, 0xA0, 0x80] = none := by decide +kernel
  have s1 : ∀ w, (enterOctets Demo.ch w (.query [0xFF])).1 = w := fun w => by simp only [enterOctets, fromOctets_none n1]
  have s2 : ∀ w, (enterOctets Demo.ch w (.execute "alice" [⟨"q", 5⟩] 1 [0x7B, 0x22, 0xC3, 0x28, 0x22, 0x7D])).1 = w := fun w => by
    simp only [enterOctets, fromOctets_none n2]
  have s3 : ∀ w, (enterOctets Demo.ch w (.sudo 9 [0xED, 0xA0, 0x80])).1 = w := fun w => by simp only [enterOctets, fromOctets_none n3]
  unfold Demo.octets
  rw [List.append_assoc, List.cons_append, List.cons_append, List.nil_append]
  simp only [serveOctets, s1, s2, Demo.encode_world, s3]

/-- A reply in bytes, shortened for display. -/
def Demo.shortOctets : OctetReply → String × List (String × String) × Option String
  | .response raw _ data => ("response", raw.attributes, data.bind fun b => (ofOctets b).map String.ofList)
  | .answer b => ("answer", [], (ofOctets b).map String.ofList)
  | .refusal t => ("refusal", [], t.map String.ofList)

example : (serveOctets Demo.ch Demo.w0 Demo.octets).2.map Demo.shortOctets = [
    ("refusal", [], none), ("refusal", [], none),
    ("response", [("method", "placeLimit"), ("owner", "alice"), ("tick_id", "0"), ("order_id", "0"), ("order_direction", "bid"), ("quantity", "1000"),
      ("order_denom", "q"), ("output_denom", "b")], none),
    ("refusal", [], none), ("answer", [], some "true"),
    ("response", [("method", "swapExactAmountIn"), ("sender", "bob"), ("token_in", "400b"), ("token_out_denom", "q"), ("token_out_min_amount", "1"),
      ("output_quantity", "400")], some "{\"token_out_amount\":\"400\"}"),
    ("refusal", [], some "Invalid tick ID: 999999999"), ("refusal", [], some "Invalid tick ID: 3"),
    ("answer", [], some "{\"quote_denom\":\"q\",\"base_denom\":\"b\"}"), ("refusal", [], none)] := by
  decide +kernel

/-- The hypotheses of `C105_wire` hold for these bytes. -/
example : ∃ r m, OctetSession Demo.ch (Ref.fresh "q" "b" Demo.w0.bank) (fun _ _ => ⟨0, 0⟩) Demo.octets (serveOctets Demo.ch Demo.w0 Demo.octets).2 r m ∧
    (serveOctets Demo.ch Demo.w0 Demo.octets).1.bank = r.bank :=
  C105_wire Demo.initial rfl (by simp [DenomText]) (by simp [DenomText]) Demo.octets
    (by simp [Demo.octets, Demo.texts, Demo.encode, Spec.OctetCall.Sane, AddrOk, IdOk]; decide +kernel)
    (by
      rw [Demo.octets_world, serve_world]; exact (C72_room Demo.initial _).2.1 (by decide +kernel))

/-- The byte storage of the demo exists. Its orders for dave, its ticks, the bytes under `is_active` and dave's order in bytes. -/
example : ∃ R, HoldsOctets (some [0x7B, 0x7D]) R (run Demo.ch Demo.w0 Demo.longer).store ∧ SMap.get? R (Cell.key .contractInfo) = some [0x7B, 0x7D] ∧
    R.getOrdersByOwner (.all "dave") none none none = [⟨0, 3, .bid, "dave", 40000, 260000 * 10 ^ 18, some (10 ^ 16), 100000, 7⟩] ∧
    (R.allTicks none none none).map (List.map Prod.fst) = some [-5000000, 0, 10] ∧
    SMap.get? R (strBytes "is_active") = none ∧ R.load .isActive = none ∧
    SMap.get? R (Cell.key (.order (0, 3))) = some (strBytes ("{\"tick_id\":0,\"order_id\":3,\"order_direction\":\"bid\",\"owner\":\"dave\"," ++
      "\"quantity\":\"40000\",\"etas\":\"260000\",\"claim_bounty\":\"0.01\",\"placed_quantity\":\"100000\",\"placed_at\":\"7\"}")) ∧
    SMap.get? R (Cell.key (.ownerIdx "dave" (0, 3))) = some (strBytes "18") := by
  obtain ⟨R, hR, -⟩ := C105_storage Demo.initial Demo.opsOk (some [0x7B, 0x7D])
  refine ⟨R, hR, by rw [hR.load .contractInfo trivial, if_pos rfl], ?_, ?_, ?_, ?_, ?_, ?_⟩
  · rw [(C105_iteration Demo.initial Demo.opsOk hR).2.2.2.1 (.all "dave") none none none (by show _ < _; decide)
      ⟨fun _ h => (by cases h), fun _ h => (by cases h)⟩]
    decide +kernel
  · rw [(C105_iteration Demo.initial Demo.opsOk hR).1 none none none ⟨fun _ h => (by cases h), fun _ h => (by cases h)⟩]
    decide +kernel
  · rw [show strBytes "is_active" = Cell.key .isActive from rfl, hR.load .isActive trivial, if_neg (by simp)]
    decide +kernel
  · rw [(C105_values Demo.initial Demo.opsOk hR (c := .isActive) trivial (by simp)).1]
    decide +kernel
  · rw [hR.load (.order (0, 3)) (by simp [CellOk, TickOk, IdOk]), if_neg (by simp)]
    decide +kernel
  · rw [hR.load (.ownerIdx "dave" (0, 3)) (by simp [CellOk, TickOk, IdOk, AddrOk]; decide +kernel), if_neg (by simp)]
    decide +kernel

/-- Non-vacuity: bytes written by hand: an order saved twice under different owners (the index entry of the old owner is gone). -/
example :
    let o : LimitOrder := ⟨-3, 1, .bid, "alice", 5, 0, none, 5, 0⟩
    let r := [Write.saveOrder (-3, 1) o, .saveOrder (-3, 1) { o with owner := "bob" }, .saveOrder (2, 0) { o with tickId := 2, orderId := 0, owner := "bob" }].foldl
      Write.octets ([] : Octets)
    r.length = 6 ∧ r.getOrdersByOwner (.all "alice") none none none = [] ∧
      (r.getOrdersByOwner (.all "bob") none none none).map (·.tickId) = [-3, 2] ∧
      (r.getOrdersByOwner (.byTick 2 "bob") none none none).map (·.orderId) = [0] := by decide +kernel

/-- UTF-8: two characters outside ASCII; an overlong encoding, a surrogate and a lone continuation byte are no texts. -/
example : toOctets ['a', 'é', '🦀'] = [0x61, 0xC3, 0xA9, 0xF0, 0x9F, 0xA6, 0x80] ∧ ofOctets [0xC3, 0xA9] = some ['é'] ∧ ofOctets [0xC0, 0xAF] = none ∧
    ofOctets [0xED, 0xA0, 0x80] = none ∧ ofOctets [0x80] = none := by decide +kernel

end OB
