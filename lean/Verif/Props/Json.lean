import Verif.Proofs.JsonDepth
import Verif.Proofs.AuthObs
import Verif.Proofs.SwapObs
import Verif.Proofs.Engine
/- C81-C83: the JSON texts of messages, of stored values and of answers. -/
namespace OB
open Spec Json

/-! ### C81: messages -/

/-- C81: the text of a message is read back as that message, for every message a client can build (numbers of their Rust types). -/
theorem C81_messages :
    (∀ m : ExecuteMsg, m.wellTyped = true → fromText readExecuteMsg m.json.text = some m) ∧
    (∀ m : SudoMsg, m.wellTyped = true → fromText readSudoMsg m.json.text = some m) ∧
    (∀ m : QueryMsg, m.wellTyped = true → fromText readQueryMsg m.json.text = some m) ∧
    (∀ base quote, fromText readInstantiateMsg (instantiateJson base quote).text = some (base, quote)) :=
  ⟨fun m h => fromText_of (within_executeMsg m) (read_executeMsg h), fun m h => fromText_of (within_sudoMsg m) (read_sudoMsg h),
    fun m h => fromText_of (within_queryMsg m) (read_queryMsg h), fun b q => fromText_of (within_instantiate b q) (read_instantiate b q)⟩

/-- C81: whatever text is accepted, the message it is read as has numbers of their Rust types: the contract never sees another one. -/
theorem C81_typed {t : List Char} :
    (∀ m, fromText readExecuteMsg t = some m → m.wellTyped = true) ∧ (∀ m, fromText readSudoMsg t = some m → m.wellTyped = true) ∧
    (∀ m, fromText readQueryMsg t = some m → m.wellTyped = true) := by
  refine ⟨fun m h => ?_, fun m h => ?_, fun m h => ?_⟩ <;>
    (unfold fromText at h; rw [Option.bind_eq_some_iff] at h; obtain ⟨j, -, h⟩ := h)
  · exact executeMsg_range h
  · exact sudoMsg_range h
  · exact queryMsg_range h

theorem lookup_perm {l l' : List (String × Json)} (h : l.Perm l') (hn : (l.map Prod.fst).Nodup) (k : String) : l.lookup k = l'.lookup k := by
  induction h with
  | nil => rfl
  | cons x _ ih =>
    obtain ⟨a, b⟩ := x
    rw [List.lookup_cons, List.lookup_cons, ih (by simpa using (List.nodup_cons.1 hn).2)]
  | swap x y l =>
    obtain ⟨a, b⟩ := x
    obtain ⟨c, d⟩ := y
    have hne : c ≠ a := by
      intro e
      subst e
      simp at hn
    simp only [List.lookup_cons]
    by_cases h1 : (k == c) = true
    · by_cases h2 : (k == a) = true
      · exact absurd ((eq_of_beq h1).symm.trans (eq_of_beq h2)) hne
      · simp [h1, h2]
    · simp [h1]
  | trans h1 _ ih1 ih2 => rw [ih1 hn, ih2 ((h1.map Prod.fst).nodup_iff.1 hn)]

theorem fields_perm {names : List String} {l l' : List (String × Json)} (h : l.Perm l') : fields names (.obj l) = fields names (.obj l') := by
  have h1 : (l.map Prod.fst).all (· ∈ names) = (l'.map Prod.fst).all (· ∈ names) := by
    rw [Bool.eq_iff_iff]
    simp only [List.all_eq_true]
    exact forall_congr' fun x => by rw [(h.map Prod.fst).mem_iff]
  have h2 := (h.map Prod.fst).nodup_iff
  unfold fields
  simp only [h1, h2]
  split_ifs with hc
  · congr 1
    funext k
    exact lookup_perm h (h2.2 hc.2) k
  · rfl

theorem variant_perm {l l' : List (String × Json)} (h : l.Perm l') : variant (.obj l) = variant (.obj l') := by
  match l, h with
  | [], h => rw [List.nil_perm.1 h]
  | [x], h => rw [List.singleton_perm.1 h]
  | x :: y :: l, h =>
    have hlen := h.length_eq
    match l', hlen with
    | x' :: y' :: l', _ => rfl

theorem enum_perm {α : Type} {table : List (String × (Json → Option α))} {k : String} {l l' : List (String × Json)} (h : l.Perm l')
    (ht : ∀ e ∈ table, e.2 (.obj l) = e.2 (.obj l')) : readEnum table (.obj [(k, .obj l)]) = readEnum table (.obj [(k, .obj l')]) := by
  simp only [readEnum, variant, Option.bind_some]
  cases hl : table.lookup k with
  | none => rfl
  | some rd => exact ht _ (lookup_mem hl)

theorem readAuth_perm {l l' : List (String × Json)} (h : l.Perm l') : readAuthMsg (.obj l) = readAuthMsg (.obj l') := by
  unfold readAuthMsg readEnum
  rw [variant_perm h]

theorem readAuthQuery_perm {l l' : List (String × Json)} (h : l.Perm l') : readAuthQueryMsg (.obj l) = readAuthQueryMsg (.obj l') := by
  unfold readAuthQueryMsg readEnum
  rw [variant_perm h]

/-- C81: the order of a message's fields does not matter. -/
theorem C81_field_order {l l' : List (String × Json)} (h : l.Perm l') (k : String) :
    readExecuteMsg (.obj [(k, .obj l)]) = readExecuteMsg (.obj [(k, .obj l')]) ∧
    readSudoMsg (.obj [(k, .obj l)]) = readSudoMsg (.obj [(k, .obj l')]) ∧
    readQueryMsg (.obj [(k, .obj l)]) = readQueryMsg (.obj [(k, .obj l')]) := by
  refine ⟨enum_perm h ?_, enum_perm h ?_, enum_perm h ?_⟩ <;>
    simp only [List.forall_mem_cons, List.not_mem_nil, false_imp_iff, implies_true, and_true, unit, fields_perm h, readAuth_perm h,
      readAuthQuery_perm h]

theorem fields_inv {names : List String} {v : Json} {f : String → Option Json} (h : fields names v = some f) :
    ∃ l, v = .obj l ∧ (l.map Prod.fst).Nodup ∧ ∀ k ∈ l.map Prod.fst, k ∈ names := by
  unfold fields at h
  split at h
  · next l =>
    split_ifs at h with hc
    exact ⟨l, rfl, hc.2, fun k hk => of_decide_eq_true (List.all_eq_true.1 hc.1 k hk)⟩
  · cases h

/-- The field names of an accepted object: no repetition, and none that the message's own text `c` does not have. -/
def Strict (k : String) (v c : Json) : Prop :=
  ∃ l l0, v = .obj l ∧ c = .obj [(k, .obj l0)] ∧ (l.map Prod.fst).Nodup ∧ ∀ x ∈ l.map Prod.fst, x ∈ l0.map Prod.fst

theorem strict_of {names : List String} {k : String} {v : Json} {f : String → Option Json} (h : fields names v = some f)
    {l0 : List (String × Json)} (h0 : l0.map Prod.fst = names) : Strict k v (.obj [(k, .obj l0)]) := by
  obtain ⟨l, h1, h2, h3⟩ := fields_inv h
  exact ⟨l, l0, h1, rfl, h2, fun x hx => h0 ▸ h3 x hx⟩

theorem strict_unit {α : Type} {a : α} {k : String} {v : Json} {m : α} {w : α → Json} (hw : w a = .obj [(k, .obj [])]) (h : unit a v = some m) :
    Strict k v (w m) := by
  unfold unit at h
  rw [Option.map_eq_some_iff] at h
  obtain ⟨f, hf, rfl⟩ := h
  rw [hw]
  exact strict_of hf rfl

theorem enum_at {α : Type} {table : List (String × (Json → Option α))} {P : String → Json → α → Prop} {j : Json} {m : α}
    (ht : ∀ e ∈ table, ∀ v m, e.2 v = some m → P e.1 v m) (h : readEnum table j = some m) : ∃ k v, j = .obj [(k, v)] ∧ P k v m := by
  unfold readEnum at h
  simp only [Option.bind_eq_some_iff] at h
  obtain ⟨⟨k, v⟩, hv, rd, hr, h⟩ := h
  unfold variant at hv
  split at hv
  · cases hv
    exact ⟨k, v, rfl, ht _ (lookup_mem hr) v m h⟩
  · cases hv

theorem auth_strict {v : Json} {m : AuthMsg} (h : readAuthMsg v = some m) : ∃ k l l0, v = .obj [(k, .obj l)] ∧ m.json = .obj [(k, .obj l0)] ∧
    (l.map Prod.fst).Nodup ∧ ∀ x ∈ l.map Prod.fst, x ∈ l0.map Prod.fst := by
  obtain ⟨k, v', rfl, l, l0, rfl, h2, h3, h4⟩ := enum_at (P := fun k v (m : AuthMsg) => Strict k v m.json) (by
    simp only [List.forall_mem_cons, List.not_mem_nil, false_imp_iff, implies_true, and_true, Option.bind_eq_bind, Option.bind_eq_some_iff,
      Option.some.injEq]
    refine ⟨?_, fun v m => strict_unit rfl, fun v m => strict_unit rfl, fun v m => strict_unit rfl, fun v m => strict_unit rfl, ?_,
      fun v m => strict_unit rfl, fun v m => strict_unit rfl, ?_, ?_, ?_⟩ <;>
    · rintro v m ⟨f, hf, a, -, rfl⟩
      exact strict_of hf rfl) h
  exact ⟨k, l, l0, rfl, h2, h3, h4⟩

/-- C81: nothing is ignored: an accepted text has one variant, and in it (for the administrative messages: in the message inside) no field
twice and no field that the message's own text does not have. -/
theorem C81_strict_execute {j : Json} {m : ExecuteMsg} (h : readExecuteMsg j = some m) :
    ∃ k v, j = .obj [(k, v)] ∧ Strict k v m.json ∧ ∀ a, m = .auth a → ∃ k' v', v = .obj [(k', v')] ∧ Strict k' v' a.json := by
  refine enum_at (P := fun k v (m : ExecuteMsg) => Strict k v m.json ∧ ∀ a, m = .auth a → ∃ k' v', v = .obj [(k', v')] ∧ Strict k' v' a.json) ?_ h
  simp only [List.forall_mem_cons, List.not_mem_nil, false_imp_iff, implies_true, and_true, Option.bind_eq_bind, Option.bind_eq_some_iff,
    Option.some.injEq, Option.map_eq_some_iff]
  refine ⟨?_, ?_, ?_, ?_, ?_⟩
  · rintro v m ⟨f, hf, a, -, b, -, c, -, d, -, rfl⟩
    exact ⟨strict_of hf rfl, fun _ hh => by cases hh⟩
  · rintro v m ⟨f, hf, a, -, b, -, rfl⟩
    exact ⟨strict_of hf rfl, fun _ hh => by cases hh⟩
  · rintro v m ⟨f, hf, a, -, b, -, rfl⟩
    exact ⟨strict_of hf rfl, fun _ hh => by cases hh⟩
  · rintro v m ⟨f, hf, a, -, rfl⟩
    exact ⟨strict_of hf rfl, fun _ hh => by cases hh⟩
  · rintro v m ⟨a, ha, rfl⟩
    obtain ⟨k', l, l0, rfl, h2, h3, h4⟩ := auth_strict ha
    refine ⟨⟨[(k', .obj l)], [(k', .obj l0)], rfl, ?_, by simp, by simp⟩, ?_⟩
    · simp only [ExecuteMsg.json, h2]
    · intro a' ha'
      cases ha'
      exact ⟨k', .obj l, rfl, l, l0, rfl, h2, h3, h4⟩

/-- C81: the same for the chain's calls. -/
theorem C81_strict_sudo {j : Json} {m : SudoMsg} (h : readSudoMsg j = some m) : ∃ k v, j = .obj [(k, v)] ∧ Strict k v m.json := by
  refine enum_at (P := fun k v (m : SudoMsg) => Strict k v m.json) ?_ h
  simp only [List.forall_mem_cons, List.not_mem_nil, false_imp_iff, implies_true, and_true, Option.bind_eq_bind, Option.bind_eq_some_iff,
    Option.some.injEq]
  refine ⟨?_, ?_, ?_, ?_, fun v m => strict_unit rfl, ?_⟩
  · rintro v m ⟨f, hf, a, -, b, -, c, -, d, -, e, -, rfl⟩; exact strict_of hf rfl
  · rintro v m ⟨f, hf, a, -, b, -, c, -, d, -, e, -, t, -, rfl⟩; exact strict_of hf rfl
  · rintro v m ⟨f, hf, a, -, b, -, c, -, d, -, e, -, rfl⟩; exact strict_of hf rfl
  · rintro v m ⟨f, hf, a, -, rfl⟩; exact strict_of hf rfl
  · rintro v m ⟨f, hf, a, -, rfl⟩; exact strict_of hf rfl

theorem authQuery_strict {v : Json} {m : AuthQueryMsg} (h : readAuthQueryMsg v = some m) : ∃ k, v = .obj [(k, .obj [])] ∧ m.json = v := by
  obtain ⟨k, v', rfl, hs⟩ := enum_at (P := fun k v (m : AuthQueryMsg) => Strict k v m.json ∧ m.json = .obj [(k, .obj [])]) (by
    simp only [List.forall_mem_cons, List.not_mem_nil, false_imp_iff, implies_true, and_true]
    refine ⟨fun v m hm => ?_, fun v m hm => ?_, fun v m hm => ?_, fun v m hm => ?_⟩ <;>
    · refine ⟨strict_unit (w := AuthQueryMsg.json) rfl hm, ?_⟩
      unfold unit at hm
      rw [Option.map_eq_some_iff] at hm
      obtain ⟨_, _, rfl⟩ := hm
      rfl) h
  obtain ⟨⟨l, l0, rfl, h2, -, h4⟩, h5⟩ := hs
  rw [h5] at h2
  simp only [obj.injEq, List.cons.injEq, Prod.mk.injEq, and_true, true_and] at h2
  subst h2
  match l, h4 with
  | [], _ => exact ⟨k, rfl, h5⟩
  | x :: l, h4 => exact absurd (h4 x.1 (by simp)) (by simp)

/-- C81: the same for queries (the name of the variant of an `auth` query counts as a field). -/
theorem C81_strict_query {j : Json} {m : QueryMsg} (h : readQueryMsg j = some m) : ∃ k v, j = .obj [(k, v)] ∧ Strict k v m.json := by
  refine enum_at (P := fun k v (m : QueryMsg) => Strict k v m.json) ?_ h
  simp only [List.forall_mem_cons, List.not_mem_nil, false_imp_iff, implies_true, and_true, Option.bind_eq_bind, Option.bind_eq_some_iff,
    Option.some.injEq, Option.map_eq_some_iff]
  refine ⟨?_, ?_, ?_, fun v m => strict_unit rfl, fun v m => strict_unit rfl, fun v m => strict_unit rfl, ?_, fun v m => strict_unit rfl, ?_,
    fun v m => strict_unit rfl, ?_, ?_, fun v m => strict_unit rfl, fun v m => strict_unit rfl, ?_, ?_⟩
  · rintro v m ⟨f, hf, a, -, b, -, rfl⟩; exact strict_of hf rfl
  · rintro v m ⟨f, hf, a, -, b, -, c, -, rfl⟩; exact strict_of hf rfl
  · rintro v m ⟨f, hf, a, -, b, -, c, -, rfl⟩; exact strict_of hf rfl
  · rintro v m ⟨f, hf, a, -, b, -, c, -, rfl⟩; exact strict_of hf rfl
  · rintro v m ⟨a, ha, rfl⟩
    obtain ⟨k, rfl, hk⟩ := authQuery_strict ha
    exact ⟨[(k, .obj [])], [(k, .obj [])], rfl, by simp only [QueryMsg.json, hk], by simp, by simp⟩
  · rintro v m ⟨f, hf, a, -, b, -, c, -, d, -, rfl⟩; exact strict_of hf rfl
  · rintro v m ⟨f, hf, a, -, b, -, c, -, d, -, rfl⟩; exact strict_of hf rfl
  · rintro v m ⟨f, hf, a, -, rfl⟩; exact strict_of hf rfl
  · rintro v m ⟨f, hf, a, -, rfl⟩; exact strict_of hf rfl

/-! The messages of contracts/sumtree-orderbook/README.md:45-53, 107-117, 182-191 as printed there; fields in another order, one left out;
an unknown field, a repeated one and a number too large are refused. -/

example : fromText readExecuteMsg "{
  \"place_limit\": {
    \"tick_id\": 1000000,
    \"order_direction\": \"ask\",
    \"quantity\": \"1000000\",
    \"claim_bounty\": \"0.0001\"
  }
}".toList = some (.placeLimit 1000000 .ask 1000000 (some (10 ^ 14))) := by decide +kernel

example : fromText readExecuteMsg "{
  \"batch_claim\": {
    \"orders\": [
      [1000000, 0],
      [1000000, 1],
      [1500, 2]
    ]
  }
}".toList = some (.batchClaim [(1000000, 0), (1000000, 1), (1500, 2)]) := by decide +kernel

example : fromText readQueryMsg "{
  \"orders_by_owner\": {
    \"owner\": \"osmo1....\",
    \"start_from\": [1000000, 0],
    \"end_at\": null,
    \"limit\": 4
  }
}".toList = some (.ordersByOwner "osmo1...." (some (1000000, 0)) none (some 4)) := by decide +kernel

example : fromText readExecuteMsg "{\"place_limit\":{\"quantity\":\"5\",\"order_direction\":\"bid\",\"tick_id\":-7}}".toList =
    some (.placeLimit (-7) .bid 5 none) := by decide +kernel
example : fromText readExecuteMsg "{\"cancel_limit\":{\"tick_id\":1,\"order_id\":2,\"owner\":\"x\"}}".toList = none := by decide +kernel
example : fromText readExecuteMsg "{\"cancel_limit\":{\"tick_id\":1,\"order_id\":2,\"tick_id\":1}}".toList = none := by decide +kernel
example : fromText readExecuteMsg "{\"cancel_limit\":{\"tick_id\":9223372036854775808,\"order_id\":2}}".toList = none := by decide +kernel
example : (ExecuteMsg.cancelLimit (-9223372036854775808) 2).json.text =
    "{\"cancel_limit\":{\"tick_id\":-9223372036854775808,\"order_id\":2}}".toList := by decide +kernel
example : (ExecuteMsg.auth (.transferAdmin "a\"\\\n")).json.text = "{\"auth\":{\"transfer_admin\":{\"new_admin\":\"a\\\"\\\\\\n\"}}}".toList := by
  decide +kernel
example : (ExecuteMsg.placeLimit 1000000 .ask 1000000 (some (10 ^ 14))).wellTyped = true := by decide +kernel

/-! ### C82: stored values -/

theorem cell_val {s : Store} (hs : StOk s) {c : Cell} (hc : c ≠ .contractInfo) {v : Val} (h : s.cell none c = some v) :
    Within 10 (c.json v) ∧ c.readVal (c.json v) = some v := by
  have lift : ∀ {α : Type} {o : Option α} {f : α → Val} {v : Val}, o.map f = some v → ∃ a, o = some a ∧ f a = v := by
    intro α o f v h
    simpa only [Option.map_eq_some_iff] using h
  cases c with
  | contractInfo => exact absurd rfl hc
  | orderId =>
    obtain ⟨a, ha, rfl⟩ := lift h
    exact ⟨trivial, by simp only [Cell.readVal, Cell.json, read_nat (b := U64) (hs.orderId a ha), Option.map_some]⟩
  | orderbook =>
    obtain ⟨a, ha, rfl⟩ := lift h
    exact ⟨(within_orderbook a).mono (by omega), by simp only [Cell.readVal, Cell.json, read_orderbook (hs.book a ha), Option.map_some]⟩
  | isActive => obtain ⟨a, ha, rfl⟩ := lift h; exact ⟨trivial, rfl⟩
  | makerFee =>
    obtain ⟨a, ha, rfl⟩ := lift h
    exact ⟨trivial, by simp only [Cell.readVal, Cell.json, read_dec256 (hs.fee a ha), Option.map_some]⟩
  | makerFeeRecipient => obtain ⟨a, ha, rfl⟩ := lift h; exact ⟨trivial, rfl⟩
  | admin => obtain ⟨a, ha, rfl⟩ := lift h; exact ⟨trivial, rfl⟩
  | adminOffer => obtain ⟨a, ha, rfl⟩ := lift h; exact ⟨trivial, rfl⟩
  | moderator => obtain ⟨a, ha, rfl⟩ := lift h; exact ⟨trivial, rfl⟩
  | moderatorOffer => obtain ⟨a, ha, rfl⟩ := lift h; exact ⟨trivial, rfl⟩
  | tick t =>
    obtain ⟨a, ha, rfl⟩ := lift h
    exact ⟨(within_tickState a).mono (by omega), by simp only [Cell.readVal, Cell.json, read_tickState (hs.ticks t a ha).2, Option.map_some]⟩
  | dirLiq d =>
    obtain ⟨a, ha, rfl⟩ := lift h
    exact ⟨trivial, by simp only [Cell.readVal, Cell.json, read_dec256 (hs.liq d a ha), Option.map_some]⟩
  | order k =>
    obtain ⟨a, ha, rfl⟩ := lift h
    exact ⟨(within_limitOrder a).mono (by omega), by simp only [Cell.readVal, Cell.json, read_limitOrder (hs.orders k a ha).2.2, Option.map_some]⟩
  | ownerIdx a k =>
    have : v = .pkLen 18 := by
      simp only [Store.cell] at h
      split at h
      · split_ifs at h; cases h; rw [pkBytes_length]
      · cases h
    subst this
    exact ⟨trivial, rfl⟩
  | tickOwnerIdx t a k =>
    have : v = .pkLen 18 := by
      simp only [Store.cell] at h
      split at h
      · split_ifs at h; cases h; rw [pkBytes_length]
      · cases h
    subst this
    exact ⟨trivial, rfl⟩
  | node t i =>
    obtain ⟨a, ha, rfl⟩ := lift h
    exact ⟨(within_treeNode a).mono (by omega), by simp only [Cell.readVal, Cell.json, read_treeNode (hs.trees.nodes t i a ha), Option.map_some]⟩
  | root t d =>
    obtain ⟨a, ha, rfl⟩ := lift h
    exact ⟨trivial, by simp only [Cell.readVal, Cell.json, read_nat (b := U64) (hs.trees.roots t d a ha), Option.map_some]⟩
  | counter t =>
    obtain ⟨a, ha, rfl⟩ := lift h
    exact ⟨trivial, by simp only [Cell.readVal, Cell.json, read_nat (b := U64) (hs.trees.counter t a ha), Option.map_some]⟩

/-- C82: after any history, every value the contract has written is read back as it was: the text in a cell decodes, by the type the
cell is declared with, to the value that was saved. No operation fails because of a value that does not fit its type. -/
theorem C82_values {ch : Chain} {w0 : World} (hi : Initial ch w0) {ops : List Op} (ho : OpsOk ops) {c : Cell} (hc : c ≠ .contractInfo) {v : Val}
    (h : (run ch w0 ops).store.cell none c = some v) : fromText c.readVal (c.json v).text = some v :=
  have := cell_val (run_written (ch := ch) (initial_written hi) ho).1 hc h
  fromText_of this.1 this.2

/-- What a cell holds as text. -/
def cellText (s : Store) (c : Cell) : Option (List Char) := (s.cell none c).map fun v => (c.json v).text

/-- C82: the storage as keys and texts: after any history there is a map from byte strings to texts that holds the contract's state (and
cw2's record `info`), with nothing else in it, and loading a cell by its key and its type gives the cell's value. -/
theorem C82_storage {ch : Chain} {w0 : World} (hi : Initial ch w0) {ops : List Op} (ho : OpsOk ops) (info : Option (List Char)) :
    ∃ R : Bytes → Option (List Char), R (Cell.key .contractInfo) = info ∧
      (∀ c, CellOk c → c ≠ .contractInfo → (R c.key).map (fromText c.readVal) = ((run ch w0 ops).store.cell none c).map some) ∧
      ∀ k, (∀ c, CellOk c → c.key ≠ k) → R k = none := by
  classical
  let s := (run ch w0 ops).store
  let F : Cell → Option (List Char) := fun c => if c = .contractInfo then info else cellText s c
  have hR : ∀ c, CellOk c → (if h : ∃ c', CellOk c' ∧ c'.key = c.key then F h.choose else none) = F c := by
    intro c hc
    have h : ∃ c', CellOk c' ∧ c'.key = c.key := ⟨c, hc, rfl⟩
    rw [dif_pos h]
    exact congrArg F (Cell.key_inj h.choose_spec.1 hc h.choose_spec.2)
  refine ⟨fun k => if h : ∃ c, CellOk c ∧ c.key = k then F h.choose else none, ?_, ?_, ?_⟩
  · exact (hR .contractInfo trivial).trans (if_pos rfl)
  · intro c hc hne
    have e : (if h : ∃ c', CellOk c' ∧ c'.key = c.key then F h.choose else none) = cellText s c := (hR c hc).trans (if_neg hne)
    show Option.map _ (if h : ∃ c', CellOk c' ∧ c'.key = c.key then F h.choose else none) = _
    rw [e]
    show ((s.cell none c).map _).map _ = (s.cell none c).map some
    cases hv : s.cell none c with
    | none => rfl
    | some v => simp only [Option.map_some, C82_values hi ho hne hv]
  · intro k hk
    exact dif_neg fun ⟨c, h1, h2⟩ => hk c h1 h2

/-- C82: the texts determine the state: two states (of any histories) with the same texts have the same contents. -/
theorem C82_determined {ch : Chain} {w0 w1 : World} (h0 : Initial ch w0) (h1 : Initial ch w1) {ops0 ops1 : List Op} (ho0 : OpsOk ops0)
    (ho1 : OpsOk ops1) (h : ∀ c, c ≠ .contractInfo → cellText (run ch w0 ops0).store c = cellText (run ch w1 ops1).store c) (c : Cell) :
    (run ch w0 ops0).store.cell none c = (run ch w1 ops1).store.cell none c := by
  by_cases hc : c = .contractInfo
  · subst hc; rfl
  have := h c hc
  unfold cellText at this
  cases e0 : (run ch w0 ops0).store.cell none c with
  | none =>
    rw [e0] at this
    cases e1 : (run ch w1 ops1).store.cell none c with
    | none => rfl
    | some v => rw [e1] at this; cases this
  | some v =>
    rw [e0] at this
    cases e1 : (run ch w1 ops1).store.cell none c with
    | none => rw [e1] at this; cases this
    | some v' =>
      rw [e1] at this
      have h2 := C82_values h0 ho0 hc e0
      have this' : (c.json v).text = (c.json v').text := Option.some.inj this
      rw [this', C82_values h1 ho1 hc e1] at h2
      exact h2.symm

/-- Non-vacuity: the text of dave's order after the demo history. -/
example : cellText (run Demo.ch Demo.w0 Demo.longer).store (.order (0, 3)) =
    some ("{\"tick_id\":0,\"order_id\":3,\"order_direction\":\"bid\",\"owner\":\"dave\",\"quantity\":\"40000\",\"etas\":\"260000\"," ++
      "\"claim_bounty\":\"0.01\",\"placed_quantity\":\"100000\",\"placed_at\":\"7\"}").toList := by decide +kernel

/-! ### C83: answers -/

/-- No more orders than ids have been given out. -/
theorem orders_length {ch : Chain} {w : World} (hw : Reachable ch w) : w.store.orders.length ≤ w.store.orderId.getD 0 := by
  obtain ⟨n, hn⟩ := id hw
  obtain ⟨b, hb⟩ := hn.traced
  have hr := hb.rel
  have hget : ∀ p ∈ w.store.orders, SMap.get? w.store.orders p.1 = some p.2 := fun p hp => SMap.Sorted.get? hr.ordersSorted hp
  have hnd : (w.store.orders.map fun p => p.1.2).Nodup := by
    have hkeys : (w.store.orders.map Prod.fst).Nodup := SMap.Sorted.keys_nodup hr.ordersSorted
    rw [List.nodup_map_iff_inj_on (List.Nodup.of_map _ hkeys)]
    rintro ⟨⟨t, i⟩, o⟩ h1 ⟨⟨t', i'⟩, o'⟩ h2 he
    simp only at he
    subst he
    obtain ⟨rfl, rfl⟩ := C06_unique_ids hw (hget _ h1) (hget _ h2)
    rfl
  have hsub : (w.store.orders.map fun p => p.1.2) ⊆ List.range (w.store.orderId.getD 0) := by
    intro i hi
    obtain ⟨p, hp, rfl⟩ := List.mem_map.1 hi
    obtain ⟨dir, p', x, q, h1, h2, h3, h4⟩ := (hr.orders _ _ _).1 (hget p hp)
    have := hr.ids.lt _ dir x (by rw [h1]; simp)
    rw [List.mem_range, ← show x.id = p.1.2 from h3]
    exact this
  have := (List.subperm_of_subset hnd hsub).length_le
  simpa using this

theorem readUint_lt {b n : Nat} {t : List Char} (h : readUint b t = some n) : n < b :=
  uint_range (j := .str (String.ofList t)) (by unfold readUintStr; simpa using h)

theorem readDecimal_lt {b n : Nat} {t : List Char} (h : readDecimal b t = some n) : n < b :=
  dec_range (j := .str (String.ofList t)) (by unfold readDec; simpa using h)

theorem calcOut_ok {s : Store} {c x : Coin} {o : Denom} {fee : Nat} (h : calcOutAmountGivenIn s c o fee = .ok x) : x.amount < U128 := by
  unfold calcOutAmountGivenIn at h
  rw [Except.bind_eq_ok'] at h
  obtain ⟨_, -, h⟩ := h
  split at h
  · cases h
  · rw [Except.bind_eq_ok'] at h
    obtain ⟨dir, -, h⟩ := h
    rw [Except.bind_eq_ok'] at h
    obtain ⟨post, -, h⟩ := h
    unfold coin256ToCoin at h
    split at h
    · next n hn => cases h; exact readUint_lt hn
    · cases h

theorem spotPrice_ok {s : Store} {q b : Denom} {x : Nat} (h : spotPrice s q b = .ok x) : x < U128 := by
  unfold spotPrice at h
  split at h
  · cases h
  · split at h
    · cases h
    · rw [Except.bind_eq_ok'] at h
      obtain ⟨dir, -, h⟩ := h
      rw [Except.bind_eq_ok'] at h
      obtain ⟨price, -, h⟩ := h
      rw [Except.bind_eq_ok'] at h
      obtain ⟨spot, -, h⟩ := h
      unfold decimalFromDecimal256 at h
      split at h
      · next n hn => cases h; exact readDecimal_lt hn
      · cases h

theorem pool_ok {s : Store} {l : List Coin} (h : totalPoolLiquidity s = .ok l) : ∀ c ∈ l, c.amount < U128 := by
  unfold totalPoolLiquidity at h
  split at h
  · cases h
  · simp only at h
    rw [Except.bind_eq_ok'] at h
    obtain ⟨a, ha, h⟩ := h
    rw [Except.bind_eq_ok'] at h
    obtain ⟨c, hc, h⟩ := h
    cases h
    have key : ∀ {d : Denom} {x : Nat} {r : Coin}, (match u128TryFrom x with | .ok x => Except.ok ⟨d, x⟩ | .error _ => Except.error Err.panic) =
        Except.ok r → r.amount < U128 := by
      intro d x r hr
      unfold u128TryFrom at hr
      split_ifs at hr with hx
      · cases hr; exact hx
    intro y hy
    rcases List.mem_cons.1 hy with rfl | hy
    · exact key ha
    · rw [List.mem_singleton.1 hy]; exact key hc

theorem ticksById_range {s : Store} (hs : StOk s) {ids : List Int} {l : List (Int × TickState)} (h : ticksById s ids = .ok l) :
    ∀ x ∈ l, TickOk x.1 ∧ TickStateOk x.2 := by
  induction ids generalizing l with
  | nil => cases h; simp
  | cons t ts ih =>
    unfold ticksById at h
    split at h
    · cases h
    · next x hx =>
      rw [Except.bind_eq_ok'] at h
      obtain ⟨rest, hrest, h⟩ := h
      cases h
      intro y hy
      rcases List.mem_cons.1 hy with rfl | hy
      · exact hs.ticks t x hx
      · exact ih hrest y hy

theorem unrealizedCancels_ok {s : Store} (hs : StOk s) {ts : TickState} {t : Int} {d : Dir} {x : Nat} (h : unrealizedCancels s ts t d = .ok x) :
    DecOk x := by
  unfold unrealizedCancels at h
  simp only at h
  split at h
  · next root hroot =>
    rw [Except.bind_eq_ok'] at h
    obtain ⟨total, htot, h⟩ := h
    cases h
    have := prefix_ok (getRootNode_ok hs.trees hroot) htot
    unfold DecOk at *
    omega
  · cases h
    unfold DecOk U256
    norm_num

theorem unrealized_range {s : Store} (hs : StOk s) {ids : List Int} {l : List (Int × Nat × Nat)} (h : ticksUnrealizedCancels s ids = .ok l) :
    ∀ x ∈ l, TickOk x.1 ∧ DecOk x.2.1 ∧ DecOk x.2.2 := by
  induction ids generalizing l with
  | nil => cases h; simp
  | cons t ts ih =>
    unfold ticksUnrealizedCancels at h
    split at h
    · cases h
    · next x hx =>
      rw [Except.bind_eq_ok'] at h
      obtain ⟨a, ha, h⟩ := h
      rw [Except.bind_eq_ok'] at h
      obtain ⟨b, hb, h⟩ := h
      rw [Except.bind_eq_ok'] at h
      obtain ⟨rest, hrest, h⟩ := h
      cases h
      intro y hy
      rcases List.mem_cons.1 hy with rfl | hy
      · exact ⟨(hs.ticks t x hx).1, unrealizedCancels_ok hs ha, unrealizedCancels_ok hs hb⟩
      · exact ih hrest y hy

theorem query_lift {α : Type} {x : Except Err α} {f : α → Answer} {s s' : Store} {a : Answer}
    (h : (do let y ← EM.lift x; pure (f y) : M Answer) s = .ok a s') : ∃ y, x = .ok y ∧ f y = a := by
  rw [EM.bind_eq_ok] at h
  obtain ⟨y, s1, h1, h2⟩ := h
  rw [EM.pure_eq_ok] at h2
  refine ⟨y, ?_, h2.1.symm⟩
  cases x with
  | error e => cases h1
  | ok z => cases h1; rfl

theorem answer_ok {ch : Chain} {w : World} (hw : Reachable ch w) (hs : StOk w.store) {m : QueryMsg} (hm : m ≠ .getMakerFee) {a : Answer}
    {s' : Store} (h : query m w.store = .ok a s') : Within 20 (answerJson m a) ∧ readAnswer m (answerJson m a) = some a := by
  have hcount : ∀ n, n ≤ w.store.orders.length → n < U64 := by
    intro n hn
    have h1 := orders_length hw
    cases e : w.store.orderId with
    | none => rw [e] at h1; simp only [Option.getD_none] at h1; unfold U64; omega
    | some i =>
      rw [e] at h1
      have : i < 2 ^ 64 := hs.orderId i e
      simp only [Option.getD_some] at h1
      unfold U64
      omega
  have hord : ∀ p ∈ w.store.orders, OrderOk p.2 := by
    obtain ⟨n, hn⟩ := id hw
    obtain ⟨b, hb⟩ := hn.traced
    exact fun p hp => (hs.orders p.1 p.2 (SMap.Sorted.get? hb.rel.ordersSorted hp)).2.2
  have htick : ∀ p ∈ w.store.ticks, TickOk p.1 ∧ TickStateOk p.2 := by
    obtain ⟨n, hn⟩ := id hw
    obtain ⟨b, hb⟩ := hn.traced
    exact fun p hp => hs.ticks p.1 p.2 (SMap.Sorted.get? hb.rel.ticksSorted hp)
  unfold query at h
  rw [EM.bind_eq_ok] at h
  obtain ⟨s0, s1, h1, h⟩ := h
  rw [EM.get_eq_ok] at h1
  obtain ⟨rfl, rfl⟩ := h1
  cases m with
  | getMakerFee => exact absurd rfl hm
  | spotPrice q b =>
    obtain ⟨x, hx, rfl⟩ := query_lift h
    refine ⟨by unfold answerJson; jdep; trivial, ?_⟩
    unfold readAnswer answerJson
    jobj; jreq (read_dec128 (spotPrice_ok hx)); rfl
  | calcOutAmountGivenIn c o fee =>
    obtain ⟨x, hx, rfl⟩ := query_lift h
    refine ⟨by unfold answerJson; jdep; exact within_coin _ _, ?_⟩
    unfold readAnswer answerJson
    jobj; jreq (read_coin (calcOut_ok hx)); rfl
  | calcOutAmtGivenIn c o fee =>
    obtain ⟨x, hx, rfl⟩ := query_lift h
    refine ⟨by unfold answerJson; jdep; exact within_coin _ _, ?_⟩
    unfold readAnswer answerJson
    jobj; jreq (read_coin (calcOut_ok hx)); rfl
  | getTotalPoolLiquidity =>
    obtain ⟨x, hx, rfl⟩ := query_lift h
    refine ⟨by unfold answerJson; jdep; exact within_map fun _ _ => within_coin _ _, ?_⟩
    unfold readAnswer answerJson
    jobj; jreq (read_list fun c hc => read_coin (pool_ok hx c hc)); rfl
  | calcInAmtGivenOut => cases h
  | allTicks x y l =>
    rw [EM.pure_eq_ok] at h
    obtain ⟨rfl, -⟩ := h
    refine ⟨by unfold answerJson; jdep; exact within_map fun _ _ => (within_tick _).mono (by omega), ?_⟩
    have hmem : ∀ p ∈ allTicks w.store x y l, p ∈ w.store.ticks := by
      intro p hp
      unfold allTicks at hp
      simp only at hp
      split at hp
      · exact List.mem_of_mem_filter (List.mem_of_mem_take hp)
      · exact List.mem_of_mem_filter hp
    unfold readAnswer answerJson
    jobj; jreq (read_list fun p hp => read_tick (htick p (hmem p hp)).1 (htick p (hmem p hp)).2); rfl
  | isActive =>
    rw [EM.pure_eq_ok] at h
    obtain ⟨rfl, -⟩ := h
    exact ⟨trivial, rfl⟩
  | getSwapFee =>
    rw [EM.pure_eq_ok] at h
    obtain ⟨rfl, -⟩ := h
    refine ⟨by unfold answerJson; jdep; trivial, ?_⟩
    unfold readAnswer answerJson
    jobj; jreq (read_dec128 (x := getSwapFee) (by unfold getSwapFee U128; norm_num)); rfl
  | ordersByOwner o x y l =>
    simp only [EM.pure_eq_ok] at h
    obtain ⟨rfl, -⟩ := h
    have hc : (ordersByOwner w.store o x y l).1 < U64 := hcount _ (by unfold ordersByOwner; exact List.length_filter_le _ _)
    have hl : ∀ v ∈ (ordersByOwner w.store o x y l).2, OrderOk v := by
      intro v hv
      unfold ordersByOwner getOrdersByOwner at hv
      simp only [List.mem_map] at hv
      obtain ⟨p, hp, rfl⟩ := hv
      exact hord p (List.mem_of_mem_filter (List.mem_of_mem_filter (List.mem_of_mem_take hp)))
    refine ⟨by unfold answerJson; jdep; exact ⟨within_map fun _ _ => (within_limitOrder _).mono (by omega), trivial⟩, ?_⟩
    unfold readAnswer answerJson
    jobj; jreq (read_list fun v hv => read_limitOrder (hl v hv)); jreq (read_nat hc); rfl
  | ordersByTick t x y l =>
    simp only [EM.pure_eq_ok] at h
    obtain ⟨rfl, -⟩ := h
    have hc : (ordersByTick w.store t x y l).1 < U64 := hcount _ (by unfold ordersByTick; exact List.length_filter_le _ _)
    have hl : ∀ v ∈ (ordersByTick w.store t x y l).2, OrderOk v := by
      intro v hv
      unfold ordersByTick at hv
      simp only [List.mem_map] at hv
      obtain ⟨p, hp, rfl⟩ := hv
      exact hord p (List.mem_of_mem_filter (List.mem_of_mem_take hp))
    refine ⟨by unfold answerJson; jdep; exact ⟨within_map fun _ _ => (within_limitOrder _).mono (by omega), trivial⟩, ?_⟩
    unfold readAnswer answerJson
    jobj; jreq (read_list fun v hv => read_limitOrder (hl v hv)); jreq (read_nat hc); rfl
  | orderbookState =>
    obtain ⟨x, hx, rfl⟩ := query_lift h
    have hb : BookOk x := by
      unfold orderbookState at hx
      split at hx
      · cases hx
      · next b hb => cases hx; exact hs.book _ hb
    refine ⟨(within_orderbook x).mono (by omega), ?_⟩
    show (readOrderbook x.json).map Answer.book = _
    rw [read_orderbook hb]; rfl
  | denoms =>
    obtain ⟨x, hx, rfl⟩ := query_lift h
    refine ⟨by unfold answerJson; jdep; exact ⟨trivial, trivial⟩, ?_⟩
    unfold readAnswer answerJson
    jobj; jreq (read_string _); jreq (read_string _); rfl
  | ticksById ids =>
    obtain ⟨x, hx, rfl⟩ := query_lift h
    refine ⟨by unfold answerJson; jdep; exact within_map fun _ _ => (within_tick _).mono (by omega), ?_⟩
    unfold readAnswer answerJson
    jobj; jreq (read_list fun p hp => read_tick (ticksById_range hs hx p hp).1 (ticksById_range hs hx p hp).2); rfl
  | getUnrealizedCancels ids =>
    obtain ⟨x, hx, rfl⟩ := query_lift h
    refine ⟨by unfold answerJson; jdep; exact within_map fun _ _ => (within_unrealized _).mono (by omega), ?_⟩
    have := unrealized_range hs hx
    unfold readAnswer answerJson
    jobj; jreq (read_list fun p hp => read_unrealized (this p hp).1 (this p hp).2.1 (this p hp).2.2); rfl
  | auth m =>
    rw [EM.pure_eq_ok] at h
    obtain ⟨rfl, -⟩ := h
    show Within 20 (ofOpt Json.str (authQuery w.store m)) ∧ (readOpt readString (ofOpt Json.str (authQuery w.store m))).map Answer.addr = _
    refine ⟨within_opt fun _ _ => trivial, ?_⟩
    rw [read_opt (rd := readString) (w := Json.str) fun a _ => ⟨rfl, by simp⟩]
    rfl

/-- C83: after any history, a client that writes a query as text and decodes the answer's text by the type declared for that query
(msg.rs:69-148) gets exactly what the contract computed, and gets an answer whenever the contract computes one. For `get_maker_fee` see
`C83_maker_fee`. -/
theorem C83_answers {ch : Chain} {w0 : World} (hi : Initial ch w0) {ops : List Op} (ho : OpsOk ops) {m : QueryMsg} (hw : m.wellTyped = true)
    (hm : m ≠ .getMakerFee) (a : Answer) :
    (queryText (run ch w0 ops).store m.json.text).bind (fromText (readAnswer m)) = some a ↔
      ∃ s', query m (run ch w0 ops).store = .ok a s' := by
  have hs := (run_written (ch := ch) (initial_written hi) ho).1
  have hr : Reachable ch (run ch w0 ops) := Reachable.run hi.reachable ops
  unfold queryText
  rw [C81_messages.2.2.1 m hw]
  simp only [Option.bind_some]
  constructor
  · intro h
    split at h
    · next x s' hx =>
      have := answer_ok hr hs hm hx
      rw [Option.bind_some, fromText_of this.1 this.2] at h
      cases h
      exact ⟨s', hx⟩
    · cases h
  · rintro ⟨s', h⟩
    rw [h]
    have := answer_ok hr hs hm h
    rw [Option.bind_some, fromText_of this.1 this.2]

/-- C83: a text that is not a query gets no answer. -/
theorem C83_refused {s : Store} {t : List Char} (h : fromText readQueryMsg t = none) : queryText s t = none := by
  unfold queryText
  rw [h]
  rfl

/-- C83: the answer to `get_maker_fee` is a bare decimal, which is not the declared type `MakerFee` (msg.rs:108-109, 186-189): decoding by
the declared type fails after every history, decoding as a decimal gives the fee in force. -/
theorem C83_maker_fee {ch : Chain} {w0 : World} (hi : Initial ch w0) {ops : List Op} (ho : OpsOk ops) :
    ∃ t, queryText (run ch w0 ops).store QueryMsg.getMakerFee.json.text = some t ∧ fromText (readAnswer .getMakerFee) t = none ∧
      fromText (readDec U256) t = some (getMakerFee (run ch w0 ops).store) := by
  have hs := (run_written (ch := ch) (initial_written hi) ho).1
  refine ⟨(ofDec (getMakerFee (run ch w0 ops).store)).text, ?_, ?_, ?_⟩
  · unfold queryText
    rw [C81_messages.2.2.1 .getMakerFee rfl]
    rfl
  · unfold fromText
    rw [parse_text (j := ofDec _) trivial]
    rfl
  · refine fromText_of (d := 1) trivial (read_dec256 ?_)
    show (run ch w0 ops).store.makerFee.getD 0 < U256
    cases e : (run ch w0 ops).store.makerFee with
    | none => unfold U256; norm_num
    | some x => exact hs.fee x e

/-- C83: a swap's response data decodes to the amount that is paid out to the swapper. -/
theorem C83_swap_data {ch : Chain} {w w' : World} (hw : Reachable ch w) {r : SwapReq} {time : Nat} {resp : Response}
    (h : step ch w (r.op time) = .ok (w', resp)) :
    ∃ n, resp.data = some n ∧ fromText readSwapData (swapDataJson n).text = some n ∧
      ∃ rest, resp.msgs = ⟨r.sender, ⟨r.outDenom, n⟩, REPLY_ID_SUDO_SWAP_EXACT_IN⟩ :: rest := by
  obtain ⟨n, hn⟩ := hw
  obtain ⟨b, hb⟩ := hn.traced
  obtain ⟨ob, hob, -⟩ := hb.rel.ptr
  obtain ⟨dir, F, q', dust, lp, bank1, -, -, -, hok, rfl, -, -, -, hF, -⟩ := hb.swap_inv h hob
  have hle := hF.amount_le hb.rel
  have hlt := hb.rel.liqLt dir.opposite
  have hsum : sumAmount F < U256 := by
    have : sumAmount F ≤ sumAmount F * D := Nat.le_mul_of_pos_right _ D_pos
    omega
  exact ⟨sumAmount F, rfl, fromText_of (within_swapData _) (read_swapData hsum), _, rfl⟩

/-- Non-vacuity: texts of answers after the demo history. -/
example : queryText (run Demo.ch Demo.w0 Demo.longer).store "{\"orders_by_owner\":{\"owner\":\"dave\"}}".toList =
    some ("{\"orders\":[{\"tick_id\":0,\"order_id\":3,\"order_direction\":\"bid\",\"owner\":\"dave\",\"quantity\":\"40000\",\"etas\":\"260000\"," ++
      "\"claim_bounty\":\"0.01\",\"placed_quantity\":\"100000\",\"placed_at\":\"7\"}],\"count\":1}").toList := by decide +kernel
example : queryText (run Demo.ch Demo.w0 Demo.longer).store "{ \"get_maker_fee\" : { } }".toList = some "\"0.02\"".toList := by decide +kernel
example : queryText (run Demo.ch Demo.w0 Demo.longer).store "{\"orderbook_state\":{}}".toList =
    some ("{\"quote_denom\":\"q\",\"base_denom\":\"b\",\"current_tick\":0,\"next_bid_tick\":0,\"next_ask_tick\":10}").toList := by decide +kernel
example : queryText (run Demo.ch Demo.w0 Demo.longer).store "{\"spot_price\":{\"quote_asset_denom\":\"q\"}}".toList = none := by decide +kernel

end OB
