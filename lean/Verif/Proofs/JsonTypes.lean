import Verif.Proofs.Json
/- Typed JSON: every value is read back, and what is read is in range. -/
namespace OB
open Spec
namespace Json

theorem read_int {t : Int} (h : i64Ok t = true) : readI64 (ofInt t) = some t := by
  unfold readI64 ofInt
  have : (if decide (t < 0) = true then -(t.natAbs : Int) else t.natAbs) = t := by
    split_ifs with h <;> simp only [decide_eq_true_eq] at h <;> omega
  simp only [this, h, if_true]

theorem read_nat {b n : Nat} (h : n < b) : readNat b (ofNat n) = some n := by
  unfold readNat ofNat; simp [h]

theorem read_uint {b n : Nat} (h : n < b) : readUintStr b (ofUint n) = some n := by
  unfold readUintStr ofUint
  simp [readUint_natText, h]

theorem read_dec {b x : Nat} (hb : 10 ^ 18 ≤ b) (h : x < b) : readDec b (ofDec x) = some x := by
  unfold readDec ofDec
  simp [readDecimal_decText hb, h]

theorem read_dec256 {x : Nat} (h : x < U256) : readDec U256 (ofDec x) = some x := read_dec (by unfold U256; norm_num) h
theorem read_dec128 {x : Nat} (h : x < U128) : readDec U128 (ofDec x) = some x := read_dec (by unfold U128; norm_num) h

@[simp] theorem read_bool (b : Bool) : readBool (.bool b) = some b := rfl
@[simp] theorem read_string (s : String) : readString (.str s) = some s := rfl
@[simp] theorem read_dir (d : Dir) : readDir d.json = some d := by cases d <;> rfl

theorem read_key {k : Int × Nat} (h1 : i64Ok k.1 = true) (h2 : k.2 < U64) : readKey (ofKey k) = some k := by
  unfold readKey ofKey readPair
  simp [read_int h1, read_nat h2]

theorem read_coin {c : Coin} (h : c.amount < U128) : readCoin c.json = some c := by
  simp [readCoin, Coin.json, fields, req, List.lookup, read_uint h]

theorem read_opt {α : Type} {rd : Json → Option α} {w : α → Json} {x : Option α} (h : ∀ a ∈ x, rd (w a) = some a ∧ w a ≠ .null) :
    readOpt rd (ofOpt w x) = some x := by
  cases x with
  | none => rfl
  | some a =>
    obtain ⟨h1, h2⟩ := h a (by simp)
    unfold ofOpt readOpt
    cases e : w a with
    | null => exact absurd e h2
    | _ => rw [e] at h1; simp [e, h1]

theorem read_list {α : Type} {rd : Json → Option α} {w : α → Json} {l : List α} (h : ∀ a ∈ l, rd (w a) = some a) :
    readList rd (.arr (l.map w)) = some l := by
  unfold readList
  simp only
  induction l with
  | nil => rfl
  | cons a l ih =>
    rw [List.map_cons, List.mapM_cons, h a (by simp), ih fun b hb => h b (List.mem_cons_of_mem _ hb)]
    rfl

theorem read_optDec {x : Option Nat} (h : ∀ a ∈ x, a < U256) : readOpt (readDec U256) (ofOpt ofDec x) = some x :=
  read_opt fun a ha => ⟨read_dec256 (h a ha), by simp [ofDec]⟩
theorem read_optInt {x : Option Int} (h : ∀ a ∈ x, i64Ok a = true) : readOpt readI64 (ofOpt ofInt x) = some x :=
  read_opt fun a ha => ⟨read_int (h a ha), by simp [ofInt]⟩
theorem read_optNat {b : Nat} {x : Option Nat} (h : ∀ a ∈ x, a < b) : readOpt (readNat b) (ofOpt ofNat x) = some x :=
  read_opt fun a ha => ⟨read_nat (h a ha), by simp [ofNat]⟩
theorem read_optKey {x : Option (Int × Nat)} (h : ∀ a ∈ x, i64Ok a.1 = true ∧ a.2 < U64) : readOpt readKey (ofOpt ofKey x) = some x :=
  read_opt fun a ha => ⟨read_key (h a ha).1 (h a ha).2, by simp [ofKey]⟩

/-! What is read is in range. -/

theorem int_range {j : Json} {t : Int} (h : readI64 j = some t) : i64Ok t = true := by
  unfold readI64 at h
  split at h
  · simp only [Option.ite_none_right_eq_some, Option.some.injEq] at h
    obtain ⟨h1, rfl⟩ := h
    exact h1
  · cases h

theorem nat_range {b : Nat} {j : Json} {n : Nat} (h : readNat b j = some n) : n < b := by
  unfold readNat at h
  split at h
  · simp only [Option.ite_none_right_eq_some, Option.some.injEq] at h
    obtain ⟨h1, rfl⟩ := h
    exact h1
  · cases h

theorem uint_range {b : Nat} {j : Json} {n : Nat} (h : readUintStr b j = some n) : n < b := by
  have key : ∀ l, readDigits b l = some n → n < b := by
    intro l hl
    unfold readDigits at hl
    split_ifs at hl with h1
    simp only [Option.ite_none_right_eq_some, Option.some.injEq] at hl
    obtain ⟨h2, rfl⟩ := hl
    exact h2
  unfold readUintStr at h
  split at h
  · unfold readUint at h
    split at h <;> exact key _ h
  · cases h

theorem dec_range {b : Nat} {j : Json} {n : Nat} (h : readDec b j = some n) : n < b := by
  unfold readDec at h
  split at h
  · unfold readDecimal at h
    split at h
    · cases h
    · split_ifs at h with h1
      split at h
      · simp only [Option.some.injEq] at h; subst h; exact h1
      · split at h
        · cases h
        · split at h
          · cases h
          · split at h
            · simp only [Option.ite_none_right_eq_some, Option.some.injEq] at h
              obtain ⟨h4, rfl⟩ := h
              exact h4
            · cases h
  · cases h

theorem opt_range {α : Type} {P : α → Prop} {rd : Json → Option α} (hP : ∀ j a, rd j = some a → P a) {f : String → Option Json} {k : String}
    {x : Option α} (h : opt f k rd = some x) : ∀ a ∈ x, P a := by
  unfold opt at h
  intro a ha
  split at h
  · simp only [Option.some.injEq] at h; subst h; cases ha
  · unfold readOpt at h
    split at h
    · simp only [Option.some.injEq] at h; subst h; cases ha
    · rw [Option.map_eq_some_iff] at h
      obtain ⟨b, hb, rfl⟩ := h
      simp only [Option.mem_def, Option.some.injEq] at ha
      subst ha
      exact hP _ _ hb

theorem req_range {α : Type} {P : α → Prop} {rd : Json → Option α} (hP : ∀ j a, rd j = some a → P a) {f : String → Option Json} {k : String}
    {x : α} (h : req f k rd = some x) : P x := by
  unfold req at h
  rw [Option.bind_eq_some_iff] at h
  obtain ⟨j, -, hj⟩ := h
  exact hP j x hj

theorem list_range {α : Type} {P : α → Prop} {rd : Json → Option α} (hP : ∀ j a, rd j = some a → P a) {j : Json} {l : List α}
    (h : readList rd j = some l) : ∀ a ∈ l, P a := by
  unfold readList at h
  split at h
  · next js =>
    induction js generalizing l with
    | nil => simp only [List.mapM_nil, Option.pure_def, Option.some.injEq] at h; subst h; simp
    | cons x js ih =>
      simp only [List.mapM_cons, Option.bind_eq_bind, Option.bind_eq_some_iff, Option.pure_def, Option.some.injEq] at h
      obtain ⟨a, ha, l', hl, rfl⟩ := h
      intro b hb
      rcases List.mem_cons.1 hb with rfl | hb
      · exact hP _ _ ha
      · exact ih hl b hb
  · cases h

theorem key_range {j : Json} {k : Int × Nat} (h : readKey j = some k) : i64Ok k.1 = true ∧ k.2 < U64 := by
  unfold readKey readPair at h
  split at h
  · simp only [Option.bind_eq_bind, Option.bind_eq_some_iff, Option.some.injEq] at h
    obtain ⟨a, ha, b, hb, rfl⟩ := h
    exact ⟨int_range ha, nat_range hb⟩
  · cases h

theorem coin_range {j : Json} {c : Coin} (h : readCoin j = some c) : c.amount < U128 := by
  unfold readCoin at h
  simp only [Option.bind_eq_bind, Option.bind_eq_some_iff, Option.some.injEq] at h
  obtain ⟨f, -, a, -, b, hb, rfl⟩ := h
  exact req_range (P := fun n => n < U128) (fun _ _ => uint_range) hb

theorem lookup_mem {α : Type} {l : List (String × α)} {k : String} {a : α} (h : l.lookup k = some a) : (k, a) ∈ l := by
  induction l with
  | nil => cases h
  | cons x l ih =>
    obtain ⟨k', a'⟩ := x
    rw [List.lookup_cons] at h
    split at h
    · next he =>
      simp only [Option.some.injEq] at h
      subst h
      rw [eq_of_beq he]; simp
    · exact List.mem_cons_of_mem _ (ih h)

theorem enum_range {α : Type} {P : α → Prop} {table : List (String × (Json → Option α))} {j : Json} {m : α}
    (hP : ∀ e ∈ table, ∀ v m, e.2 v = some m → P m) (h : readEnum table j = some m) : P m := by
  unfold readEnum at h
  simp only [Option.bind_eq_some_iff] at h
  obtain ⟨⟨k, v⟩, -, rd, hr, h⟩ := h
  exact hP _ (lookup_mem hr) v m h

theorem unit_range {α : Type} {P : α → Prop} {x : α} (hx : P x) (v : Json) (m : α) (h : unit x v = some m) : P m := by
  unfold unit at h
  rw [Option.map_eq_some_iff] at h
  obtain ⟨_, -, rfl⟩ := h
  exact hx

theorem read_enum {α : Type} {table : List (String × (Json → Option α))} {k : String} {v : Json} {rd : Json → Option α}
    (h : table.lookup k = some rd) : readEnum table (.obj [(k, v)]) = rd v := by
  simp [readEnum, variant, h]

@[simp] theorem read_unit {α : Type} (x : α) : unit x (.obj []) = some x := by simp [unit, fields]

theorem u128_range {f : String → Option Json} {k : String} {x : Nat} (h : req f k (readUintStr U128) = some x) : x < U128 :=
  req_range (P := fun n => n < U128) (fun j _ => uint_range (j := j)) h
theorem d128_range {f : String → Option Json} {k : String} {x : Nat} (h : req f k (readDec U128) = some x) : x < U128 :=
  req_range (P := fun n => n < U128) (fun j _ => dec_range (j := j)) h
theorem d256_range {f : String → Option Json} {k : String} {x : Nat} (h : req f k (readDec U256) = some x) : x < U256 :=
  req_range (P := fun n => n < U256) (fun j _ => dec_range (j := j)) h
theorem u64_range {f : String → Option Json} {k : String} {x : Nat} (h : req f k (readNat U64) = some x) : x < U64 :=
  req_range (P := fun n => n < U64) (fun j _ => nat_range (j := j)) h
theorem i64_range {f : String → Option Json} {k : String} {x : Int} (h : req f k readI64 = some x) : i64Ok x = true :=
  req_range (P := fun n => i64Ok n = true) (fun j _ => int_range (j := j)) h
theorem coin_range' {f : String → Option Json} {k : String} {x : Coin} (h : req f k readCoin = some x) : x.amount < U128 :=
  req_range (P := fun c : Coin => c.amount < U128) (fun j _ => coin_range (j := j)) h
theorem optD256_range {f : String → Option Json} {k : String} {x : Option Nat} (h : opt f k (readDec U256) = some x) : ∀ a ∈ x, a < U256 :=
  opt_range (P := fun n => n < U256) (fun j _ => dec_range (j := j)) h
theorem optNat_range {b : Nat} {f : String → Option Json} {k : String} {x : Option Nat} (h : opt f k (readNat b) = some x) : ∀ a ∈ x, a < b :=
  opt_range (P := fun n => n < b) (fun j _ => nat_range (j := j)) h
theorem optInt_range {f : String → Option Json} {k : String} {x : Option Int} (h : opt f k readI64 = some x) : ∀ a ∈ x, i64Ok a = true :=
  opt_range (P := fun n => i64Ok n = true) (fun j _ => int_range (j := j)) h
theorem optKey_range {f : String → Option Json} {k : String} {x : Option (Int × Nat)} (h : opt f k readKey = some x) :
    ∀ a ∈ x, i64Ok a.1 = true ∧ a.2 < U64 :=
  opt_range (P := fun a : Int × Nat => i64Ok a.1 = true ∧ a.2 < U64) (fun j _ => key_range (j := j)) h
theorem ints_range {f : String → Option Json} {k : String} {x : List Int} (h : req f k (readList readI64) = some x) : ∀ a ∈ x, i64Ok a = true :=
  req_range (P := fun l : List Int => ∀ t ∈ l, i64Ok t = true) (fun j _ h => list_range (fun j _ => int_range (j := j)) h) h
theorem keys_range {f : String → Option Json} {k : String} {x : List (Int × Nat)} (h : req f k (readList readKey) = some x) :
    ∀ a ∈ x, i64Ok a.1 = true ∧ a.2 < U64 :=
  req_range (P := fun l : List (Int × Nat) => ∀ a ∈ l, i64Ok a.1 = true ∧ a.2 < U64) (fun j _ h => list_range (fun j _ => key_range (j := j)) h) h

theorem fields_lit {names : List String} {l : List (String × Json)} {ks : List String} (hk : l.map Prod.fst = ks)
    (h : (ks.all (· ∈ names) ∧ ks.Nodup)) : fields names (.obj l) = some fun k => l.lookup k := by
  subst hk; exact if_pos h

theorem bind_of {α β : Type} {x : Option α} {a : α} {f : α → Option β} {r : Option β} (hx : x = some a) (h : f a = r) : x.bind f = r := by
  rw [hx]; exact h

theorem req_lit {α : Type} {l : List (String × Json)} {k : String} {v : Json} {rd : Json → Option α} {x : α} (hr : rd v = some x)
    (hl : l.lookup k = some v) : req (fun k => l.lookup k) k rd = some x := by
  unfold req; simp only [hl]; exact hr

theorem opt_lit {α : Type} {l : List (String × Json)} {k : String} {v : Json} {rd : Json → Option α} {x : Option α} (hr : readOpt rd v = some x)
    (hl : l.lookup k = some v) : opt (fun k => l.lookup k) k rd = some x := by
  unfold opt; simp only [hl]; exact hr

end Json
open Json

/-- The object's field names are the type's. -/
macro "jobj" : tactic => `(tactic| refine bind_of (fields_lit rfl (by simp only [List.map]; decide +kernel)) ?_)
/-- A required field is read by the given lemma. -/
macro "jreq" h:term : tactic => `(tactic| refine bind_of (req_lit $h (by simp only [List.lookup, String.reduceBEq] <;> rfl)) ?_)
/-- An optional field is read by the given lemma. -/
macro "jopt" h:term : tactic => `(tactic| refine bind_of (opt_lit $h (by simp only [List.lookup, String.reduceBEq] <;> rfl)) ?_)
/-- The variant is found by its name. -/
macro "jvar" : tactic => `(tactic| refine Eq.trans (read_enum (by simp only [List.lookup, String.reduceBEq]; rfl)) ?_)

/-! ### Messages -/

theorem read_authMsg {m : AuthMsg} (h : m.wellTyped = true) : readAuthMsg m.json = some m := by
  cases m with
  | setMakerFee fee =>
    have hf : fee < U256 := of_decide_eq_true h
    unfold readAuthMsg AuthMsg.json
    jvar; jobj; jreq (read_dec256 hf); rfl
  | _ =>
    unfold readAuthMsg AuthMsg.json
    jvar
    first
    | exact read_unit _
    | (jobj; jreq (read_string _); rfl)
    | (jobj; jreq (read_bool _); rfl)

theorem authMsg_range {j : Json} {m : AuthMsg} (h : readAuthMsg j = some m) : m.wellTyped = true := by
  refine enum_range (P := fun m : AuthMsg => m.wellTyped = true) ?_ h
  simp only [List.forall_mem_cons, List.not_mem_nil, false_imp_iff, implies_true, and_true]
  refine ⟨?_, unit_range rfl, unit_range rfl, unit_range rfl, unit_range rfl, ?_, unit_range rfl, unit_range rfl, ?_, ?_, ?_⟩
  all_goals
    intro v m h
    simp only [Option.bind_eq_bind, Option.bind_eq_some_iff, Option.some.injEq] at h
    obtain ⟨f, -, a, ha, rfl⟩ := h
  all_goals try rfl
  exact decide_eq_true (d256_range ha)

theorem read_executeMsg {m : ExecuteMsg} (h : m.wellTyped = true) : readExecuteMsg m.json = some m := by
  cases m with
  | placeLimit tick dir q b =>
    simp only [ExecuteMsg.wellTyped, Bool.and_eq_true, decide_eq_true_eq] at h
    have hb : ∀ a ∈ b, a < U256 := by
      intro a ha
      cases b with
      | none => cases ha
      | some x => cases ha; exact of_decide_eq_true h.2
    unfold readExecuteMsg ExecuteMsg.json
    jvar; jobj; jreq (read_int h.1.1); jreq (read_dir _); jreq (read_uint h.1.2); jopt (read_optDec hb); rfl
  | cancelLimit tick id =>
    simp only [ExecuteMsg.wellTyped, Bool.and_eq_true, decide_eq_true_eq] at h
    unfold readExecuteMsg ExecuteMsg.json
    jvar; jobj; jreq (read_int h.1); jreq (read_nat h.2); rfl
  | claimLimit tick id =>
    simp only [ExecuteMsg.wellTyped, Bool.and_eq_true, decide_eq_true_eq] at h
    unfold readExecuteMsg ExecuteMsg.json
    jvar; jobj; jreq (read_int h.1); jreq (read_nat h.2); rfl
  | batchClaim orders =>
    have h' : ∀ k ∈ orders, readKey (ofKey k) = some k := by
      intro k hk
      have := List.all_eq_true.1 h k hk
      simp only [Bool.and_eq_true, decide_eq_true_eq] at this
      exact read_key this.1 this.2
    unfold readExecuteMsg ExecuteMsg.json
    jvar; jobj; jreq (read_list h'); rfl
  | auth m =>
    unfold readExecuteMsg ExecuteMsg.json
    jvar
    simp only [read_authMsg (m := m) h, Option.map_some]

theorem executeMsg_range {j : Json} {m : ExecuteMsg} (h : readExecuteMsg j = some m) : m.wellTyped = true := by
  refine enum_range (P := fun m : ExecuteMsg => m.wellTyped = true) ?_ h
  simp only [List.forall_mem_cons, List.not_mem_nil, false_imp_iff, implies_true, and_true, Option.bind_eq_bind, Option.bind_eq_some_iff,
    Option.some.injEq]
  refine ⟨?_, ?_, ?_, ?_, ?_⟩
  · rintro v m ⟨f, -, a, ha, b, -, c, hc, d, hd, rfl⟩
    simp only [ExecuteMsg.wellTyped, i64_range ha, decide_eq_true (u128_range hc), Bool.true_and]
    cases d with
    | none => rfl
    | some x => exact decide_eq_true (optD256_range hd x rfl)
  · rintro v m ⟨f, -, a, ha, b, hb, rfl⟩
    simp only [ExecuteMsg.wellTyped, i64_range ha, decide_eq_true (u64_range hb), Bool.true_and]
  · rintro v m ⟨f, -, a, ha, b, hb, rfl⟩
    simp only [ExecuteMsg.wellTyped, i64_range ha, decide_eq_true (u64_range hb), Bool.true_and]
  · rintro v m ⟨f, -, a, ha, rfl⟩
    simp only [ExecuteMsg.wellTyped, List.all_eq_true]
    intro k hk
    simp only [(keys_range ha k hk).1, decide_eq_true (keys_range ha k hk).2, Bool.true_and]
  · intro v m h
    rw [Option.map_eq_some_iff] at h
    obtain ⟨a, ha, rfl⟩ := h
    exact authMsg_range ha

theorem read_sudoMsg {m : SudoMsg} (h : m.wellTyped = true) : readSudoMsg m.json = some m := by
  cases m with
  | swapExactAmountIn s c o mn fee =>
    simp only [SudoMsg.wellTyped, Bool.and_eq_true, decide_eq_true_eq] at h
    unfold readSudoMsg SudoMsg.json
    jvar; jobj; jreq (read_string _); jreq (read_coin h.1.1); jreq (read_string _); jreq (read_uint h.1.2); jreq (read_dec128 h.2); rfl
  | swapToTick s c o mn fee t =>
    simp only [SudoMsg.wellTyped, Bool.and_eq_true, decide_eq_true_eq] at h
    unfold readSudoMsg SudoMsg.json
    jvar; jobj; jreq (read_string _); jreq (read_coin h.1.1.1); jreq (read_string _); jreq (read_uint h.1.1.2); jreq (read_dec128 h.1.2)
    jreq (read_int h.2); rfl
  | swapExactAmountOut s d mx c fee =>
    simp only [SudoMsg.wellTyped, Bool.and_eq_true, decide_eq_true_eq] at h
    unfold readSudoMsg SudoMsg.json
    jvar; jobj; jreq (read_string _); jreq (read_string _); jreq (read_uint h.1.2); jreq (read_coin h.1.1); jreq (read_dec128 h.2); rfl
  | _ =>
    unfold readSudoMsg SudoMsg.json
    jvar
    first
    | exact read_unit _
    | (jobj; jreq (read_string _); rfl)
    | (jobj; jreq (read_bool _); rfl)

theorem sudoMsg_range {j : Json} {m : SudoMsg} (h : readSudoMsg j = some m) : m.wellTyped = true := by
  refine enum_range (P := fun m : SudoMsg => m.wellTyped = true) ?_ h
  simp only [List.forall_mem_cons, List.not_mem_nil, false_imp_iff, implies_true, and_true, Option.bind_eq_bind, Option.bind_eq_some_iff,
    Option.some.injEq]
  refine ⟨?_, ?_, ?_, ?_, unit_range rfl, ?_⟩
  · rintro v m ⟨f, -, a, -, b, hb, c, -, d, h1, e, h2, rfl⟩
    simp only [SudoMsg.wellTyped, decide_eq_true (coin_range' hb), decide_eq_true (u128_range h1), decide_eq_true (d128_range h2), Bool.true_and]
  · rintro v m ⟨f, -, a, -, b, hb, c, -, d, h1, e, h2, t, h3, rfl⟩
    simp only [SudoMsg.wellTyped, decide_eq_true (coin_range' hb), decide_eq_true (u128_range h1), decide_eq_true (d128_range h2),
      i64_range h3, Bool.true_and]
  · rintro v m ⟨f, -, a, -, b, -, c, h1, d, hb, e, h2, rfl⟩
    simp only [SudoMsg.wellTyped, decide_eq_true (coin_range' hb), decide_eq_true (u128_range h1), decide_eq_true (d128_range h2), Bool.true_and]
  · rintro v m ⟨f, -, a, -, rfl⟩; rfl
  · rintro v m ⟨f, -, a, -, rfl⟩; rfl

theorem all_opt {α : Type} {p : α → Bool} {x : Option α} : x.all p = true ↔ ∀ a ∈ x, p a = true := by
  cases x <;> simp

theorem read_authQueryMsg (m : AuthQueryMsg) : readAuthQueryMsg m.json = some m := by
  cases m <;> (unfold readAuthQueryMsg AuthQueryMsg.json; jvar; exact read_unit _)

theorem read_queryMsg {m : QueryMsg} (h : m.wellTyped = true) : readQueryMsg m.json = some m := by
  cases m with
  | calcOutAmountGivenIn c o fee =>
    simp only [QueryMsg.wellTyped, Bool.and_eq_true, decide_eq_true_eq] at h
    unfold readQueryMsg QueryMsg.json
    jvar; jobj; jreq (read_coin h.1); jreq (read_string _); jreq (read_dec128 h.2); rfl
  | calcOutAmtGivenIn c o fee =>
    simp only [QueryMsg.wellTyped, Bool.and_eq_true, decide_eq_true_eq] at h
    unfold readQueryMsg QueryMsg.json
    jvar; jobj; jreq (read_coin h.1); jreq (read_string _); jreq (read_dec128 h.2); rfl
  | allTicks a b l =>
    simp only [QueryMsg.wellTyped, Bool.and_eq_true, all_opt, decide_eq_true_eq] at h
    unfold readQueryMsg QueryMsg.json
    jvar; jobj; jopt (read_optInt h.1.1); jopt (read_optInt h.1.2); jopt (read_optNat h.2); rfl
  | ordersByOwner o a b l =>
    simp only [QueryMsg.wellTyped, Bool.and_eq_true, all_opt, decide_eq_true_eq] at h
    unfold readQueryMsg QueryMsg.json
    jvar; jobj; jreq (read_string _); jopt (read_optKey h.1.1); jopt (read_optKey h.1.2); jopt (read_optNat h.2); rfl
  | ordersByTick t a b l =>
    simp only [QueryMsg.wellTyped, Bool.and_eq_true, all_opt, decide_eq_true_eq] at h
    unfold readQueryMsg QueryMsg.json
    jvar; jobj; jreq (read_int h.1.1.1); jopt (read_optNat h.1.1.2); jopt (read_optNat h.1.2); jopt (read_optNat h.2); rfl
  | ticksById ids =>
    have h' : ∀ t ∈ ids, readI64 (ofInt t) = some t := fun t ht => read_int (List.all_eq_true.1 h t ht)
    unfold readQueryMsg QueryMsg.json
    jvar; jobj; jreq (read_list h'); rfl
  | getUnrealizedCancels ids =>
    have h' : ∀ t ∈ ids, readI64 (ofInt t) = some t := fun t ht => read_int (List.all_eq_true.1 h t ht)
    unfold readQueryMsg QueryMsg.json
    jvar; jobj; jreq (read_list h'); rfl
  | auth m =>
    unfold readQueryMsg QueryMsg.json
    jvar
    simp only [read_authQueryMsg, Option.map_some]
  | _ =>
    unfold readQueryMsg QueryMsg.json
    jvar
    first
    | exact read_unit _
    | (jobj; jreq (read_string _); jreq (read_string _); rfl)

theorem queryMsg_range {j : Json} {m : QueryMsg} (h : readQueryMsg j = some m) : m.wellTyped = true := by
  refine enum_range (P := fun m : QueryMsg => m.wellTyped = true) ?_ h
  simp only [List.forall_mem_cons, List.not_mem_nil, false_imp_iff, implies_true, and_true, Option.bind_eq_bind, Option.bind_eq_some_iff,
    Option.some.injEq, Option.map_eq_some_iff]
  refine ⟨?_, ?_, ?_, unit_range rfl, unit_range rfl, unit_range rfl, ?_, unit_range rfl, ?_, unit_range rfl, ?_, ?_, unit_range rfl,
    unit_range rfl, ?_, ?_⟩
  · rintro v m ⟨f, -, a, -, b, -, rfl⟩; rfl
  · rintro v m ⟨f, -, a, ha, b, -, c, h1, rfl⟩
    simp only [QueryMsg.wellTyped, decide_eq_true (coin_range' ha), decide_eq_true (d128_range h1), Bool.true_and]
  · rintro v m ⟨f, -, a, ha, b, -, c, h1, rfl⟩
    simp only [QueryMsg.wellTyped, decide_eq_true (coin_range' ha), decide_eq_true (d128_range h1), Bool.true_and]
  · rintro v m ⟨f, -, a, ha, b, hb, c, h1, rfl⟩
    simp only [QueryMsg.wellTyped, Bool.and_eq_true, all_opt, decide_eq_true_eq]
    exact ⟨⟨optInt_range ha, optInt_range hb⟩, optNat_range h1⟩
  · rintro v m ⟨a, -, rfl⟩; rfl
  · rintro v m ⟨f, -, o, -, a, ha, b, hb, c, h1, rfl⟩
    simp only [QueryMsg.wellTyped, Bool.and_eq_true, all_opt, decide_eq_true_eq]
    exact ⟨⟨optKey_range ha, optKey_range hb⟩, optNat_range h1⟩
  · rintro v m ⟨f, -, o, h0, a, ha, b, hb, c, h1, rfl⟩
    simp only [QueryMsg.wellTyped, Bool.and_eq_true, all_opt, decide_eq_true_eq]
    exact ⟨⟨⟨i64_range h0, optNat_range ha⟩, optNat_range hb⟩, optNat_range h1⟩
  · rintro v m ⟨f, -, a, ha, rfl⟩
    exact List.all_eq_true.2 (ints_range ha)
  · rintro v m ⟨f, -, a, ha, rfl⟩
    exact List.all_eq_true.2 (ints_range ha)

theorem read_instantiate (b q : Denom) : readInstantiateMsg (instantiateJson b q) = some (b, q) := by
  simp [readInstantiateMsg, instantiateJson, fields, req, List.lookup]

end OB
