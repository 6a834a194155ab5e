import Verif.Props.Json
import Verif.Proofs.Grammar
import Verif.Proofs.WireTypes
/- C90, C91: the texts the contract understands and the texts it writes, against the interface of Verif/SpecWire.lean. -/
namespace OB
open Spec Json

/-! ### C90: understanding -/

/-- C90: the contract's reader accepts exactly the JSON texts (nested at most 128 deep), and a text has one meaning only. -/
theorem C90_grammar (t : List Char) :
    (∀ j, Json.parse t = some j ↔ Readable t j) ∧ ∀ j j', Readable t j → Readable t j' → j = j' := by
  refine ⟨fun j => parse_iff, fun j j' h h' => ?_⟩
  rw [← parse_iff] at h h'
  rw [h] at h'
  exact Option.some.inj h'

theorem fromText_iff {α : Type} {rd : Json → Option α} {P : α → Json → Prop} (h : ∀ v x, rd v = some x ↔ P x v) {t : List Char} {x : α} :
    fromText rd t = some x ↔ ∃ j, Readable t j ∧ P x j := by
  unfold fromText
  rw [Option.bind_eq_some_iff]
  exact exists_congr fun j => and_congr parse_iff (h j x)

/-- C90: a text is understood as a message exactly if it is a JSON text of the form published for that message: the name, the fields' names
and types; optional fields may be left out, others not, and nothing else may be there. -/
theorem C90_messages (t : List Char) :
    (∀ m, fromText readExecuteMsg t = some m ↔ ∃ j, Readable t j ∧ ExecuteJ m j) ∧
    (∀ m, fromText readSudoMsg t = some m ↔ ∃ j, Readable t j ∧ SudoJ m j) ∧
    (∀ m, fromText readQueryMsg t = some m ↔ ∃ j, Readable t j ∧ QueryJ m j) ∧
    (∀ base quote, fromText readInstantiateMsg t = some (base, quote) ↔ ∃ j, Readable t j ∧ InstantiateJ base quote j) :=
  ⟨fun _ => fromText_iff fun _ _ => readExecuteMsg_iff, fun _ => fromText_iff fun _ _ => readSudoMsg_iff,
    fun _ => fromText_iff fun _ _ => readQueryMsg_iff,
    fun base quote => fromText_iff (P := fun x : Denom × Denom => InstantiateJ x.1 x.2) fun _ _ => readInstantiateMsg_iff⟩

/-! ### C91: writing -/

theorem escChar_text (c : Char) : CharText (fun c => 0x20 ≤ c.toNat) c (escChar c) := by
  have hc : ∀ {n : Nat}, c.toNat = n → c = Char.ofNat n := fun h => by rw [← h, Char.ofNat_toNat]
  unfold escChar
  split_ifs with h1 h2 h3 h4 h5 h6 h7 h8
  · subst h1; exact .short (by decide)
  · subst h2; exact .short (by decide)
  · rw [hc h3]; exact .short (by decide)
  · rw [hc h4]; exact .short (by decide)
  · rw [hc h5]; exact .short (by decide)
  · rw [hc h6]; exact .short (by decide)
  · rw [hc h7]; exact .short (by decide)
  · refine .code (t := ['0', '0', hexDigit (c.toNat / 16), hexDigit (c.toNat % 16)]) ?_
    rw [← hex4_iff]
    unfold hex4
    rw [hexVal_hexDigit (by omega), hexVal_hexDigit (by omega)]
    have : hexVal '0' = some 0 := by decide
    rw [this]
    show some _ = some _
    congr 1
    omega
  · exact .raw (by show 32 ≤ c.toNat; omega) h1 h2

theorem strText_text (s : String) : StringText (fun c => 0x20 ≤ c.toNat) s (strText s) := by
  refine ⟨s.toList.map escChar, ?_, by rw [strText, List.flatMap_def]⟩
  rw [List.forall₂_map_right_iff, List.forall₂_same]
  exact fun c _ => escChar_text c

theorem itemsText_eq (l : List Json) : itemsText l = commas (l.map text) ++ [']'] := by
  induction l with
  | nil => simp [itemsText, commas, List.intercalate]
  | cons x l ih =>
    cases l with
    | nil => rw [List.map_cons, List.map_nil, commas_one, itemsText]
    | cons y l =>
      rw [itemsText, ih, List.map_cons, List.map_cons, List.map_cons, commas_cons]
      simp

theorem entriesText_eq (l : List (String × Json)) : entriesText l = commas (l.map fun x => strText x.1 ++ ':' :: x.2.text) ++ ['}'] := by
  induction l with
  | nil => simp [entriesText, commas, List.intercalate]
  | cons x l ih =>
    cases l with
    | nil => rw [List.map_cons, List.map_nil, commas_one, entriesText]; simp
    | cons y l =>
      rw [entriesText, ih, List.map_cons, List.map_cons, List.map_cons, commas_cons]
      simp

theorem padded_self {P : List Char → Prop} {t : List Char} (h : P t) : Padded P t :=
  ⟨[], t, [], fun _ hc => by simp at hc, h, fun _ hc => by simp at hc, by simp⟩

theorem natText_number (n : Nat) : NumberText n (natText n) := by
  refine ⟨number_natText n, ?_⟩
  by_cases h0 : n = 0
  · subst h0; exact Or.inl (by decide +kernel)
  · right
    obtain ⟨c, r, e, hc⟩ := natText_head h0
    rw [e]
    intro x hx
    simp only [List.head?_cons, Option.mem_def, Option.some.injEq] at hx
    exact hx ▸ hc

theorem text_written {d : Nat} {j : Json} (h : Within d j) : JsonText (fun c => 0x20 ≤ c.toNat) d j j.text := by
  induction d generalizing j with
  | zero => exact h.elim
  | succ d ih =>
    match j, h with
    | .null, _ => simp [JsonText, text]
    | .bool b, _ => cases b <;> simp [JsonText, text, boolText]
    | .num neg n, _ =>
      simp only [JsonText, text]
      exact ⟨_, natText_number n, rfl⟩
    | .str s, _ => simp only [JsonText, text]; exact strText_text s
    | .arr [], _ => simp only [JsonText, text, itemsText]; exact ⟨[], fun _ hc => by simp at hc, rfl⟩
    | .obj [], _ => simp only [JsonText, text, entriesText]; exact ⟨[], fun _ hc => by simp at hc, rfl⟩
    | .arr (x :: l), h =>
      simp only [JsonText, text]
      refine ⟨(x :: l).map text, ?_, by rw [itemsText_eq]⟩
      rw [List.forall₂_map_right_iff, List.forall₂_same]
      exact fun y hy => padded_self (ih (h y hy))
    | .obj (x :: l), h =>
      simp only [JsonText, text]
      refine ⟨(x :: l).map fun x => strText x.1 ++ ':' :: x.2.text, ?_, by rw [entriesText_eq]⟩
      rw [List.forall₂_map_right_iff, List.forall₂_same]
      exact fun y hy => ⟨_, _, padded_self (strText_text y.1), padded_self (ih (h y hy)), rfl⟩

theorem written_of {d : Nat} {j : Json} (h : Within d j) (hd : d ≤ 128 := by omega) : WrittenText j.text j := text_written (h.mono hd)

/-- C91: after any history, what a storage cell holds is a JSON text of the form published for that cell, of the cell's value. -/
theorem C91_storage {ch : Chain} {w0 : World} (hi : Initial ch w0) {ops : List Op} (ho : OpsOk ops) {c : Cell} (hc : c ≠ .contractInfo)
    {t : List Char} (h : cellText (run ch w0 ops).store c = some t) :
    ∃ v j, (run ch w0 ops).store.cell none c = some v ∧ WrittenText t j ∧ CellJ c v j := by
  unfold cellText at h
  rw [Option.map_eq_some_iff] at h
  obtain ⟨v, hv, rfl⟩ := h
  have := cell_val (run_written (ch := ch) (initial_written hi) ho).1 hc hv
  exact ⟨v, c.json v, hv, written_of this.1, readVal_iff.1 this.2⟩

theorem answer_written {ch : Chain} {w : World} (hr : Reachable ch w) (hs : StOk w.store) {m : QueryMsg} {a : Answer} {s' : Store}
    (h : query m w.store = .ok a s') : WrittenText (answerJson m a).text (answerJson m a) ∧ AnswerJ m a (answerJson m a) := by
  by_cases hm : m = .getMakerFee
  · subst hm
    unfold query at h
    rw [EM.bind_eq_ok] at h
    obtain ⟨s, s1, h1, h⟩ := h
    rw [EM.get_eq_ok] at h1
    obtain ⟨rfl, rfl⟩ := h1
    simp only [EM.pure_eq_ok] at h
    obtain ⟨rfl, -⟩ := h
    refine ⟨written_of (d := 1) trivial, readDec256_iff.1 (read_dec256 ?_)⟩
    show w.store.makerFee.getD 0 < U256
    cases e : w.store.makerFee with
    | none => unfold U256; norm_num
    | some x => exact hs.fee x e
  · have h3 := answer_ok hr hs hm h
    refine ⟨written_of h3.1, (readAnswer_iff hm ?_).1 h3.2⟩
    rintro rfl
    unfold query at h
    rw [EM.bind_eq_ok] at h
    obtain ⟨s, s1, h1, h⟩ := h
    cases h

/-- C91: after any history, the contract answers a text exactly if it is a JSON text of a query that the contract can answer, and the answer
is a JSON text, of the form published for that query, of what the contract computes. -/
theorem C91_answers {ch : Chain} {w0 : World} (hi : Initial ch w0) {ops : List Op} (ho : OpsOk ops) (t : List Char) :
    (∀ u, queryText (run ch w0 ops).store t = some u → ∃ q m a s' j, Readable t q ∧ QueryJ m q ∧ query m (run ch w0 ops).store = .ok a s' ∧
      WrittenText u j ∧ AnswerJ m a j) ∧
    (∀ q m a s', Readable t q → QueryJ m q → query m (run ch w0 ops).store = .ok a s' →
      ∃ u j, queryText (run ch w0 ops).store t = some u ∧ WrittenText u j ∧ AnswerJ m a j) := by
  have hs := (run_written (ch := ch) (initial_written hi) ho).1
  have hr : Reachable ch (run ch w0 ops) := Reachable.run hi.reachable ops
  have key : ∀ m a s', query m (run ch w0 ops).store = .ok a s' →
      WrittenText (answerJson m a).text (answerJson m a) ∧ AnswerJ m a (answerJson m a) := fun _ _ _ h => answer_written hr hs h
  constructor
  · intro u hu
    unfold queryText at hu
    rw [Option.bind_eq_some_iff] at hu
    obtain ⟨m, hm, hu⟩ := hu
    obtain ⟨q, hq, hqm⟩ := ((C90_messages t).2.2.1 m).1 hm
    split at hu
    · next a s' h =>
      cases hu
      exact ⟨q, m, a, s', _, hq, hqm, h, key m a s' h⟩
    · cases hu
  · intro q m a s' hq hqm h
    have hm := ((C90_messages t).2.2.1 m).2 ⟨q, hq, hqm⟩
    refine ⟨(answerJson m a).text, _, ?_, key m a s' h⟩
    unfold queryText
    rw [hm, Option.bind_some, h]

/-- C91: a swap's response data is a JSON text of the published form, of the amount paid out to the swapper. -/
theorem C91_swap_data {ch : Chain} {w w' : World} (hw : Reachable ch w) {r : SwapReq} {time : Nat} {resp : Response}
    (h : step ch w (r.op time) = .ok (w', resp)) :
    ∃ n j, resp.data = some n ∧ WrittenText (swapDataJson n).text j ∧ SwapDataJ n j ∧
      ∃ rest, resp.msgs = ⟨r.sender, ⟨r.outDenom, n⟩, REPLY_ID_SUDO_SWAP_EXACT_IN⟩ :: rest := by
  obtain ⟨n, h1, h2, h3⟩ := C83_swap_data hw h
  obtain ⟨j, hj, hd⟩ := (fromText_iff fun _ _ => readSwapData_iff).1 h2
  have hw := written_of (within_swapData n)
  have : j = swapDataJson n := by
    rw [← parse_iff] at hj
    have e := parse_text ((within_swapData n).mono (show 7 ≤ maxDepth by decide))
    rw [hj] at e
    exact Option.some.inj e
  exact ⟨n, j, h1, this ▸ hw, hd, h3⟩

/-! Non-vacuity: a message with whitespace, fields in another order, an escape and one field left out; a surrogate pair; texts that are refused
(a leading zero, a second value, a missing field); an answer and a stored order after the demo history. -/

example : ∃ j, Readable "\n{ \"place_limit\" : {\"quantity\":\"+5\", \"order_direction\":\"b\\u0069d\",\"tick_id\":-7 } } ".toList j ∧
    ExecuteJ (.placeLimit (-7) .bid 5 none) j := ((C90_messages _).1 _).1 (by decide +kernel)
example : Readable "[\"\\ud83d\\ude00\", {}, -0]".toList (.arr [.str "😀", .obj [], .num true 0]) := by
  rw [← (C90_grammar _).1]
  rfl
example : (∀ m j, Readable "{\"cancel_limit\":{\"tick_id\":01,\"order_id\":2}}".toList j → ¬ ExecuteJ m j) ∧
    (∀ m j, Readable "{\"cancel_limit\":{\"tick_id\":1,\"order_id\":2}}{}".toList j → ¬ ExecuteJ m j) ∧
    (∀ m j, Readable "{\"cancel_limit\":{\"tick_id\":1}}".toList j → ¬ ExecuteJ m j) := by
  have key : ∀ t, fromText readExecuteMsg t = none → ∀ m j, Readable t j → ¬ ExecuteJ m j := by
    intro t h m j hj hm
    rw [((C90_messages t).1 m).2 ⟨j, hj, hm⟩] at h
    cases h
  exact ⟨key _ (by decide +kernel), key _ (by decide +kernel), key _ (by decide +kernel)⟩
example : ∃ q m a s' j, Readable "{\"orders_by_owner\":{\"owner\":\"dave\"}}".toList q ∧ QueryJ m q ∧
    query m (run Demo.ch Demo.w0 Demo.longer).store = .ok a s' ∧
    WrittenText ("{\"orders\":[{\"tick_id\":0,\"order_id\":3,\"order_direction\":\"bid\",\"owner\":\"dave\",\"quantity\":\"40000\",\"etas\":\"260000\"," ++
      "\"claim_bounty\":\"0.01\",\"placed_quantity\":\"100000\",\"placed_at\":\"7\"}],\"count\":1}").toList j ∧ AnswerJ m a j :=
  (C91_answers Demo.initial Demo.opsOk _).1 _ (by decide +kernel)

end OB
