import Verif.Props.Text
import Verif.Props.Refine
/- C84: the published texts carry the whole response. -/
namespace OB
open Spec

theorem headEvent_method {name : String} {as : List (String × Attr)} (hn : name ∉ ["claimLimit", "placeLimit", "cancelLimit", "swapExactAmountIn"])
    (h : ∀ p ∈ as, typed p.1 p.2.text = some p.2) : headEvent (Event.method name as).attrs = some [.method name as] := by
  simp only [List.mem_cons, List.not_mem_nil, or_false, not_or] at hn
  have hm : attr (Event.method name as).attrs "method" = some name := by simp [attr, Event.attrs, List.lookup]
  unfold headEvent
  rw [hm]
  simp only [hn.1, hn.2.1, hn.2.2.1, hn.2.2.2, if_false]
  have : (Event.method name as).attrs.tail = as.map fun p => (p.1, p.2.text) := rfl
  rw [this]
  have key : ((as.map fun p => (p.1, p.2.text)).mapM fun p : String × String => (typed p.1 p.2).map fun v => (p.1, v)) = some as := by
    clear this hm
    induction as with
    | nil => rfl
    | cons p l ih =>
      rw [List.map_cons, List.mapM_cons, ih fun q hq => h q (List.mem_cons_of_mem _ hq)]
      simp only [h p (by simp), Option.map_some]
      rfl
  rw [key]
  rfl

theorem typed_fee (f : Nat) : typed "maker_fee" (Attr.dec f).text = some (.dec f) := by
  unfold typed Attr.text
  simp only [String.reduceEq, if_false, if_true, String.toList_ofList, decimal_decText, Option.map_some, Option.some.injEq, Attr.dec.injEq]
  have : (f : ℚ) / 10 ^ 18 * 10 ^ 18 = f := by field_simp
  rw [this, Nat.floor_natCast]

theorem headEvent_conf {e : Event} (h : ConfEvent e) : headEvent e.attrs = some [e] := by
  cases h <;> refine headEvent_method (by decide) ?_ <;>
    simp only [List.forall_mem_cons, List.not_mem_nil, false_imp_iff, implies_true, and_true]
  case setFee f => exact typed_fee f
  case setActive b => cases b <;> rfl
  all_goals rfl

theorem claimEvent_text {e : Event} (he : e.isClaimed = true) : claimEvent ("limitClaimed", e.attrs) = some e := by
  cases e with
  | limitClaimed sender tick id left owner dir amount placed full d1 d2 =>
    have h1 : orderKey (Event.limitClaimed sender tick id left owner dir amount placed full d1 d2).attrs = some (tick, id) :=
      orderKey_eq (by simp [attr, Event.attrs, List.lookup]) (by simp [attr, Event.attrs, List.lookup])
    unfold claimEvent
    rw [h1]
    simp [attr, Event.attrs, List.lookup, side_text, truth_text, String.toList_ofList, number_natText]
  | _ => simp [Event.isClaimed] at he

theorem claimEvents_text {es : List Event} (h : ∀ e ∈ es, e.isClaimed = true) :
    ((es.filter Event.isClaimed).map fun e => (("limitClaimed", e.attrs) : String × Attrs)).mapM claimEvent = some es := by
  rw [List.filter_eq_self.2 h]
  induction es with
  | nil => rfl
  | cons e es ih =>
    rw [List.map_cons, List.mapM_cons, claimEvent_text (h e (by simp)), ih fun x hx => h x (List.mem_cons_of_mem _ hx)]
    rfl

theorem conf_not_claimed {e : Event} (h : ConfEvent e) : e.isClaimed = false := by cases h <;> rfl

theorem Shape.decode {r : Response} (h : Shape DenomText r.events) :
    Spec.decode r.raw = some r.events := by
  obtain ⟨msgs, es, data⟩ := r
  have one : ∀ e : Event, e.isClaimed = false → headEvent e.attrs = some [e] →
      Spec.decode (Response.raw ⟨msgs, [e], data⟩) = some [e] := by
    intro e h1 h2
    unfold Spec.decode Response.raw
    simp only [h1, List.filter, List.map_nil, h2, Bool.false_eq_true, if_false]
    rfl
  simp only at h
  cases h with
  | none => rfl
  | place a t i d q d1 d2 =>
    refine one _ rfl ?_
    have h1 : orderKey (Event.placeLimit a t i d q d1 d2).attrs = some (t, i) :=
      orderKey_eq (by simp [attr, Event.attrs, List.lookup]) (by simp [attr, Event.attrs, List.lookup])
    unfold headEvent
    rw [h1]
    simp [attr, Event.attrs, List.lookup, side_text, String.toList_ofList, number_natText]
  | cancel a t i q d p d1 d2 =>
    refine one _ rfl ?_
    have h1 : orderKey (Event.cancelLimit a t i q d p d1 d2).attrs = some (t, i) :=
      orderKey_eq (by simp [attr, Event.attrs, List.lookup]) (by simp [attr, Event.attrs, List.lookup])
    unfold headEvent
    rw [h1]
    simp [attr, Event.attrs, List.lookup, side_text, String.toList_ofList, number_natText]
  | claim e he =>
    have h1 : (Response.raw ⟨msgs, [e], data⟩).attributes = [("method", "claimLimit")] := by simp [Response.raw, he]
    have h2 : (Response.raw ⟨msgs, [e], data⟩).events.mapM claimEvent = some [e] := claimEvents_text (es := [e]) (by simpa using he)
    unfold Spec.decode
    rw [h1, h2]
    simp [headEvent, attr, List.lookup]
  | batch a es he =>
    have h1 : (Response.raw ⟨msgs, .method "batchClaimLimit" [("sender", .str a)] :: es, data⟩).attributes =
        (Event.method "batchClaimLimit" [("sender", .str a)]).attrs := rfl
    have h2 : (Response.raw ⟨msgs, .method "batchClaimLimit" [("sender", .str a)] :: es, data⟩).events.mapM claimEvent = some es := by
      have : (Response.raw ⟨msgs, .method "batchClaimLimit" [("sender", .str a)] :: es, data⟩).events =
          (es.filter Event.isClaimed).map fun e => (("limitClaimed", e.attrs) : String × Attrs) := rfl
      rw [this, claimEvents_text he]
    unfold Spec.decode
    rw [h1, h2, headEvent_method (by decide) (by simp [typed, Attr.text])]
    rfl
  | swap a c out m o hd =>
    refine one _ rfl ?_
    have hc := coinOf_coinText hd
    unfold headEvent
    simp [attr, Event.attrs, List.lookup, String.toList_ofList, number_natText, hc]
  | conf e he => exact one e (conf_not_claimed he) (headEvent_conf he)

theorem Shape.mono {P Q : Denom → Prop} (hPQ : ∀ d, P d → Q d) {es : List Event} (h : Shape P es) : Shape Q es := by
  cases h with
  | none => exact .none
  | place => exact .place ..
  | cancel => exact .cancel ..
  | claim e he => exact .claim e he
  | batch a es he => exact .batch a es he
  | swap a c out m o h => exact .swap a c out m o (hPQ _ h)
  | conf e he => exact .conf e he

/-- C84: nothing is lost or blurred in the published texts: a reader recovers the complete structured response of every accepted
transaction (owners, ticks, ids, sides, all amounts, denoms, configuration values), provided the book's denoms do not begin with a digit,
as on every chain. -/
theorem C84_decode {ch : Chain} {w w' : World} (hw : Reachable ch w) (hden : ∀ quote base, denoms w.store = .ok (quote, base) →
    DenomText quote ∧ DenomText base) {op : Op} {resp : Response} (hs : step ch w op = .ok (w', resp)) : decode resp.raw = some resp.events := by
  refine ((step_shape hw hs).mono ?_).decode
  rintro d ⟨ob, hob, hd⟩
  have h := hden ob.quoteDenom ob.baseDenom (by unfold denoms; rw [hob])
  rcases hd with rfl | rfl
  · exact h.1
  · exact h.2

theorem shape_names {P : Denom → Prop} {r : Response} (h : Shape P r.events) :
    (r.raw.attributes = [] ∨ ∃ m, attr r.raw.attributes "method" = some m ∧ r.raw.attributes.map Prod.fst = "method" :: attrNames m) ∧
    ∀ e ∈ r.raw.events, e.1 = "limitClaimed" ∧ e.2.map Prod.fst = claimNames := by
  have hcl : ∀ e ∈ r.raw.events, e.1 = "limitClaimed" ∧ e.2.map Prod.fst = claimNames := by
    intro e he
    unfold Response.raw at he
    simp only [List.mem_map, List.mem_filter] at he
    obtain ⟨x, ⟨-, hx⟩, rfl⟩ := he
    cases x <;> simp [Event.isClaimed] at hx
    exact ⟨rfl, rfl⟩
  refine ⟨?_, hcl⟩
  obtain ⟨msgs, es, data⟩ := r
  simp only at h
  cases h with
  | none => exact Or.inl rfl
  | place => exact Or.inr ⟨"placeLimit", rfl, rfl⟩
  | cancel => exact Or.inr ⟨"cancelLimit", rfl, rfl⟩
  | claim e he =>
    have h1 : (Response.raw ⟨msgs, [e], data⟩).attributes = [("method", "claimLimit")] := by simp [Response.raw, he]
    exact Or.inr ⟨"claimLimit", by rw [h1]; rfl, by rw [h1]; rfl⟩
  | batch => exact Or.inr ⟨"batchClaimLimit", rfl, rfl⟩
  | swap => exact Or.inr ⟨"swapExactAmountIn", rfl, rfl⟩
  | conf e he => cases he <;> exact Or.inr ⟨_, rfl, rfl⟩

/-- C84: the attributes are exactly those documented for the method, in this order, and the custom events are those of claims. -/
theorem C84_names {ch : Chain} {w w' : World} (hw : Reachable ch w) {op : Op} {resp : Response} (hs : step ch w op = .ok (w', resp)) :
    (resp.raw.attributes = [] ∨
      ∃ m, attr resp.raw.attributes "method" = some m ∧ resp.raw.attributes.map Prod.fst = "method" :: attrNames m) ∧
    ∀ e ∈ resp.raw.events, e.1 = "limitClaimed" ∧ e.2.map Prod.fst = claimNames :=
  shape_names (step_shape hw hs)

/-- The entries of the accepted answers. -/
def accepted (l : List (Except Err Response)) : List (List Event) :=
  l.filterMap fun | .ok r => some r.events | .error _ => none

theorem published_decode {ch : Chain} {w : World} (hw : Reachable ch w) (hden : ∀ quote base, denoms w.store = .ok (quote, base) →
    DenomText quote ∧ DenomText base) (ops : List Op) : (published ch w ops).mapM decode = some (accepted (answers ch w ops)) := by
  induction ops generalizing w with
  | nil => rfl
  | cons op ops ih =>
    unfold published answers
    cases hs : step ch w op with
    | error e => exact ih hw hden
    | ok x =>
      obtain ⟨w', resp⟩ := x
      have hd' : ∀ quote base, denoms w'.store = .ok (quote, base) → DenomText quote ∧ DenomText base := by
        intro q b hqb
        have e : apply ch w op = w' := by unfold apply; rw [hs]
        have := C39_denoms_fixed hw [op]
        rw [show run ch w [op] = apply ch w op from rfl, e] at this
        exact hden q b (by rw [← this]; exact hqb)
      have h1 := ih (hw.step hs) hd'
      simp only
      rw [List.mapM_cons, C84_decode hw hden hs, h1]
      rfl

/-- C84: read as texts only, a whole history of published responses is that of the reference book. -/
theorem C84_published {ch : Chain} {w0 : World} (hi : Initial ch w0) {quote base : Denom} (hd : denoms w0.store = .ok (quote, base))
    (hq : DenomText quote) (hb : DenomText base) (ops : List Op) (hn : (run ch w0 ops).HasRoom) :
    (published ch w0 ops).mapM decode = some (accepted (Ref.run ch (Ref.fresh quote base w0.bank) ops).2) := by
  rw [published_decode hi.reachable (fun q b h => by rw [hd] at h; cases h; exact ⟨hq, hb⟩) ops, (C67_refines hi hd ops hn).1]

/-- C84 is not vacuous: the book of the demonstration qualifies, and all twelve accepted answers of its fourteen transactions are read back. -/
example : (published Demo.ch Demo.w0 Demo.longer).mapM decode = some (accepted (Ref.run Demo.ch (Ref.fresh "q" "b" Demo.w0.bank) Demo.longer).2) ∧
    Demo.longer.length = 14 ∧ (published Demo.ch Demo.w0 Demo.longer).length = 12 :=
  ⟨C84_published Demo.initial (quote := "q") (base := "b") rfl (by simp [DenomText]) (by simp [DenomText]) Demo.longer ((C72_room Demo.initial _).2.1 (by decide +kernel)),
    by decide +kernel, by decide +kernel⟩

end OB
