import Verif.SpecExch
import Verif.Props.Refine
/- Lemmas for exchanging operations, on the reference exchange. -/
namespace OB.Exch
open Spec OB

/-! ### Changes of the reference state -/

/-- A change of the reference state, balances aside. -/
structure Delta where
  q : Int → Dir → List Entry → List Entry
  n : Nat
  best : Dir → Int → Int
  conf : Roles → Roles

def Delta.on (δ : Delta) (r : Ref) : Ref :=
  { r with nextId := r.nextId + δ.n, queues := fun t d => δ.q t d (r.queues t d), best := fun d => δ.best d (r.best d), conf := δ.conf r.conf }

def Delta.id : Delta := ⟨fun _ _ l => l, 0, fun _ x => x, fun c => c⟩

/-- First `δ`, then `ε`. -/
def Delta.comp (δ ε : Delta) : Delta :=
  ⟨fun t d l => ε.q t d (δ.q t d l), δ.n + ε.n, fun d x => ε.best d (δ.best d x), fun c => ε.conf (δ.conf c)⟩

theorem comp_on (δ ε : Delta) (r : Ref) : (δ.comp ε).on r = ε.on (δ.on r) := by
  unfold Delta.comp Delta.on
  simp only [Nat.add_assoc]

theorem id_on (r : Ref) : Delta.id.on r = r := rfl

/-- Two changes can be exchanged. -/
structure Commute (δ ε : Delta) : Prop where
  q : ∀ t d l, ε.q t d (δ.q t d l) = δ.q t d (ε.q t d l)
  best : ∀ d x, ε.best d (δ.best d x) = δ.best d (ε.best d x)
  conf : ∀ c, ε.conf (δ.conf c) = δ.conf (ε.conf c)

theorem Commute.symm {δ ε : Delta} (h : Commute δ ε) : Commute ε δ :=
  ⟨fun t d l => (h.q t d l).symm, fun d x => (h.best d x).symm, fun c => (h.conf c).symm⟩

/-- The same state with other balances. -/
abbrev bankAs (r : Ref) (k : Bank) : Ref := { r with bank := k }

theorem Commute.on {δ ε : Delta} (h : Commute δ ε) (r : Ref) (k k1 k2 : Bank) :
    bankAs (ε.on (bankAs (δ.on r) k1)) k = bankAs (δ.on (bankAs (ε.on r) k2)) k := by
  unfold Delta.on bankAs
  simp only [h.q, h.best, h.conf, Nat.add_right_comm]

/-! ### Orders -/

/-- Ids are unique within a tick. -/
def WF (r : Ref) : Prop := ∀ t, ((r.queues t .bid ++ r.queues t .ask).map Entry.id).Nodup

theorem WF.same {r : Ref} (h : WF r) {t : Int} {d d' : Dir} {x y : Entry} (hx : x ∈ r.queues t d) (hy : y ∈ r.queues t d') (he : x.id = y.id) :
    d = d' ∧ x = y := by
  have h0 := h t
  have hin : ∀ d (x : Entry), x ∈ r.queues t d → x ∈ r.queues t .bid ++ r.queues t .ask := by
    intro d x hx; cases d <;> simp [hx]
  have hxy : x = y := List.inj_on_of_nodup_map h0 (hin _ _ hx) (hin _ _ hy) he
  subst hxy
  refine ⟨?_, rfl⟩
  have hdis := (List.nodup_append.1 (List.Nodup.of_map _ h0)).2.2
  cases d <;> cases d' <;> first | rfl | exact absurd rfl (hdis x (by assumption) x (by assumption))

theorem WF.order {r : Ref} (h : WF r) {tick : Int} {id : Nat} {d : Dir} {x : Entry} :
    r.order tick id = some (d, x) ↔ x ∈ r.queues tick d ∧ x.id = id ∧ x.Live := by
  have hf : ∀ (d : Dir) (x : Entry), ((r.queues tick d).find? fun x => decide (x.id = id ∧ x.Live)) = some x ↔
      x ∈ r.queues tick d ∧ x.id = id ∧ x.Live := by
    intro d x
    constructor
    · intro hx
      exact ⟨List.mem_of_find?_eq_some hx, by simpa using List.find?_some hx⟩
    · rintro ⟨h1, h2, h3⟩
      cases hg : (r.queues tick d).find? fun x => decide (x.id = id ∧ x.Live) with
      | none => exact absurd (decide_eq_true ⟨h2, h3⟩) (List.find?_eq_none.1 hg x h1)
      | some y =>
        have h4 := List.mem_of_find?_eq_some hg
        have h5 : y.id = id ∧ y.Live := by simpa using List.find?_some hg
        rw [(h.same h1 h4 (h2.trans h5.1.symm)).2]
  unfold Ref.order
  cases h1 : (r.queues tick .bid).find? fun x => decide (x.id = id ∧ x.Live) with
  | some y =>
    have hy := (hf .bid y).1 h1
    simp only [Option.some.injEq, Prod.mk.injEq]
    constructor
    · rintro ⟨rfl, rfl⟩; exact hy
    · rintro ⟨g1, g2, g3⟩
      obtain ⟨g4, g5⟩ := h.same hy.1 g1 (hy.2.1.trans g2.symm)
      exact ⟨g4, g5⟩
  | none =>
    have hno : ∀ y, ¬ (y ∈ r.queues tick .bid ∧ y.id = id ∧ y.Live) := by
      intro y hy
      have := (hf .bid y).2 hy
      rw [h1] at this; cases this
    simp only [Option.map_eq_some_iff, Prod.mk.injEq]
    constructor
    · rintro ⟨y, hy, rfl, rfl⟩; exact (hf .ask y).1 hy
    · intro hx
      cases d with
      | bid => exact absurd hx (hno x)
      | ask => exact ⟨x, (hf .ask x).2 hx, rfl, rfl⟩

/-- Change one order of a queue. -/
def upd (tick : Int) (side : Dir) (id : Nat) (g : Entry → Entry) : Delta :=
  { Delta.id with q := fun t d l => if t = tick ∧ d = side then updQ id g l else l }

theorem update_eq (r : Ref) (tick : Int) (side : Dir) (id : Nat) (g : Entry → Entry) : r.update tick side id g = (upd tick side id g).on r := by
  unfold Ref.update Delta.on upd Delta.id Book.set
  simp only [Nat.add_zero]
  congr 1
  funext t d
  by_cases h : t = tick ∧ d = side
  · obtain ⟨rfl, rfl⟩ := h; simp
  · simp [h]

theorem updQ_ids {id : Nat} {g : Entry → Entry} (hg : ∀ x, (g x).id = x.id) (l : List Entry) : (updQ id g l).map Entry.id = l.map Entry.id := by
  unfold updQ
  rw [List.map_map]
  apply List.map_congr_left
  intro x _
  simp only [Function.comp]
  split
  · exact hg x
  · rfl

theorem upd_wf {r : Ref} (h : WF r) {tick : Int} {side : Dir} {id : Nat} {g : Entry → Entry} (hg : ∀ x, (g x).id = x.id) :
    WF ((upd tick side id g).on r) := by
  intro t
  have : ∀ d, (((upd tick side id g).on r).queues t d).map Entry.id = (r.queues t d).map Entry.id := by
    intro d
    show (if t = tick ∧ d = side then updQ id g (r.queues t d) else r.queues t d).map Entry.id = _
    split
    · exact updQ_ids hg _
    · rfl
  rw [List.map_append, this, this, ← List.map_append]
  exact h t

/-- The order after a change of an order. -/
theorem upd_order {r : Ref} (h : WF r) {tick t : Int} {side d : Dir} {id i : Nat} {g : Entry → Entry} (hg : ∀ x, (g x).id = x.id)
    (y : Entry) : ((upd tick side id g).on r).order t i = some (d, y) ↔
      if t = tick ∧ d = side ∧ i = id then ∃ x ∈ r.queues t d, x.id = i ∧ g x = y ∧ y.Live else r.order t i = some (d, y) := by
  rw [(upd_wf h hg).order]
  show (y ∈ (if t = tick ∧ d = side then updQ id g (r.queues t d) else r.queues t d) ∧ y.id = i ∧ y.Live) ↔ _
  by_cases h1 : t = tick ∧ d = side
  · rw [if_pos h1]
    by_cases h2 : i = id
    · rw [if_pos ⟨h1.1, h1.2, h2⟩]
      subst h2
      unfold updQ
      rw [List.mem_map]
      constructor
      · rintro ⟨⟨x, hx, hxy⟩, h3, h4⟩
        by_cases hxi : x.id = i
        · rw [if_pos hxi] at hxy; exact ⟨x, hx, hxi, hxy, h4⟩
        · rw [if_neg hxi] at hxy; subst hxy; exact absurd h3 hxi
      · rintro ⟨x, hx, hxi, rfl, h4⟩
        exact ⟨⟨x, hx, by rw [if_pos hxi]⟩, by rw [hg]; exact hxi, h4⟩
    · rw [if_neg (by tauto), h.order]
      unfold updQ
      rw [List.mem_map]
      constructor
      · rintro ⟨⟨x, hx, hxy⟩, h3, h4⟩
        by_cases hxi : x.id = id
        · rw [if_pos hxi] at hxy; rw [← hxy, hg] at h3; exact absurd (h3.symm.trans hxi) h2
        · rw [if_neg hxi] at hxy; subst hxy; exact ⟨hx, h3, h4⟩
      · rintro ⟨hx, h3, h4⟩
        exact ⟨⟨y, hx, by rw [if_neg (by rw [h3]; exact h2)]⟩, h3, h4⟩
  · rw [if_neg h1, if_neg (by tauto), h.order]

theorem option_ext {α : Type} {a b : Option α} (h : ∀ x, a = some x ↔ b = some x) : a = b := by
  cases a with
  | none =>
    cases b with
    | none => rfl
    | some y => exact (h y).2 rfl
  | some x => exact ((h x).1 rfl).symm

/-- Changes of the live orders `K` of `r`. -/
inductive Upds (r : Ref) (K : List (Int × Nat)) : Delta → Prop
  | nil : Upds r K Delta.id
  | cons {t i d x g δ} : (t, i) ∈ K → r.order t i = some (d, x) → (∀ y, (g y).id = y.id) → Upds r K δ → Upds r K ((upd t d i g).comp δ)

theorem Upds.mono {r r' : Ref} {K K' : List (Int × Nat)} {δ : Delta} (h : Upds r K δ) (hK : ∀ k ∈ K, k ∈ K')
    (ho : ∀ k ∈ K, ∀ d x, r.order k.1 k.2 = some (d, x) → ∃ y, r'.order k.1 k.2 = some (d, y)) : Upds r' K' δ := by
  induction h with
  | nil => exact .nil
  | @cons t i d x g δ h1 h2 h3 _ ih =>
    obtain ⟨y, hy⟩ := ho _ h1 d x h2
    exact .cons (hK _ h1) hy h3 ih

/-- What the claims of a batch look at. -/
structure SameOrders (K : List (Int × Nat)) (r r1 : Ref) : Prop where
  quote : r1.quote = r.quote
  base : r1.base = r.base
  fee : r1.conf.fee = r.conf.fee
  recipient : r1.conf.recipient = r.conf.recipient
  order : ∀ k ∈ K, r1.order k.1 k.2 = r.order k.1 k.2

theorem claims_acts {sender : Addr} {l : List (Int × Nat)} {r r1 : Ref} (hw : WF r) (hw1 : WF r1) (h : SameOrders l r r1) :
    ∃ δ ms es, Ref.claims sender r l = (δ.on r, ms, es) ∧ Ref.claims sender r1 l = (δ.on r1, ms, es) ∧ Upds r l δ := by
  induction l generalizing r r1 with
  | nil => exact ⟨Delta.id, [], [], rfl, rfl, .nil⟩
  | cons k l ih =>
    obtain ⟨tick, id⟩ := k
    have ho := h.order (tick, id) (by simp)
    have hrest : SameOrders l r r1 := ⟨h.quote, h.base, h.fee, h.recipient, fun k hk => h.order k (by simp [hk])⟩
    unfold Ref.claims
    simp only at ho
    rw [ho]
    cases hr : r.order tick id with
    | none =>
      obtain ⟨δ, ms, es, e1, e2, e3⟩ := ih hw hw1 hrest
      exact ⟨δ, ms, es, e1, e2, e3.mono (fun k hk => by simp [hk]) fun k _ d x hx => ⟨x, hx⟩⟩
    | some y =>
      obtain ⟨side, x⟩ := y
      simp only
      by_cases hc : x.claimed < x.filled
      · rw [if_pos hc, if_pos hc]
        let g : Entry → Entry := fun x => { x with claimed := x.filled }
        have hg : ∀ y, (g y).id = y.id := fun _ => rfl
        have hx := hw.order.1 hr
        have hx1 := hw1.order.1 (ho.trans hr)
        have c0 : (r.claim sender tick side x).1 = (upd tick side id g).on r := by rw [← update_eq, ← hx.2.1]; rfl
        have c1 : (r1.claim sender tick side x).1 = (upd tick side id g).on r1 := by rw [← update_eq, ← hx.2.1]; rfl
        have c2 : (r1.claim sender tick side x).2 = (r.claim sender tick side x).2 := by
          unfold Ref.claim
          simp only [h.quote, h.base, h.fee, h.recipient]
        have step : SameOrders l ((upd tick side id g).on r) ((upd tick side id g).on r1) := by
          refine ⟨h.quote, h.base, h.fee, h.recipient, fun k hk => option_ext fun y => ?_⟩
          obtain ⟨d, y⟩ := y
          rw [upd_order hw1 hg, upd_order hw hg, hrest.order k hk]
          by_cases hk' : k.1 = tick ∧ d = side ∧ k.2 = id
          · rw [if_pos hk', if_pos hk']
            obtain ⟨k1, k2⟩ := k
            obtain ⟨rfl, rfl, rfl⟩ := hk'
            constructor
            · rintro ⟨z, hz, hzi, hzy⟩
              obtain ⟨-, rfl⟩ := hw1.same hz hx1.1 (hzi.trans hx1.2.1.symm)
              exact ⟨z, hx.1, hzi, hzy⟩
            · rintro ⟨z, hz, hzi, hzy⟩
              obtain ⟨-, rfl⟩ := hw.same hz hx.1 (hzi.trans hx.2.1.symm)
              exact ⟨z, hx1.1, hzi, hzy⟩
          · rw [if_neg hk', if_neg hk']
        obtain ⟨δ, ms, es, e1, e2, e3⟩ := ih (upd_wf hw hg) (upd_wf hw1 hg) step
        refine ⟨(upd tick side id g).comp δ, (r.claim sender tick side x).2.1 ++ ms, (r.claim sender tick side x).2.2 :: es, ?_, ?_, ?_⟩
        · rw [comp_on, ← c0]
          rw [← c0] at e1
          simp only [e1]
        · rw [comp_on, ← c1, ← c2]
          rw [← c1] at e2
          simp only [e2]
        · refine .cons (x := x) (by simp) hr hg (e3.mono (fun k hk => by simp [hk]) ?_)
          intro k hk d y hy
          rw [upd_order hw hg] at hy
          split at hy
          · rename_i he
            obtain ⟨k1, k2⟩ := k
            obtain ⟨rfl, rfl, rfl⟩ := he
            exact ⟨x, hr⟩
          · exact ⟨y, hy⟩
      · rw [if_neg hc, if_neg hc]
        obtain ⟨δ, ms, es, e1, e2, e3⟩ := ih hw hw1 hrest
        exact ⟨δ, ms, es, e1, e2, e3.mono (fun k hk => by simp [hk]) fun k _ d x hx => ⟨x, hx⟩⟩

/-! ### What an operation looks at -/

/-- `r1` looks to the operation like `r` does. -/
structure View (op : Op) (r r1 : Ref) : Prop where
  quote : r1.quote = r.quote
  base : r1.base = r.base
  conf : orderKeys op = none → newSide op = none → swapSide r.base op = none → outside op = false → r1.conf = r.conf
  active : r1.conf.active = r.conf.active ∨ outside op = true
  next : newSide op ≠ none → r1.nextId = r.nextId
  fee : isClaim op = true → r1.conf.fee = r.conf.fee ∧ r1.conf.recipient = r.conf.recipient
  order : ∀ K, orderKeys op = some K → ∀ k ∈ K, r1.order k.1 k.2 = r.order k.1 k.2
  used : ∀ t d, r.queues t d ≠ [] → r1.queues t d ≠ []
  side : ∀ d, swapSide r.base op = some d → (∀ t, r1.queues t d = r.queues t d) ∧ r1.best d = r.best d

/-- What kind of change an operation makes. -/
inductive Kind (op : Op) (r : Ref) : Delta → Prop
  | orders {K δ} : orderKeys op = some K → Upds r K δ → Kind op r δ
  | new {tick : Int} {side : Dir} {e : Entry} {f : Int → Int} : newSide op = some side → e.id = r.nextId →
      Kind op r ⟨fun t d l => if t = tick ∧ d = side then l ++ [e] else l, 1, fun d x => if d = side then f x else x, fun c => c⟩
  | swap {side : Dir} {a : Int → Nat} {n : Int → Int} : swapSide r.base op = some side →
      Kind op r ⟨fun t d l => if d = side then fillQ (a t) l else l, 0, fun d x => if d = side then n x else x, fun c => c⟩
  | outside : outside op = true → Kind op r Delta.id
  | conf {f : Roles → Roles} : orderKeys op = none → newSide op = none → swapSide r.base op = none → outside op = false →
      (rolesOnly op = true → ∀ c, (f c).active = c.active ∧ (f c).fee = c.fee ∧ (f c).recipient = c.recipient) →
      (feeOnly op = true → ∀ c, (f c).active = c.active) →
      Kind op r { Delta.id with conf := f }

/-- Levels from the liquidity per tick. -/
noncomputable def levelsOf (o : Int → Nat) (s : SwapReq) (side : Dir) : List (Int × Nat) :=
  open Classical in
  let ticks := (Finset.Icc (-108000000) 182402823).filter fun t => o t ≠ 0 ∧ s.within side t
  (match side with
    | .ask => ticks.sort (· ≤ ·)
    | .bid => ticks.sort (· ≥ ·)).map fun t => (t, o t)

theorem levels_view {r r1 : Ref} (s : SwapReq) (side : Dir) (h : ∀ t, r1.queues t side = r.queues t side) : r1.levels s side = r.levels s side := by
  have e : (fun t => openTotal (r1.queues t side)) = fun t => openTotal (r.queues t side) := funext fun t => by rw [h]
  show levelsOf (fun t => openTotal (r1.queues t side)) s side = levelsOf (fun t => openTotal (r.queues t side)) s side
  rw [e]

theorem trade_acts (r : Ref) (s : SwapReq) (side : Dir) (F : List (Int × Nat)) (left : Nat) :
    r.trade s side F left = (Delta.on ⟨fun t d l => if d = side then fillQ (filledAt F t) l else l, 0,
      fun d x => if d = side then (F.getLast?.map Prod.fst).getD x else x, fun c => c⟩ r, (r.trade s side F left).2) := by
  unfold Ref.trade Delta.on
  simp only [Nat.add_zero]

theorem swap_acts {op : Op} {s : SwapReq} {r r1 : Ref} (hb : r1.base = r.base) (hside : swapSide r.base op = some (s.side r.base))
    (h : ∀ t, r1.queues t (s.side r.base) = r.queues t (s.side r.base)) :
    ∃ (δ : Delta) (resp : Response), r.swapEffect s = (δ.on r, resp) ∧ r1.swapEffect s = (δ.on r1, resp) ∧ (Kind op r δ) := by
  unfold Ref.swapEffect
  rw [hb, levels_view s _ h]
  cases hm : matchLevels (s.side r.base) (r.levels s (s.side r.base)) s.tokenIn.amount with
  | none =>
    refine ⟨⟨fun t d l => if d = s.side r.base then fillQ ((fun _ => 0) t) l else l, 0, fun d x => if d = s.side r.base then (fun x => x) x else x, fun c => c⟩,
      {}, ?_, ?_, .swap hside⟩ <;> simp [Delta.on, fillQ_zero]
  | some x =>
    obtain ⟨F, left, dust⟩ := x
    refine ⟨_, (r.trade s (s.side r.base) F left).2, trade_acts .., ?_, .swap hside⟩
    simp only
    rw [trade_acts]
    rfl

/-- The better of two ticks. -/
def improve (side : Dir) (tick x : Int) : Int := match side with | .bid => max x tick | .ask => min x tick

theorem acts (op : Op) {r r1 : Ref} (hw : WF r) (hw1 : WF r1) (h : View op r r1) :
    ∃ (δ : Delta) (resp : Response), r.effect op = (δ.on r, resp) ∧ r1.effect op = (δ.on r1, resp) ∧ Kind op r δ := by
  cases op with
  | execute sender funds time msg =>
    cases msg with
    | placeLimit tick side q bounty =>
      have place : ∀ r : Ref, r.place sender tick side q bounty time =
          (Delta.on ⟨fun t d l => if t = tick ∧ d = side then l ++ [⟨r.nextId, sender, bounty, time, q, 0, 0, false⟩] else l, 1,
            fun d x => if d = side then improve side tick x else x, fun c => c⟩ r,
           { events := [.placeLimit sender tick r.nextId side q (denomIn r.quote r.base side) (denomOut r.quote r.base side)] }) := by
        intro r
        unfold Ref.place Delta.on Book.set
        simp only [Prod.mk.injEq, and_true, Ref.mk.injEq, true_and]
        constructor
        · funext t d
          split
          · rename_i hc; rw [hc.1, hc.2]
          · rfl
        · unfold improve
          cases side <;> rfl
      refine ⟨_, _, place r, ?_, Kind.new (tick := tick) (side := side) (e := ⟨r.nextId, sender, bounty, time, q, 0, 0, false⟩)
        (f := improve side tick) rfl rfl⟩
      have := place r1
      rw [h.quote, h.base, h.next (by simp [newSide])] at this
      exact this
    | cancelLimit tick id =>
      have ho := h.order _ rfl (tick, id) (by simp)
      simp only at ho
      simp only [Ref.effect, Ref.userEffect, ho]
      cases hr : r.order tick id with
      | none => exact ⟨Delta.id, {}, rfl, rfl, .orders rfl .nil⟩
      | some y =>
        obtain ⟨side, x⟩ := y
        have hx := hw.order.1 hr
        refine ⟨(upd tick side id fun x => { x with cancelled := true }).comp Delta.id, (r.cancel tick side x).2, ?_, ?_,
          .orders rfl (.cons (by simp) hr (fun _ => rfl) .nil)⟩
        · rw [comp_on, id_on, ← update_eq, ← hx.2.1]; rfl
        · rw [comp_on, id_on, ← update_eq, ← hx.2.1]
          simp only [Ref.cancel, h.quote, h.base]
    | claimLimit tick id =>
      have ho := h.order _ rfl (tick, id) (by simp)
      simp only at ho
      simp only [Ref.effect, Ref.userEffect, ho]
      cases hr : r.order tick id with
      | none => exact ⟨Delta.id, {}, rfl, rfl, .orders rfl .nil⟩
      | some y =>
        obtain ⟨side, x⟩ := y
        have hx := hw.order.1 hr
        refine ⟨(upd tick side id fun x => { x with claimed := x.filled }).comp Delta.id,
          { msgs := (r.claim sender tick side x).2.1, events := [(r.claim sender tick side x).2.2] }, ?_, ?_,
          .orders rfl (.cons (by simp) hr (fun _ => rfl) .nil)⟩
        · rw [comp_on, id_on, ← update_eq, ← hx.2.1]; rfl
        · rw [comp_on, id_on, ← update_eq, ← hx.2.1]
          simp only [Ref.claim, h.quote, h.base, h.fee rfl]
    | batchClaim l =>
      obtain ⟨δ, ms, es, e1, e2, e3⟩ := claims_acts (sender := sender) hw hw1
        ⟨h.quote, h.base, (h.fee rfl).1, (h.fee rfl).2, h.order _ rfl⟩
      refine ⟨δ, { msgs := ms, events := .method "batchClaimLimit" [("sender", .str sender)] :: es }, ?_, ?_, .orders rfl e3⟩
      · simp only [Ref.effect, Ref.userEffect, e1]
      · simp only [Ref.effect, Ref.userEffect, e2]
    | auth m =>
      refine ⟨{ Delta.id with conf := fun c => rolesAfter c sender m }, { events := [confEvent m] }, rfl, rfl, .conf rfl rfl rfl rfl ?_ ?_⟩
      · cases m <;> simp [rolesOnly, rolesAfter]
      · cases m <;> simp [feeOnly, rolesAfter]
  | «sudo» time msg =>
    cases msg with
    | swapExactAmountIn a c out m fee =>
      exact swap_acts (s := ⟨a, c, out, m, fee, none⟩) h.base rfl (h.side _ rfl).1
    | swapToTick a c out m fee t =>
      exact swap_acts (s := ⟨a, c, out, m, fee, some t⟩) h.base rfl (h.side _ rfl).1
    | swapExactAmountOut =>
      exact ⟨{ Delta.id with conf := fun c => c }, {}, rfl, rfl, .conf rfl rfl rfl rfl (by simp) (by simp)⟩
    | transferAdmin a =>
      exact ⟨{ Delta.id with conf := fun c => { c with admin := some a } }, _, rfl, rfl, .conf rfl rfl rfl rfl (by simp) (by simp)⟩
    | removeAdmin =>
      exact ⟨{ Delta.id with conf := fun c => { c with admin := none } }, _, rfl, rfl, .conf rfl rfl rfl rfl (by simp) (by simp)⟩
    | setActive x =>
      exact ⟨{ Delta.id with conf := fun c => { c with active := x } }, _, rfl, rfl, .conf rfl rfl rfl rfl (by simp [rolesOnly]) (by simp [feeOnly])⟩
  | migrate => exact ⟨Delta.id, {}, rfl, rfl, .outside rfl⟩
  | transfer => exact ⟨Delta.id, {}, rfl, rfl, .outside rfl⟩
  | mint => exact ⟨Delta.id, {}, rfl, rfl, .outside rfl⟩

/-! ### Acceptance -/

theorem verdict_none {l : List (Prop × Err)} : verdict l = none ↔ ∀ p ∈ l, p.1 := by
  induction l with
  | nil => simp [verdict]
  | cons x l ih =>
    obtain ⟨c, e⟩ := x
    unfold verdict
    by_cases hc : c
    · rw [if_pos hc, ih]; simp [hc]
    · rw [if_neg hc]; simp [hc]

theorem swapChecks_view {ch : Chain} {s : SwapReq} {r r1 : Ref} (hq : r1.quote = r.quote) (hb : r1.base = r.base)
    (ha : r1.conf.active = r.conf.active) (h : ∀ t, r1.queues t (s.side r.base) = r.queues t (s.side r.base))
    (hbest : r1.best (s.side r.base) = r.best (s.side r.base)) (hown : Owns r1.bank s.sender [s.tokenIn])
    (hv : verdict (r.swapChecks ch s) = none) : verdict (r1.swapChecks ch s) = none := by
  rw [verdict_none] at hv ⊢
  unfold Ref.swapChecks at hv ⊢
  simp only [hq, hb, ha, levels_view s _ h, hbest] at hv ⊢
  simp only [List.forall_mem_cons] at hv ⊢
  obtain ⟨h1, h2, h3, h4⟩ := hv
  exact ⟨h1, h2, hown, h4⟩

/-- An operation that is accepted is accepted, too, in a state that looks the same to it, if the payment that comes with it is covered. -/
theorem checks_view {ch : Chain} {op : Op} {r r1 : Ref} (h : View op r r1)
    (hown : ∀ src dst cs, payment ch op = some (src, dst, cs) → Owns r1.bank src cs)
    (hv : verdict (r.checks ch op) = none) : verdict (r1.checks ch op) = none := by
  cases op with
  | execute sender funds time msg =>
    have ho := hown _ _ _ rfl
    have hact : r1.conf.active = r.conf.active := h.active.resolve_right (by simp [outside])
    rw [verdict_none] at hv ⊢
    have hsend : ∀ p ∈ r1.senderChecks ch sender funds msg, p.1 := by
      have : ∀ p ∈ r.senderChecks ch sender funds msg, p.1 := fun p hp => hv p (by unfold Ref.checks; simp [hp])
      unfold Ref.senderChecks at this ⊢
      simp only [List.forall_mem_cons] at this ⊢
      exact ⟨this.1, this.2.1, ho, this.2.2.2⟩
    have huser : ∀ p ∈ r.userChecks ch sender funds msg, p.1 := fun p hp => hv p (by unfold Ref.checks; simp [hp])
    have key : ∀ p ∈ r1.userChecks ch sender funds msg, p.1 := by
      cases msg with
      | placeLimit tick side q bounty =>
        unfold Ref.userChecks at huser ⊢
        simp only [h.quote, h.base, hact]
        exact huser
      | cancelLimit tick id =>
        have ho := h.order _ rfl (tick, id) (by simp)
        unfold Ref.userChecks at huser ⊢
        simp only at ho
        simp only [ho, hact]
        exact huser
      | claimLimit tick id =>
        have ho := h.order _ rfl (tick, id) (by simp)
        unfold Ref.userChecks at huser ⊢
        simp only at ho
        simp only [ho, hact]
        simp only [List.forall_mem_cons] at huser ⊢
        obtain ⟨h1, h2, ⟨d, h3⟩, h4⟩ := huser
        exact ⟨h1, h2, ⟨d, h.used _ _ h3⟩, h4⟩
      | batchClaim l =>
        unfold Ref.userChecks at huser ⊢
        simp only [hact]
        exact huser
      | auth m =>
        unfold Ref.userChecks at huser ⊢
        simp only [h.conf rfl rfl rfl rfl]
        exact huser
    unfold Ref.checks
    intro p hp
    rcases List.mem_append.1 hp with hp | hp
    · exact hsend p hp
    · exact key p hp
  | «sudo» time msg =>
    have hact : r1.conf.active = r.conf.active := h.active.resolve_right (by simp [outside])
    cases msg with
    | swapExactAmountIn a c out m fee =>
      exact swapChecks_view (s := ⟨a, c, out, m, fee, none⟩) h.quote h.base hact (h.side _ rfl).1 (h.side _ rfl).2 (hown _ _ _ rfl) hv
    | swapToTick a c out m fee t =>
      exact swapChecks_view (s := ⟨a, c, out, m, fee, some t⟩) h.quote h.base hact (h.side _ rfl).1 (h.side _ rfl).2 (hown _ _ _ rfl) hv
    | swapExactAmountOut => simpa only [Ref.checks, hact] using hv
    | transferAdmin a => simpa only [Ref.checks, hact] using hv
    | removeAdmin => simpa only [Ref.checks, hact] using hv
    | setActive x => simpa only [Ref.checks, hact] using hv
  | migrate => exact hv
  | transfer src dst c =>
    rw [verdict_none] at hv ⊢
    simp only [Ref.checks, List.forall_mem_cons] at hv ⊢
    exact ⟨hv.1, hown _ _ _ rfl, hv.2.2⟩
  | mint dst c => exact hv

/-! ### Frames -/

theorem order_congr {r r1 : Ref} {t : Int} {i : Nat} (h : ∀ d, r1.queues t d = r.queues t d) : r1.order t i = r.order t i := by
  unfold Ref.order
  simp only [h]

theorem bank_order (r : Ref) (k : Bank) (t : Int) (i : Nat) : (bankAs r k).order t i = r.order t i := order_congr fun _ => rfl

/-- A change leaves alone: the configuration, the counter, a side, the existence of orders. -/
structure Calm (δ : Delta) : Prop where
  conf : ∀ c, δ.conf c = c
  used : ∀ t d l, l ≠ [] → δ.q t d l ≠ []

def KeepsSide (δ : Delta) (s : Dir) : Prop := (∀ t l, δ.q t s l = l) ∧ ∀ x, δ.best s x = x

theorem updQ_ne {id : Nat} {g : Entry → Entry} {l : List Entry} (h : l ≠ []) : updQ id g l ≠ [] := by
  unfold updQ; simpa using h

theorem Upds.calm {r : Ref} {K : List (Int × Nat)} {δ : Delta} (h : Upds r K δ) : Calm δ ∧ δ.n = 0 ∧ ∀ d x, δ.best d x = x := by
  induction h with
  | nil => exact ⟨⟨fun _ => rfl, fun _ _ _ h => h⟩, rfl, fun _ _ => rfl⟩
  | @cons t i d x g δ h1 h2 h3 _ ih =>
    refine ⟨⟨fun c => ih.1.conf c, fun t' d' l hl => ?_⟩, ?_, fun d x => ih.2.2 d x⟩
    · show δ.q t' d' (if t' = t ∧ d' = d then updQ i g l else l) ≠ []
      refine ih.1.used _ _ _ ?_
      split
      · exact updQ_ne hl
      · exact hl
    · show 0 + δ.n = 0
      rw [ih.2.1]

theorem Upds.side {r : Ref} {K : List (Int × Nat)} {δ : Delta} (h : Upds r K δ) {s : Dir}
    (hs : ∀ k ∈ K, ∀ d x, r.order k.1 k.2 = some (d, x) → d ≠ s) : KeepsSide δ s := by
  induction h with
  | nil => exact ⟨fun _ _ => rfl, fun _ => rfl⟩
  | @cons t i d x g δ h1 h2 h3 _ ih =>
    refine ⟨fun t' l => ?_, fun x => ih.2 x⟩
    show δ.q t' s (if t' = t ∧ s = d then updQ i g l else l) = l
    rw [if_neg (fun hc => hs _ h1 d x h2 hc.2.symm)]
    exact ih.1 t' l

theorem find_updQ {id i : Nat} (hne : i ≠ id) {g : Entry → Entry} (hg : ∀ x, (g x).id = x.id) (l : List Entry) :
    (updQ id g l).find? (fun x => decide (x.id = i ∧ x.Live)) = l.find? fun x => decide (x.id = i ∧ x.Live) := by
  induction l with
  | nil => rfl
  | cons x l ih =>
    show ((if x.id = id then g x else x) :: updQ id g l).find? _ = _
    by_cases hx : x.id = id
    · rw [if_pos hx, List.find?_cons_of_neg, List.find?_cons_of_neg, ih]
      · simp only [decide_eq_true_eq]; rintro ⟨h, -⟩; exact hne (h.symm.trans hx)
      · simp only [decide_eq_true_eq, hg]; rintro ⟨h, -⟩; exact hne (h.symm.trans hx)
    · rw [if_neg hx, List.find?_cons, List.find?_cons, ih]

theorem Upds.order {r : Ref} {K : List (Int × Nat)} {δ : Delta} (h : Upds r K δ) {k : Int × Nat} (hk : k ∉ K) (r' : Ref) :
    (δ.on r').order k.1 k.2 = r'.order k.1 k.2 := by
  induction h generalizing r' with
  | nil => rfl
  | @cons t i d x g δ h1 h2 h3 _ ih =>
    rw [comp_on, ih]
    unfold Ref.order
    have e : ∀ d', ((upd t d i g).on r').queues k.1 d' = if k.1 = t ∧ d' = d then updQ i g (r'.queues k.1 d') else r'.queues k.1 d' := fun _ => rfl
    have hf : ∀ d', (((upd t d i g).on r').queues k.1 d').find? (fun x => decide (x.id = k.2 ∧ x.Live)) =
        (r'.queues k.1 d').find? fun x => decide (x.id = k.2 ∧ x.Live) := by
      intro d'
      rw [e]
      split
      · rename_i hc
        refine find_updQ (fun he => hk ?_) h3 _
        have : k = (t, i) := Prod.ext hc.1 he
        rw [this]; exact h1
      · rfl
    rw [hf, hf]

theorem updQ_comm {i j : Nat} (hne : i ≠ j) {g h : Entry → Entry} (hg : ∀ x, (g x).id = x.id) (hh : ∀ x, (h x).id = x.id) (l : List Entry) :
    updQ i g (updQ j h l) = updQ j h (updQ i g l) := by
  unfold updQ
  rw [List.map_map, List.map_map]
  apply List.map_congr_left
  intro x _
  simp only [Function.comp]
  by_cases h1 : x.id = i
  · have h2 : x.id ≠ j := fun h => hne (h1.symm.trans h)
    simp [h1, hne, hg]
  · by_cases h2 : x.id = j
    · simp [h2, hh, Ne.symm hne]
    · simp [h1, h2]

theorem Upds.commute {r r' : Ref} {K K' : List (Int × Nat)} {δ ε : Delta} (h : Upds r K δ) (h' : Upds r' K' ε) (hd : ∀ k ∈ K, k ∉ K') :
    Commute δ ε := by
  refine ⟨?_, fun d x => by rw [h.calm.2.2, h'.calm.2.2, h.calm.2.2], fun c => by rw [h.calm.1.conf, h'.calm.1.conf, h.calm.1.conf]⟩
  have one : ∀ {t i d g} (_ : ∀ y : Entry, (g y).id = y.id) (_ : (t, i) ∉ K'), ∀ t' d' l,
      ε.q t' d' (if t' = t ∧ d' = d then updQ i g l else l) = if t' = t ∧ d' = d then updQ i g (ε.q t' d' l) else ε.q t' d' l := by
    intro t i d g hg hn t' d' l
    induction h' generalizing l with
    | nil => rfl
    | @cons t2 i2 d2 x2 g2 δ2 k1 k2 k3 _ ih =>
      show δ2.q t' d' (if t' = t2 ∧ d' = d2 then updQ i2 g2 (if t' = t ∧ d' = d then updQ i g l else l)
        else (if t' = t ∧ d' = d then updQ i g l else l)) =
        if t' = t ∧ d' = d then updQ i g (δ2.q t' d' (if t' = t2 ∧ d' = d2 then updQ i2 g2 l else l))
        else δ2.q t' d' (if t' = t2 ∧ d' = d2 then updQ i2 g2 l else l)
      rw [← ih]
      congr 1
      by_cases c1 : t' = t ∧ d' = d
      · by_cases c2 : t' = t2 ∧ d' = d2
        · simp only [if_pos c1, if_pos c2]
          have hne : i ≠ i2 := by
            rintro rfl
            exact hn (by rw [← c1.1, c2.1]; exact k1)
          exact updQ_comm hne.symm k3 hg l
        · simp only [c2, if_false]
      · simp only [c1, if_false]
  induction h with
  | nil => intros; rfl
  | @cons t i d x g δ h1 h2 h3 _ ih =>
    intro t' d' l
    show ε.q t' d' (δ.q t' d' (if t' = t ∧ d' = d then updQ i g l else l)) = δ.q t' d' (if t' = t ∧ d' = d then updQ i g (ε.q t' d' l) else ε.q t' d' l)
    rw [ih, one h3 (hd _ h1)]

/-! ### Independence -/

theorem find_append_ne {l : List Entry} {e : Entry} {i : Nat} (h : e.id ≠ i) :
    (l ++ [e]).find? (fun x => decide (x.id = i ∧ x.Live)) = l.find? fun x => decide (x.id = i ∧ x.Live) := by
  rw [List.find?_append]
  have : [e].find? (fun x => decide (x.id = i ∧ x.Live)) = none := by simp [h]
  rw [this, Option.or_none]

theorem find_fillQ (i : Nat) (a : Nat) (l : List Entry) (h : l.find? (fun x => decide (x.id = i ∧ x.Live)) = none) :
    (fillQ a l).find? (fun x => decide (x.id = i ∧ x.Live)) = none := by
  induction l generalizing a with
  | nil => rfl
  | cons x l ih =>
    rw [List.find?_cons] at h
    have hx : decide (x.id = i ∧ x.Live) = false := by
      cases hd : decide (x.id = i ∧ x.Live) with
      | false => rfl
      | true => rw [hd] at h; cases h
    rw [hx] at h
    unfold fillQ
    rw [List.find?_cons]
    have hx' : decide (({ x with filled := x.filled + min a x.left } : Entry).id = i ∧ ({ x with filled := x.filled + min a x.left } : Entry).Live) = false := hx
    rw [hx']
    exact ih _ h

theorem fillQ_ne {a : Nat} {l : List Entry} (h : l ≠ []) : fillQ a l ≠ [] := by
  cases l with
  | nil => exact absurd rfl h
  | cons x l => unfold fillQ; simp

/-- The order is not on the side. -/
def OffSide (r : Ref) (s : Dir) (k : Int × Nat) : Prop := ∀ d x, r.order k.1 k.2 = some (d, x) → d ≠ s

/-- Frame conditions of the kinds of changes. -/
structure Keeps (op : Op) (r : Ref) (δ : Delta) : Prop where
  used : ∀ t d l, l ≠ [] → δ.q t d l ≠ []
  conf : (orderKeys op ≠ none ∨ newSide op ≠ none ∨ swapSide r.base op ≠ none ∨ outside op = true) → ∀ c, δ.conf c = c
  next : newSide op = none → δ.n = 0
  roles : rolesOnly op = true → ∀ c, (δ.conf c).active = c.active ∧ (δ.conf c).fee = c.fee ∧ (δ.conf c).recipient = c.recipient
  fees : feeOnly op = true → ∀ c, (δ.conf c).active = c.active
  ids : ∀ K, orderKeys op = some K → Upds r K δ
  new : ∀ s, newSide op = some s → ∃ (tick : Int) (e : Entry) (f : Int → Int), e.id = r.nextId ∧
    δ = ⟨fun t d l => if t = tick ∧ d = s then l ++ [e] else l, 1, fun d x => if d = s then f x else x, fun c => c⟩
  swap : ∀ s, swapSide r.base op = some s → ∃ (a : Int → Nat) (n : Int → Int),
    δ = ⟨fun t d l => if d = s then fillQ (a t) l else l, 0, fun d x => if d = s then n x else x, fun c => c⟩
  calm : (rolesOnly op = true ∨ feeOnly op = true ∨ outside op = true) → ∀ t d l x, δ.q t d l = l ∧ δ.best d x = x

theorem classes (base : Denom) (op : Op) :
    (orderKeys op ≠ none → newSide op = none ∧ swapSide base op = none ∧ outside op = false ∧ rolesOnly op = false ∧ feeOnly op = false) ∧
    (newSide op ≠ none → orderKeys op = none ∧ swapSide base op = none ∧ outside op = false ∧ rolesOnly op = false ∧ feeOnly op = false ∧ isClaim op = false) ∧
    (swapSide base op ≠ none → orderKeys op = none ∧ newSide op = none ∧ outside op = false ∧ rolesOnly op = false ∧ feeOnly op = false ∧ isClaim op = false) ∧
    (outside op = true → orderKeys op = none ∧ newSide op = none ∧ swapSide base op = none ∧ rolesOnly op = false ∧ feeOnly op = false ∧ isClaim op = false) ∧
    ((rolesOnly op = true ∨ feeOnly op = true) → orderKeys op = none ∧ newSide op = none ∧ swapSide base op = none ∧ outside op = false ∧ isClaim op = false) := by
  cases op with
  | execute a f t m =>
    cases m with
    | auth m => cases m <;> simp [orderKeys, newSide, swapSide, outside, rolesOnly, feeOnly, isClaim]
    | _ => simp [orderKeys, newSide, swapSide, outside, rolesOnly, feeOnly, isClaim]
  | «sudo» t m => cases m <;> simp [orderKeys, newSide, swapSide, outside, rolesOnly, feeOnly, isClaim]
  | _ => simp [orderKeys, newSide, swapSide, outside, rolesOnly, feeOnly, isClaim]

theorem Kind.keeps {op : Op} {r : Ref} {δ : Delta} (h : Kind op r δ) : Keeps op r δ := by
  obtain ⟨c1, c2, c3, c4, c5⟩ := classes r.base op
  cases h with
  | orders h1 h2 =>
    obtain ⟨g1, g2, g3, g4, g5⟩ := c1 (by rw [h1]; simp)
    refine ⟨h2.calm.1.used, fun _ => h2.calm.1.conf, fun _ => h2.calm.2.1, by simp [g4], by simp [g5], ?_, by simp [g1], by simp [g2], by simp [g3, g4, g5]⟩
    intro K hK
    rw [h1] at hK; cases hK; exact h2
  | @new tick side e f h1 h2 =>
    obtain ⟨g1, g2, g3, g4, g5, g6⟩ := c2 (by rw [h1]; simp)
    refine ⟨?_, fun _ _ => rfl, by simp [h1], by simp [g4], by simp [g5], by simp [g1], ?_, by simp [g2], by simp [g3, g4, g5]⟩
    · intro t d l hl
      simp only
      split
      · simp
      · exact hl
    · intro s hs
      rw [h1] at hs; cases hs
      exact ⟨tick, e, f, h2, rfl⟩
  | @swap side a n h1 =>
    obtain ⟨g1, g2, g3, g4, g5, g6⟩ := c3 (by rw [h1]; simp)
    refine ⟨?_, fun _ _ => rfl, fun _ => rfl, by simp [g4], by simp [g5], by simp [g1], by simp [g2], ?_, by simp [g3, g4, g5]⟩
    · intro t d l hl
      simp only
      split
      · exact fillQ_ne hl
      · exact hl
    · intro s hs
      rw [h1] at hs; cases hs
      exact ⟨a, n, rfl⟩
  | outside h1 =>
    obtain ⟨g1, g2, g3, g4, g5, g6⟩ := c4 h1
    exact ⟨fun _ _ _ h => h, fun _ _ => rfl, fun _ => rfl, by simp [g4], by simp [g5], by simp [g1], by simp [g2], by simp [g3],
      fun _ _ _ _ _ => ⟨rfl, rfl⟩⟩
  | conf h1 h2 h3 h4 h5 h6 =>
    exact ⟨fun _ _ _ h => h, by simp [h1, h2, h3, h4], fun _ => rfl, h5, h6, by simp [h1], by simp [h2], by simp [h3],
      fun _ _ _ _ _ => ⟨rfl, rfl⟩⟩

/-- What two independent operations need of each other. -/
inductive Apart (r : Ref) : Op → Op → Prop
  | orders {op op' k k'} : orderKeys op = some k → orderKeys op' = some k' → (∀ x ∈ k, x ∉ k') → Apart r op op'
  | new {op op' d k} : newSide op = some d → orderKeys op' = some k → (∀ x ∈ k, x.2 ≠ r.nextId) → Apart r op op'
  | swapOrders {op op' side k} : swapSide r.base op = some side → orderKeys op' = some k → (∀ x ∈ k, OffSide r side x) → Apart r op op'
  | swapNew {op op' side d} : swapSide r.base op = some side → newSide op' = some d → d ≠ side → Apart r op op'
  | swaps {op op' side side'} : swapSide r.base op = some side → swapSide r.base op' = some side' → side ≠ side' → Apart r op op'
  | outside {op op'} : outside op = true → Apart r op op'
  | roles {op op'} : rolesOnly op = true → (orderKeys op' ≠ none ∨ newSide op' ≠ none ∨ swapSide r.base op' ≠ none) → Apart r op op'
  | fee {op op'} : feeOnly op = true → isClaim op' = false → (orderKeys op' ≠ none ∨ newSide op' ≠ none ∨ swapSide r.base op' ≠ none) →
      Apart r op op'
  | symm {op op'} : Apart r op op' → Apart r op' op

theorem view_of {op op' : Op} {r : Ref} {δ : Delta} (hk : Keeps op r δ)
    (hconf : (∀ c, δ.conf c = c) ∨ ((orderKeys op' ≠ none ∨ newSide op' ≠ none ∨ swapSide r.base op' ≠ none) ∧
      ∀ c, (δ.conf c).active = c.active ∧ (isClaim op' = true → (δ.conf c).fee = c.fee ∧ (δ.conf c).recipient = c.recipient)) ∨ outside op' = true)
    (hnext : newSide op' ≠ none → newSide op = none)
    (horder : ∀ K, orderKeys op' = some K → ∀ k ∈ K, (δ.on r).order k.1 k.2 = r.order k.1 k.2)
    (hside : ∀ d, swapSide r.base op' = some d → KeepsSide δ d) (k : Bank) : View op' r (bankAs (δ.on r) k) where
  quote := rfl
  base := rfl
  conf := by
    intro h1 h2 h3 h4
    rcases hconf with h | ⟨h | h | h, -⟩ | h
    · exact h r.conf
    · exact absurd h1 h
    · exact absurd h2 h
    · exact absurd h3 h
    · rw [h4] at h; cases h
  active := by
    rcases hconf with h | ⟨-, h⟩ | h
    · exact Or.inl (by show (δ.conf r.conf).active = _; rw [h])
    · exact Or.inl (h r.conf).1
    · exact Or.inr h
  next := by
    intro h
    show r.nextId + δ.n = r.nextId
    rw [hk.next (hnext h)]; rfl
  fee := by
    intro hc
    rcases hconf with h | ⟨-, h⟩ | h
    · show (δ.conf r.conf).fee = _ ∧ (δ.conf r.conf).recipient = _
      rw [h]; exact ⟨rfl, rfl⟩
    · exact (h r.conf).2 hc
    · have := ((classes r.base op').2.2.2.1 h).2.2.2.2.2
      rw [this] at hc; cases hc
  order := by
    intro K hK x hx
    rw [bank_order]
    exact horder K hK x hx
  used := fun t d h => hk.used t d _ h
  side := fun d hd => ⟨fun t => (hside d hd).1 t _, (hside d hd).2 _⟩

theorem new_order {tick : Int} {s : Dir} {e : Entry} {f : Int → Int} {r : Ref} {k : Int × Nat} (h : e.id ≠ k.2) :
    (Delta.on ⟨fun t d l => if t = tick ∧ d = s then l ++ [e] else l, 1, fun d x => if d = s then f x else x, fun c => c⟩ r).order k.1 k.2 =
      r.order k.1 k.2 := by
  unfold Ref.order
  have hf : ∀ d', ((Delta.on ⟨fun t d l => if t = tick ∧ d = s then l ++ [e] else l, 1, fun d x => if d = s then f x else x, fun c => c⟩ r).queues k.1 d').find?
      (fun x => decide (x.id = k.2 ∧ x.Live)) = (r.queues k.1 d').find? fun x => decide (x.id = k.2 ∧ x.Live) := by
    intro d'
    show (if k.1 = tick ∧ d' = s then r.queues k.1 d' ++ [e] else r.queues k.1 d').find? _ = _
    split
    · exact find_append_ne h
    · rfl
  rw [hf, hf]

theorem swap_order {s : Dir} {a : Int → Nat} {n : Int → Int} {r : Ref} {k : Int × Nat} (h : OffSide r s k) :
    (Delta.on ⟨fun t d l => if d = s then fillQ (a t) l else l, 0, fun d x => if d = s then n x else x, fun c => c⟩ r).order k.1 k.2 =
      r.order k.1 k.2 := by
  have hf : ∀ d', (Delta.on ⟨fun t d l => if d = s then fillQ (a t) l else l, 0, fun d x => if d = s then n x else x, fun c => c⟩ r).queues k.1 d' =
      if d' = s then fillQ (a k.1) (r.queues k.1 d') else r.queues k.1 d' := fun _ => rfl
  unfold OffSide at h
  unfold Ref.order at h ⊢
  rw [hf, hf]
  cases s with
  | bid =>
    simp only [if_true, reduceCtorEq, if_false]
    cases hb : (r.queues k.1 .bid).find? fun x => decide (x.id = k.2 ∧ x.Live) with
    | some y => rw [hb] at h; exact absurd rfl (h .bid y rfl)
    | none => rw [find_fillQ _ _ _ hb]
  | ask =>
    simp only [if_true, reduceCtorEq, if_false]
    cases hb : (r.queues k.1 .bid).find? fun x => decide (x.id = k.2 ∧ x.Live) with
    | some y => rfl
    | none =>
      rw [hb] at h
      cases ha : (r.queues k.1 .ask).find? fun x => decide (x.id = k.2 ∧ x.Live) with
      | some y => rw [ha] at h; exact absurd rfl (h .ask y rfl)
      | none => simp only [find_fillQ _ _ _ ha]

theorem calm_order {δ : Delta} {r : Ref} (h : ∀ t d l x, δ.q t d l = l ∧ δ.best d x = x) (t : Int) (i : Nat) : (δ.on r).order t i = r.order t i :=
  order_congr fun _ => (h _ _ _ 0).1

theorem upds_map {r : Ref} {K : List (Int × Nat)} {δ : Delta} (h : Upds r K δ) {e : Entry} (he : ∀ k ∈ K, k.2 ≠ e.id) (t : Int) (d : Dir) (l : List Entry) :
    δ.q t d (l ++ [e]) = δ.q t d l ++ [e] := by
  induction h generalizing l with
  | nil => rfl
  | @cons t2 i d2 x g δ h1 h2 h3 _ ih =>
    show δ.q t d (if t = t2 ∧ d = d2 then updQ i g (l ++ [e]) else l ++ [e]) = δ.q t d (if t = t2 ∧ d = d2 then updQ i g l else l) ++ [e]
    split
    · have : updQ i g (l ++ [e]) = updQ i g l ++ [e] := by
        unfold updQ
        rw [List.map_append, List.map_singleton, if_neg (fun h => he _ h1 h.symm)]
      rw [this, ih]
    · exact ih l

/-- Independent operations do not see each other, and their changes can be exchanged. -/
theorem apart {op op' : Op} {r : Ref} (h : Apart r op op') {δ ε : Delta} (hδ : Kind op r δ) (hε : Kind op' r ε) :
    (∀ k, View op' r (bankAs (δ.on r) k)) ∧ (∀ k, View op r (bankAs (ε.on r) k)) ∧ Commute δ ε := by
  induction h generalizing δ ε with
  | symm _ ih =>
    obtain ⟨h1, h2, h3⟩ := ih hε hδ
    exact ⟨h2, h1, h3.symm⟩
  | @orders op op' k k' h1 h2 h3 =>
    have kδ := hδ.keeps
    have kε := hε.keeps
    have u := kδ.ids _ h1
    have v := kε.ids _ h2
    have a1 := (classes r.base op).1 (by rw [h1]; simp)
    have a2 := (classes r.base op').1 (by rw [h2]; simp)
    refine ⟨fun k => view_of kδ (Or.inl u.calm.1.conf) (fun _ => a1.1) ?_ (by simp [a2.2.1]) k,
      fun k => view_of kε (Or.inl v.calm.1.conf) (fun _ => a2.1) ?_ (by simp [a1.2.1]) k, u.commute v h3⟩
    · intro K hK x hx
      rw [h2] at hK; cases hK
      exact u.order (fun hc => h3 x hc hx) r
    · intro K hK x hx
      rw [h1] at hK; cases hK
      exact v.order (h3 x hx) r
  | @new op op' d k h1 h2 h3 =>
    have kδ := hδ.keeps
    have kε := hε.keeps
    have v := kε.ids _ h2
    obtain ⟨tick, e, f, he, rfl⟩ := kδ.new _ h1
    have a1 := (classes r.base op).2.1 (by rw [h1]; simp)
    have a2 := (classes r.base op').1 (by rw [h2]; simp)
    refine ⟨fun k => view_of kδ (Or.inl fun _ => rfl) (by simp [a2.1]) ?_ (by simp [a2.2.1]) k,
      fun k => view_of kε (Or.inl v.calm.1.conf) (fun _ => a2.1) (by simp [a1.1]) (by simp [a1.2.1]) k, ?_, ?_, ?_⟩
    · intro K hK x hx
      rw [h2] at hK; cases hK
      exact new_order (by rw [he]; exact (h3 x hx).symm)
    · intro t d' l
      simp only
      split
      · exact upds_map v (fun x hx => by rw [he]; exact h3 x hx) t d' l
      · rfl
    · intro d x; rw [v.calm.2.2, v.calm.2.2]
    · intro c; simp only [v.calm.1.conf]
  | @swapOrders op op' side k h1 h2 h3 =>
    have kδ := hδ.keeps
    have kε := hε.keeps
    have v := kε.ids _ h2
    obtain ⟨a, n, rfl⟩ := kδ.swap _ h1
    have a1 := (classes r.base op).2.2.1 (by rw [h1]; simp)
    have a2 := (classes r.base op').1 (by rw [h2]; simp)
    have vs := v.side (s := side) h3
    refine ⟨fun k => view_of kδ (Or.inl fun _ => rfl) (by simp [a2.1]) ?_ (by simp [a2.2.1]) k,
      fun k => view_of kε (Or.inl v.calm.1.conf) (fun _ => a2.1) (by simp [a1.1]) ?_ k, ?_, ?_, ?_⟩
    · intro K hK x hx
      rw [h2] at hK; cases hK
      exact swap_order (h3 x hx)
    · intro d hd
      rw [h1] at hd; cases hd
      exact vs
    · intro t d l
      simp only
      split
      · rename_i hd; subst hd
        rw [vs.1, vs.1]
      · rfl
    · intro d x; rw [v.calm.2.2, v.calm.2.2]
    · intro c; simp only [v.calm.1.conf]
  | @swapNew op op' side d h1 h2 h3 =>
    have kδ := hδ.keeps
    have kε := hε.keeps
    obtain ⟨a, n, rfl⟩ := kδ.swap _ h1
    obtain ⟨tick, e, f, he, rfl⟩ := kε.new _ h2
    have a1 := (classes r.base op).2.2.1 (by rw [h1]; simp)
    have a2 := (classes r.base op').2.1 (by rw [h2]; simp)
    refine ⟨fun k => view_of kδ (Or.inl fun _ => rfl) (fun _ => a1.2.1) (by simp [a2.1]) (by simp [a2.2.1]) k,
      fun k => view_of kε (Or.inl fun _ => rfl) (by simp [a1.2.1]) (by simp [a1.1]) ?_ k, ?_, ?_, fun _ => rfl⟩
    · intro s hs
      rw [h1] at hs; cases hs
      refine ⟨fun t l => ?_, fun x => ?_⟩
      · exact if_neg fun hc => h3 hc.2.symm
      · exact if_neg fun hc => h3 hc.symm
    · intro t d' l
      simp only
      by_cases c1 : t = tick ∧ d' = d
      · have c2 : ¬ d' = side := fun h => h3 (c1.2.symm.trans h)
        simp only [if_neg c2]
      · simp only [if_neg c1]
    · intro d' x
      simp only
      by_cases c1 : d' = d
      · have c2 : ¬ d' = side := fun h => h3 (c1.symm.trans h)
        simp only [if_neg c2]
      · simp only [if_neg c1]
  | @swaps op op' side side' h1 h2 h3 =>
    have kδ := hδ.keeps
    have kε := hε.keeps
    obtain ⟨a, n, rfl⟩ := kδ.swap _ h1
    obtain ⟨a', n', rfl⟩ := kε.swap _ h2
    have a1 := (classes r.base op).2.2.1 (by rw [h1]; simp)
    have a2 := (classes r.base op').2.2.1 (by rw [h2]; simp)
    refine ⟨fun k => view_of kδ (Or.inl fun _ => rfl) (fun _ => a1.2.1) (by simp [a2.1]) ?_ k,
      fun k => view_of kε (Or.inl fun _ => rfl) (fun _ => a2.2.1) (by simp [a1.1]) ?_ k, ?_, ?_, fun _ => rfl⟩
    · intro s hs
      rw [h2] at hs; cases hs
      exact ⟨fun t l => if_neg h3.symm, fun x => if_neg h3.symm⟩
    · intro s hs
      rw [h1] at hs; cases hs
      exact ⟨fun t l => if_neg h3, fun x => if_neg h3⟩
    · intro t d' l
      simp only
      by_cases c1 : d' = side
      · have c2 : ¬ d' = side' := fun h => h3 (c1.symm.trans h)
        simp only [if_neg c2]
      · simp only [if_neg c1]
    · intro d' x
      simp only
      by_cases c1 : d' = side
      · have c2 : ¬ d' = side' := fun h => h3 (c1.symm.trans h)
        simp only [if_neg c2]
      · simp only [if_neg c1]
  | @outside op op' h1 =>
    have kδ := hδ.keeps
    have kε := hε.keeps
    have a1 := (classes r.base op).2.2.2.1 h1
    have hq := kδ.calm (Or.inr (Or.inr h1))
    have hc := kδ.conf (Or.inr (Or.inr (Or.inr h1)))
    refine ⟨fun k => view_of kδ (Or.inl hc) (fun _ => a1.2.1) (fun _ _ _ _ => calm_order hq _ _)
      (fun d _ => ⟨fun t l => (hq t d l 0).1, fun x => (hq 0 d [] x).2⟩) k,
      fun k => view_of kε (Or.inr (Or.inr h1)) (by simp [a1.2.1]) (by simp [a1.1]) (by simp [a1.2.2.1]) k, ?_, ?_, ?_⟩
    · intro t d l; rw [(hq t d _ 0).1, (hq t d _ 0).1]
    · intro d x; rw [(hq 0 d [] _).2, (hq 0 d [] _).2]
    · intro c; rw [hc, hc]
  | @roles op op' h1 h2 =>
    have kδ := hδ.keeps
    have kε := hε.keeps
    have a1 := (classes r.base op).2.2.2.2 (Or.inl h1)
    have hq := kδ.calm (Or.inl h1)
    have hc := kδ.roles h1
    have hc' := kε.conf (h2.elim Or.inl fun h => Or.inr (h.elim Or.inl fun h => Or.inr (Or.inl h)))
    refine ⟨fun k => view_of kδ (Or.inr (Or.inl ⟨h2, fun c => ⟨(hc c).1, fun _ => (hc c).2⟩⟩)) (fun _ => a1.2.1) (fun _ _ _ _ => calm_order hq _ _)
      (fun d _ => ⟨fun t l => (hq t d l 0).1, fun x => (hq 0 d [] x).2⟩) k,
      fun k => view_of kε (Or.inl hc') (by simp [a1.2.1]) (by simp [a1.1]) (by simp [a1.2.2.1]) k, ?_, ?_, ?_⟩
    · intro t d l; rw [(hq t d _ 0).1, (hq t d _ 0).1]
    · intro d x; rw [(hq 0 d [] _).2, (hq 0 d [] _).2]
    · intro c; rw [hc', hc']
  | @fee op op' h1 hcl h2 =>
    have kδ := hδ.keeps
    have kε := hε.keeps
    have a1 := (classes r.base op).2.2.2.2 (Or.inr h1)
    have hq := kδ.calm (Or.inr (Or.inl h1))
    have hc := kδ.fees h1
    have hc' := kε.conf (h2.elim Or.inl fun h => Or.inr (h.elim Or.inl fun h => Or.inr (Or.inl h)))
    refine ⟨fun k => view_of kδ (Or.inr (Or.inl ⟨h2, fun c => ⟨hc c, by simp [hcl]⟩⟩)) (fun _ => a1.2.1) (fun _ _ _ _ => calm_order hq _ _)
      (fun d _ => ⟨fun t l => (hq t d l 0).1, fun x => (hq 0 d [] x).2⟩) k,
      fun k => view_of kε (Or.inl hc') (by simp [a1.2.1]) (by simp [a1.1]) (by simp [a1.2.2.1]) k, ?_, ?_, ?_⟩
    · intro t d l; rw [(hq t d _ 0).1, (hq t d _ 0).1]
    · intro d x; rw [(hq 0 d [] _).2, (hq 0 d [] _).2]
    · intro c; rw [hc', hc']

end OB.Exch
