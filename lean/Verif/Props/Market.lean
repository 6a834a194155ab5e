import Verif.SpecMarket
import Verif.Props.Fee
import Verif.Props.Ids
/- C109: claims and gifts decide nothing about the market. -/
namespace OB
open Spec

/-- The same exchange but for what was claimed and what accounts hold. -/
structure SameMarket (r r' : Ref) : Prop where
  quote : r.quote = r'.quote
  base : r.base = r'.base
  conf : r.conf = r'.conf
  nextId : r.nextId = r'.nextId
  best : r.best = r'.best
  queues : ∀ t d, (r.queues t d).map Entry.unclaimed = (r'.queues t d).map Entry.unclaimed

theorem SameMarket.refl (r : Ref) : SameMarket r r := ⟨rfl, rfl, rfl, rfl, rfl, fun _ _ => rfl⟩
theorem SameMarket.symm {r r' : Ref} (h : SameMarket r r') : SameMarket r' r :=
  ⟨h.quote.symm, h.base.symm, h.conf.symm, h.nextId.symm, h.best.symm, fun t d => (h.queues t d).symm⟩
theorem SameMarket.trans {r r' r'' : Ref} (h : SameMarket r r') (g : SameMarket r' r'') : SameMarket r r'' :=
  ⟨h.quote.trans g.quote, h.base.trans g.base, h.conf.trans g.conf, h.nextId.trans g.nextId, h.best.trans g.best,
    fun t d => (h.queues t d).trans (g.queues t d)⟩

/-- Nothing was claimed beyond its fill, and ids are unique. -/
def Neat (r : Ref) : Prop := Fine r.queues ∧ ∀ tick id d x, r.order tick id = some (d, x) ↔ x ∈ r.queues tick d ∧ x.id = id ∧ x.Live

theorem neat_of {s : Store} {b : Book} {k : Bank} (h : Rel s b) : Neat (refS s b k) := ⟨h.fine, fun _ _ _ _ => refOf_order h⟩

theorem unclaimed_fields {x y : Entry} (h : x.unclaimed = y.unclaimed) :
    x.id = y.id ∧ x.owner = y.owner ∧ x.bounty = y.bounty ∧ x.placedAt = y.placedAt ∧ x.placed = y.placed ∧ x.filled = y.filled ∧ x.cancelled = y.cancelled := by
  unfold Entry.unclaimed at h
  rw [Entry.mk.injEq] at h
  obtain ⟨h1, h2, h3, h4, h5, h6, -, h7⟩ := h
  exact ⟨h1, h2, h3, h4, h5, h6, h7⟩

theorem openTotal_left {q : List Entry} (h : ∀ x ∈ q, x.claimed ≤ x.filled) : openTotal q = (q.map Entry.left).sum := by
  induction q with
  | nil => rfl
  | cons x q ih =>
    have ih := ih fun y hy => h y (by simp [hy])
    rw [openTotal_live] at ih ⊢
    by_cases hl : x.Live
    · rw [liveQ_pos _ hl, List.map_cons, List.sum_cons, ih, List.map_cons, List.sum_cons]
      unfold Entry.left
      rw [hl.1]; simp
    · rw [liveQ_neg _ hl, ih, List.map_cons, List.sum_cons, dead_left (h x (by simp)) hl, Nat.zero_add]

theorem market_open {q q' : List Entry} (h : q.map Entry.unclaimed = q'.map Entry.unclaimed) (hf : ∀ x ∈ q, x.claimed ≤ x.filled)
    (hf' : ∀ x ∈ q', x.claimed ≤ x.filled) : openTotal q = openTotal q' := by
  rw [openTotal_left hf, openTotal_left hf']
  have e : ∀ l : List Entry, l.map Entry.left = (l.map Entry.unclaimed).map Entry.left := fun l => by rw [List.map_map]; rfl
  rw [e, e q', h]

theorem fillQ_unclaimed (f : Nat) (q : List Entry) : (fillQ f q).map Entry.unclaimed = fillQ f (q.map Entry.unclaimed) := by
  induction q generalizing f with
  | nil => rfl
  | cons x q ih => rw [fillQ, List.map_cons, List.map_cons, fillQ, ih]; rfl

theorem updQ_unclaimed (id : Nat) {g : Entry → Entry} (hg : ∀ x, (g x).unclaimed = g x.unclaimed) (q : List Entry) :
    (updQ id g q).map Entry.unclaimed = updQ id g (q.map Entry.unclaimed) := by
  unfold updQ
  rw [List.map_map, List.map_map]
  refine List.map_congr_left fun x _ => ?_
  simp only [Function.comp]
  have : x.unclaimed.id = x.id := rfl
  rw [this]
  split
  · exact hg x
  · rfl

theorem updQ_quiet (id : Nat) {g : Entry → Entry} (hg : ∀ x, (g x).unclaimed = x.unclaimed) (q : List Entry) :
    (updQ id g q).map Entry.unclaimed = q.map Entry.unclaimed := by
  unfold updQ
  rw [List.map_map]
  refine List.map_congr_left fun x _ => ?_
  simp only [Function.comp]
  split
  · exact hg x
  · rfl

theorem market_set {b b' : Book} (h : ∀ t d, (b t d).map Entry.unclaimed = (b' t d).map Entry.unclaimed) {tick : Int} {side : Dir} {q q' : List Entry}
    (hq : q.map Entry.unclaimed = q'.map Entry.unclaimed) (t : Int) (d : Dir) :
    (b.set tick side q t d).map Entry.unclaimed = (b'.set tick side q' t d).map Entry.unclaimed := by
  unfold Book.set
  split
  · exact hq
  · exact h t d

theorem claim_market (r : Ref) (sender : Addr) (tick : Int) (side : Dir) (x : Entry) : SameMarket r (r.claim sender tick side x).1 := by
  refine ⟨rfl, rfl, rfl, rfl, rfl, fun t d => ?_⟩
  show _ = ((r.queues.set tick side (updQ x.id _ (r.queues tick side))) t d).map Entry.unclaimed
  unfold Book.set
  split
  · next h =>
    obtain ⟨rfl, rfl⟩ := h
    exact (updQ_quiet x.id (g := fun x => { x with claimed := x.filled }) (fun _ => rfl) _).symm
  · rfl

theorem claims_market (sender : Addr) (l : List (Int × Nat)) (r : Ref) : SameMarket r (Ref.claims sender r l).1 := by
  induction l generalizing r with
  | nil => exact .refl r
  | cons k l ih =>
    obtain ⟨tick, id⟩ := k
    unfold Ref.claims
    cases r.order tick id with
    | none => exact ih r
    | some p =>
      obtain ⟨side, x⟩ := p
      simp only
      split
      · exact (claim_market r sender tick side x).trans (ih _)
      · exact ih r

/-- Quiet operations leave the market alone. -/
theorem quiet_market (ch : Chain) (r : Ref) {op : Op} (hq : Op.quiet op = true) : SameMarket r (nextRef ch r op) := by
  have key : SameMarket r (r.effect op).1 := by
    cases op with
    | execute sender funds time msg =>
      cases msg with
      | claimLimit tick id =>
        simp only [Ref.effect, Ref.userEffect]
        cases r.order tick id with
        | none => exact .refl r
        | some p => exact claim_market r sender tick p.1 p.2
      | batchClaim l => exact claims_market sender l r
      | _ => cases hq
    | «sudo» time m => cases hq
    | migrate => exact .refl r
    | mint a c => exact .refl r
    | transfer a b c => exact .refl r
  unfold nextRef Ref.step
  cases verdict (r.checks ch op) with
  | some e => exact .refl r
  | none => exact ⟨key.quote, key.base, key.conf, key.nextId, key.best, key.queues⟩

/-! ### Cancellations -/

theorem market_order {r r' : Ref} (h : SameMarket r r') (hn : Neat r) (hn' : Neat r') {tick : Int} {id : Nat} {side : Dir} {x : Entry}
    (hx : r.order tick id = some (side, x)) (hc : x.filled = x.claimed) :
    ∃ x', r'.order tick id = some (side, x') ∧ x.unclaimed = x'.unclaimed := by
  obtain ⟨h1, h2, h3⟩ := (hn.2 tick id side x).1 hx
  have hm : x.unclaimed ∈ (r'.queues tick side).map Entry.unclaimed := by
    rw [← h.queues]; exact List.mem_map_of_mem h1
  obtain ⟨x', g1, g2⟩ := List.mem_map.1 hm
  obtain ⟨k1, -, -, -, k2, k3, k4⟩ := unclaimed_fields g2
  have k5 := hn'.1 tick side x' g1
  have k6 := h3.2
  exact ⟨x', (hn'.2 tick id side x').2 ⟨g1, k1.trans h2, k4.trans h3.1, by omega⟩, g2.symm⟩

theorem verdict_mem {l : List (Prop × Err)} {c : Prop} {e : Err} (hc : ¬ c) (h : ∀ x ∈ l, x.1) : verdict (l ++ [(c, e)]) = some e := by
  induction l with
  | nil => unfold verdict; rw [List.nil_append]; exact if_neg hc
  | cons y l ih =>
    obtain ⟨c', e'⟩ := y
    have := h (c', e') (by simp)
    simp only at this
    rw [List.cons_append]
    unfold verdict
    rw [if_pos this]
    exact ih fun z hz => h z (by simp [hz])

theorem cancel_market {ch : Chain} {r r' : Ref} (h : SameMarket r r') (hn : Neat r) (hn' : Neat r') {sender : Addr} {funds : List Coin} {time : Nat}
    {tick : Int} {id : Nat} (hv : verdict (r.checks ch (.execute sender funds time (.cancelLimit tick id))) = none)
    (hv' : verdict (r'.checks ch (.execute sender funds time (.cancelLimit tick id))) ≠ some .cancelFilledOrder) :
    verdict (r'.checks ch (.execute sender funds time (.cancelLimit tick id))) = none ∧
    ∃ side x x', r.order tick id = some (side, x) ∧ r'.order tick id = some (side, x') ∧ x.unclaimed = x'.unclaimed := by
  have hc := verdict_clear hv
  simp only [Ref.checks, Ref.senderChecks, Ref.userChecks, List.cons_append, List.nil_append, List.mem_cons, List.not_mem_nil, or_false,
    forall_eq_or_imp, forall_eq] at hc
  obtain ⟨c1, c2, -, c4, c5, c6, c7, c8⟩ := hc
  cases ho : r.order tick id with
  | none => exact absurd ho c6
  | some p =>
    obtain ⟨side, x⟩ := p
    obtain ⟨x', hx', he⟩ := market_order h hn hn' ho (c8 side x ho)
    have hall : ∀ y ∈ [((sender ≠ ch.contract : Prop), Err.std), (MsgFits (.cancelLimit tick id), .decode), (Owns r'.bank sender funds, .bank),
        (r'.conf.active = true, .inactive), (funds = [], .payment .nonPayable), (r'.order tick id ≠ none, .orderNotFound tick id),
        ((∀ side x, r'.order tick id = some (side, x) → x.owner = sender), .unauthorized)], y.1 := by
      simp only [List.mem_cons, List.not_mem_nil, or_false, forall_eq_or_imp, forall_eq]
      refine ⟨c1, c2, ?_, ?_, c5, by rw [hx']; simp, fun s y hy => ?_⟩
      · rw [c5]
        refine ⟨fun c hc => by simp at hc, fun d => ?_⟩
        show 0 ≤ _
        exact Nat.zero_le _
      · rw [← h.conf]; exact c4
      · rw [hx'] at hy
        obtain ⟨rfl, rfl⟩ := Prod.mk.injEq .. ▸ Option.some.inj hy
        exact (unclaimed_fields he).2.1.symm.trans (c7 _ _ ho)
    refine ⟨?_, side, x, x', rfl, hx', he⟩
    by_cases hf : ∀ side x, r'.order tick id = some (side, x) → x.filled = x.claimed
    · refine verdict_all ?_
      simp only [List.mem_cons, List.not_mem_nil, or_false, forall_eq_or_imp, forall_eq] at hall
      simp only [Ref.checks, Ref.senderChecks, Ref.userChecks, List.cons_append, List.nil_append, List.mem_cons, List.not_mem_nil, or_false,
        forall_eq_or_imp, forall_eq]
      obtain ⟨a1, a2, a3, a4, a5, a6, a7⟩ := hall
      exact ⟨a1, a2, a3, a4, a5, a6, a7, hf⟩
    · exact absurd (verdict_mem (e := .cancelFilledOrder) hf hall) hv'

/-! ### Everything else on the market -/

theorem market_levels {r r' : Ref} (h : SameMarket r r') (hn : Neat r) (hn' : Neat r') (s : SwapReq) (side : Dir) : r'.levels s side = r.levels s side := by
  have e : ∀ side t, openTotal (r'.queues t side) = openTotal (r.queues t side) := fun side t =>
    (market_open (h.queues t side) (hn.1 t side) (hn'.1 t side)).symm
  unfold Ref.levels
  simp only [e]
  generalize Finset.Icc (-108000000 : Int) 182402823 = I
  cases side with
  | bid => exact congrArg (fun F : Finset Int => (F.sort (· ≥ ·)).map _) (by ext t; simp only [Finset.mem_filter, e])
  | ask => exact congrArg (fun F : Finset Int => (F.sort (· ≤ ·)).map _) (by ext t; simp only [Finset.mem_filter, e])

theorem market_verdict {ch : Chain} {r r' : Ref} (hm : SameMarket r r') (hn : Neat r) (hn' : Neat r') {op : Op} (hq : Op.quiet op = false)
    (hc : Op.isCancel op = false) (h : verdict (r.checks ch op) ≠ some .bank) (h' : verdict (r'.checks ch op) ≠ some .bank) :
    verdict (r.checks ch op) = verdict (r'.checks ch op) := by
  have hlev := market_levels hm hn hn'
  obtain ⟨quote, base, conf, nid, Q, best, k⟩ := r
  obtain ⟨quote', base', conf', nid', Q', best', k'⟩ := r'
  obtain ⟨h1, h2, h3, h4, h5, -⟩ := hm
  simp only at h1 h2 h3 h4 h5
  subst h1 h2 h3 h4 h5
  cases op with
  | execute sender funds time msg =>
    cases msg with
    | auth m => exact verdict_past (l := [_, _]) h h'
    | placeLimit tick side q bounty => exact verdict_past (l := [_, _]) h h'
    | cancelLimit tick id => cases hc
    | claimLimit tick id => cases hq
    | batchClaim l => cases hq
  | «sudo» time m =>
    cases m with
    | swapExactAmountIn sender c out minOut fee =>
      simp only [Ref.checks, Ref.swapChecks, hlev] at h h' ⊢
      exact verdict_past (l := [_, _]) h h'
    | swapToTick sender c out minOut fee target =>
      simp only [Ref.checks, Ref.swapChecks, hlev] at h h' ⊢
      exact verdict_past (l := [_, _]) h h'
    | swapExactAmountOut a b c d e => rfl
    | transferAdmin a => rfl
    | removeAdmin => rfl
    | setActive x => rfl
  | migrate => cases hq
  | mint a b => cases hq
  | transfer a b c => cases hq

theorem market_effect {r r' : Ref} (hm : SameMarket r r') (hn : Neat r) (hn' : Neat r') {op : Op} (hq : Op.quiet op = false)
    (hc : Op.isCancel op = false) : (r.effect op).2 = (r'.effect op).2 ∧ SameMarket (r.effect op).1 (r'.effect op).1 := by
  have hlev := market_levels hm hn hn'
  obtain ⟨quote, base, conf, nid, Q, best, k⟩ := r
  obtain ⟨quote', base', conf', nid', Q', best', k'⟩ := r'
  obtain ⟨h1, h2, h3, h4, h5, h6⟩ := hm
  simp only at h1 h2 h3 h4 h5 h6
  subst h1 h2 h3 h4 h5
  have hswap : ∀ s : SwapReq, ((⟨quote, base, conf, nid, Q, best, k⟩ : Ref).swapEffect s).2 = ((⟨quote, base, conf, nid, Q', best, k'⟩ : Ref).swapEffect s).2 ∧
      SameMarket ((⟨quote, base, conf, nid, Q, best, k⟩ : Ref).swapEffect s).1 ((⟨quote, base, conf, nid, Q', best, k'⟩ : Ref).swapEffect s).1 := by
    intro s
    unfold Ref.swapEffect
    simp only [hlev]
    cases matchLevels (s.side base) ((⟨quote, base, conf, nid, Q, best, k⟩ : Ref).levels s (s.side base)) s.tokenIn.amount with
    | none => exact ⟨rfl, rfl, rfl, rfl, rfl, rfl, h6⟩
    | some p =>
      refine ⟨rfl, rfl, rfl, rfl, rfl, rfl, fun t d => ?_⟩
      simp only [Ref.trade]
      split
      · rw [fillQ_unclaimed, fillQ_unclaimed, h6]
      · exact h6 t d
  cases op with
  | execute sender funds time msg =>
    cases msg with
    | auth m => exact ⟨rfl, rfl, rfl, rfl, rfl, rfl, h6⟩
    | placeLimit tick side q bounty =>
      refine ⟨rfl, rfl, rfl, rfl, rfl, rfl, fun t d => ?_⟩
      exact market_set h6 (by rw [List.map_append, List.map_append, h6]) t d
    | cancelLimit tick id => cases hc
    | claimLimit tick id => cases hq
    | batchClaim l => cases hq
  | «sudo» time m =>
    cases m with
    | swapExactAmountIn sender c out minOut fee => exact hswap _
    | swapToTick sender c out minOut fee target => exact hswap _
    | swapExactAmountOut a b c d e => exact ⟨rfl, rfl, rfl, rfl, rfl, rfl, h6⟩
    | transferAdmin a => exact ⟨rfl, rfl, rfl, rfl, rfl, rfl, h6⟩
    | removeAdmin => exact ⟨rfl, rfl, rfl, rfl, rfl, rfl, h6⟩
    | setActive x => exact ⟨rfl, rfl, rfl, rfl, rfl, rfl, h6⟩
  | migrate => cases hq
  | mint a b => cases hq
  | transfer a b c => cases hq

theorem cancel_effect {r r' : Ref} (hm : SameMarket r r') {sender : Addr} {funds : List Coin} {time : Nat} {tick : Int} {id : Nat} {side : Dir} {x x' : Entry}
    (hx : r.order tick id = some (side, x)) (hx' : r'.order tick id = some (side, x')) (he : x.unclaimed = x'.unclaimed) :
    (r.effect (.execute sender funds time (.cancelLimit tick id))).2 = (r'.effect (.execute sender funds time (.cancelLimit tick id))).2 ∧
    SameMarket (r.effect (.execute sender funds time (.cancelLimit tick id))).1 (r'.effect (.execute sender funds time (.cancelLimit tick id))).1 := by
  obtain ⟨k1, k2, k3, k4, k5, k6, k7⟩ := unclaimed_fields he
  simp only [Ref.effect, Ref.userEffect, hx, hx', Ref.cancel, hm.quote, hm.base, k1, k2, k5, k6]
  refine ⟨trivial, hm.quote, hm.base, hm.conf, hm.nextId, hm.best, fun t d => ?_⟩
  simp only [Ref.update]
  refine market_set hm.queues ?_ t d
  rw [updQ_unclaimed _ (g := fun x => { x with cancelled := true }) (fun _ => rfl), updQ_unclaimed _ (g := fun x => { x with cancelled := true }) (fun _ => rfl), hm.queues]

theorem said_verdict {ch : Chain} {r : Ref} {op : Op} {e : Err} (h : saidTo ch r op ≠ .error e) : verdict (r.checks ch op) ≠ some e := by
  intro hv
  refine h ?_
  unfold saidTo Ref.step
  rw [hv]

/-- One operation of the market. -/
theorem market_step {ch : Chain} {r r' : Ref} (hm : SameMarket r r') (hn : Neat r) (hn' : Neat r') {op : Op} (hq : Op.quiet op = false)
    (hb : Unhindered (op, saidTo ch r op)) (hb' : Unhindered (op, saidTo ch r' op)) :
    SameMarket (nextRef ch r op) (nextRef ch r' op) ∧ SameOutcome (op, saidTo ch r op) (op, saidTo ch r' op) := by
  have v1 := said_verdict hb.1
  have v2 := said_verdict hb'.1
  have done : ∀ (_ : verdict (r.checks ch op) = verdict (r'.checks ch op)) (_ : verdict (r.checks ch op) = none →
      (r.effect op).2 = (r'.effect op).2 ∧ SameMarket (r.effect op).1 (r'.effect op).1),
      SameMarket (nextRef ch r op) (nextRef ch r' op) ∧ SameOutcome (op, saidTo ch r op) (op, saidTo ch r' op) := by
    intro hv he
    unfold SameOutcome nextRef saidTo Ref.step
    rw [← hv]
    cases h : verdict (r.checks ch op) with
    | some e => exact ⟨hm, rfl, .inl rfl⟩
    | none =>
      obtain ⟨e1, e2⟩ := he h
      exact ⟨⟨e2.quote, e2.base, e2.conf, e2.nextId, e2.best, e2.queues⟩, rfl, .inl (congrArg Except.ok e1)⟩
  by_cases hc : Op.isCancel op = false
  · exact done (market_verdict hm hn hn' hq hc v1 v2) fun _ => market_effect hm hn hn' hq hc
  · cases op with
    | execute sender funds time msg =>
      cases msg with
      | cancelLimit tick id =>
        have v3 := said_verdict hb.2
        have v4 := said_verdict hb'.2
        cases h : verdict (r.checks ch (.execute sender funds time (.cancelLimit tick id))) with
        | none =>
          obtain ⟨g1, side, x, x', g2, g3, g4⟩ := cancel_market hm hn hn' h v4
          exact done (h.trans g1.symm) fun _ => cancel_effect hm g2 g3 g4
        | some e =>
          cases h' : verdict (r'.checks ch (.execute sender funds time (.cancelLimit tick id))) with
          | none =>
            obtain ⟨g1, -⟩ := cancel_market hm.symm hn' hn h' v3
            rw [g1] at h; cases h
          | some e' =>
            unfold SameOutcome nextRef saidTo Ref.step
            rw [h, h']
            exact ⟨hm, rfl, .inr ⟨rfl, ⟨e, rfl⟩, ⟨e', rfl⟩⟩⟩
      | _ => exact absurd rfl hc
    | _ => exact absurd rfl hc

/-! ### Histories -/

/-- The answer to one operation. -/
def verdictOf (ch : Chain) (w : World) (op : Op) : Except Err Response :=
  match step ch w op with
  | .ok (_, resp) => .ok resp
  | .error e => .error e

theorem answers_cons (ch : Chain) (w : World) (op : Op) (ops : List Op) :
    answers ch w (op :: ops) = verdictOf ch w op :: answers ch (apply ch w op) ops := by
  rw [answers]; unfold verdictOf apply
  cases step ch w op <;> rfl

/-- One operation, on the chain and on the reference. -/
theorem ref_next {ch : Chain} {n : Nat} {w : World} {b : Book} (h : Traced ch n w b) (hn : w.HasRoom) (op : Op) :
    ∃ b1, Traced ch (n + 1) (apply ch w op) b1 ∧ nextRef ch (refOf w b) op = refOf (apply ch w op) b1 ∧ saidTo ch (refOf w b) op = verdictOf ch w op := by
  have h3 := C67_step h hn op
  unfold nextRef saidTo verdictOf apply
  rw [h3]
  cases hs : step ch w op with
  | error e => exact ⟨b, .failed h hs, rfl, rfl⟩
  | ok x => exact ⟨_, .ok h hs, rfl, rfl⟩

theorem outcomes_cons (ch : Chain) (w : World) (op : Op) (ops : List Op) :
    marketOutcomes ch w (op :: ops) = if Op.quiet op then marketOutcomes ch (apply ch w op) ops
      else (op, verdictOf ch w op) :: marketOutcomes ch (apply ch w op) ops := by
  unfold marketOutcomes
  rw [answers_cons, List.zip_cons_cons, List.filter_cons]
  simp only
  cases Op.quiet op <;> rfl

theorem market_run {ch : Chain} (ops ops' : List Op) : ∀ {n n' : Nat} {w w' : World} {b b' : Book}, Traced ch n w b → Traced ch n' w' b' →
    SameMarket (refOf w b) (refOf w' b') → market ops = market ops' → (run ch w ops).HasRoom → (run ch w' ops').HasRoom →
    (∀ p ∈ marketOutcomes ch w ops ++ marketOutcomes ch w' ops', Unhindered p) →
    List.Forall₂ SameOutcome (marketOutcomes ch w ops) (marketOutcomes ch w' ops') ∧
    ∃ m m' b1 b1', Traced ch m (run ch w ops) b1 ∧ Traced ch m' (run ch w' ops') b1' ∧ SameMarket (refOf (run ch w ops) b1) (refOf (run ch w' ops') b1') := by
  induction ops generalizing ops' with
  | nil =>
    induction ops' with
    | nil => exact fun h h' hm _ _ _ _ => ⟨.nil, _, _, _, _, h, h', hm⟩
    | cons op' ops' ih =>
      intro n n' w w' b b' h h' hm he hr hr' hu
      have hw' : w'.HasRoom := run_room_back h' hr'
      cases hq : Op.quiet op' with
      | false => unfold market at he; rw [List.filter_cons, hq] at he; cases he
      | true =>
        obtain ⟨b1, t1, e1, -⟩ := ref_next h' hw' op'
        have hm1 : SameMarket (refOf w b) (refOf (apply ch w' op') b1) := by
          rw [← e1]; exact hm.trans (quiet_market ch _ hq)
        have hu1 := hu
        rw [outcomes_cons ch w' op', hq] at hu1 ⊢
        rw [run_cons] at hr' ⊢
        exact ih h t1 hm1 (by unfold market at he ⊢; rw [List.filter_cons, hq] at he; exact he) hr hr' hu1
  | cons op ops ih =>
    intro n n' w w' b b' h h' hm he hr hr' hu
    have hw : w.HasRoom := run_room_back h hr
    cases hq : Op.quiet op with
    | true =>
      obtain ⟨b1, t1, e1, -⟩ := ref_next h hw op
      have hm1 : SameMarket (refOf (apply ch w op) b1) (refOf w' b') := by
        rw [← e1]; exact (quiet_market ch _ hq).symm.trans hm
      rw [outcomes_cons ch w op, hq] at hu ⊢
      rw [run_cons] at hr ⊢
      exact ih ops' t1 h' hm1 (by unfold market at he ⊢; rw [List.filter_cons, hq] at he; exact he) hr hr' hu
    | false =>
      have he' : op :: market ops = market ops' := by
        rw [← he]; unfold market; rw [List.filter_cons, hq]; rfl
      clear he
      induction ops' generalizing n' w' b' with
      | nil => cases he'
      | cons op' ops' ih' =>
        have hw' : w'.HasRoom := run_room_back h' hr'
        obtain ⟨b1', t1', e1', s1'⟩ := ref_next h' hw' op'
        cases hq' : Op.quiet op' with
        | true =>
          have hm1 : SameMarket (refOf w b) (refOf (apply ch w' op') b1') := by
            rw [← e1']; exact hm.trans (quiet_market ch _ hq')
          rw [outcomes_cons ch w' op', hq'] at hu ⊢
          rw [run_cons ch w' op'] at hr' ⊢
          exact ih' t1' hm1 hr' hu (by rw [he']; unfold market; rw [List.filter_cons, hq']; rfl)
        | false =>
          have he2 : op :: market ops = op' :: market ops' := by
            rw [he']; unfold market; rw [List.filter_cons, hq']; rfl
          obtain ⟨rfl, he3⟩ := List.cons.inj he2
          obtain ⟨b1, t1, e1, s1⟩ := ref_next h hw op
          rw [outcomes_cons ch w op, outcomes_cons ch w' op, hq] at hu ⊢
          simp only [Bool.false_eq_true, if_false] at hu ⊢
          obtain ⟨g1, g2⟩ := market_step (ch := ch) hm (neat_of h.rel) (neat_of h'.rel) hq (by rw [s1]; exact hu _ (by simp)) (by rw [s1']; exact hu _ (by simp))
          rw [s1, s1'] at g2
          rw [e1, e1'] at g1
          rw [run_cons] at hr hr' ⊢
          rw [run_cons ch w' op]
          obtain ⟨i1, i2⟩ := ih ops' t1 t1' g1 he3 hr hr' (fun p hp => hu p (by
            rcases List.mem_append.1 hp with hp | hp <;> simp [hp]))
          exact ⟨.cons g2 i1, i2⟩

theorem market_answer {r r' : Ref} (h : SameMarket r r') (hn : Neat r) (hn' : Neat r') (m m' : Marks) {q : QueryMsg} (hq : OfTheWhole q) :
    r'.answer m' q = r.answer m q := by
  have hlev := market_levels h hn hn'
  have e : ∀ t d, openTotal (r'.queues t d) = openTotal (r.queues t d) := fun t d => (market_open (h.queues t d) (hn.1 t d) (hn'.1 t d)).symm
  obtain ⟨quote, base, conf, nid, Q, best, k⟩ := r
  obtain ⟨quote', base', conf', nid', Q', best', k'⟩ := r'
  obtain ⟨h1, h2, h3, h4, h5, h6⟩ := h
  simp only at h1 h2 h3 h4 h5 h6
  subst h1 h2 h3 h4 h5
  have hquote : ∀ s, (⟨quote, base, conf, nid, Q', best, k'⟩ : Ref).quoteFor s = (⟨quote, base, conf, nid, Q, best, k⟩ : Ref).quoteFor s := by
    intro s
    unfold Ref.quoteFor
    simp only [hlev]
  cases q with
  | calcOutAmountGivenIn c out fee => simp only [Ref.answer, hquote]
  | calcOutAmtGivenIn c out fee => simp only [Ref.answer, hquote]
  | getTotalPoolLiquidity =>
    simp only at e
    simp only [Ref.answer, e]
  | allTicks lo hi limit => exact absurd hq id
  | ordersByOwner owner lo hi limit => exact absurd hq id
  | ordersByTick t lo hi limit => exact absurd hq id
  | ticksById ids => exact absurd hq id
  | getUnrealizedCancels ids => exact absurd hq id
  | auth a => cases a <;> rfl
  | _ => rfl

/-- C109: claims and gifts decide nothing about the market. Take two histories of a deployment with the same placements, cancellations, swaps and administration
in the same order; claims, bank transfers, mints and migrations may differ in any way, in number, order and caller. As long as in neither of them anybody
lacks the money for an operation of the market, or tries to cancel an order with an unclaimed fill, these operations have the same outcomes (the
same errors and responses; refused cancellations may say another reason), and in the end all orders have the same fills and every query that shows no individual
orders or ticks has the same answer. -/
theorem C109_market {ch : Chain} {n : Nat} {w : World} {b : Book} (h : Traced ch n w b) {ops ops' : List Op} (hm : market ops = market ops')
    (hr : (run ch w ops).HasRoom) (hr' : (run ch w ops').HasRoom)
    (hu : ∀ p ∈ marketOutcomes ch w ops ++ marketOutcomes ch w ops', Unhindered p) :
    List.Forall₂ SameOutcome (marketOutcomes ch w ops) (marketOutcomes ch w ops') ∧
    (∀ q, QueryFits q → OfTheWhole q → answer (run ch w ops).store q = answer (run ch w ops').store q) ∧
    ∃ m m' b1 b1', Traced ch m (run ch w ops) b1 ∧ Traced ch m' (run ch w ops') b1' ∧
      ∀ t d, (b1 t d).map Entry.unclaimed = (b1' t d).map Entry.unclaimed := by
  obtain ⟨g1, m, m', b1, b1', t1, t1', g2⟩ := market_run (ch := ch) ops ops' h h (.refl _) hm hr hr' hu
  refine ⟨g1, fun q hf ho => ?_, m, m', b1, b1', t1, t1', g2.queues⟩
  obtain ⟨k, hk⟩ := traced_marks t1
  obtain ⟨k', hk'⟩ := traced_marks t1'
  rw [ref_answer t1 hk q hf, ref_answer t1' hk' q hf]
  exact (market_answer g2 (neat_of t1.rel) (neat_of t1'.rel) k k' ho).symm

/-! ### The hypotheses are met, and needed -/

namespace Demo

/-- The demo history; then dave's order is claimed twice and in vain a third time, frank sells again, yan bids, there is a migration, zed tries to cancel bob's
order, and bob cancels it ... -/
def claimed : List Op := history ++ [claim "zed" 0 3, sell "frank" 42000 1, .migrate, claim "dave" 0 3, claim "dave" 0 3,
  .execute "zed" [] 5 (.batchClaim [(0, 3), (10, 1)]), place "yan" 0 .bid 5000 none, cancel "zed" 10 1, cancel "bob" 10 1]

/-- ... and the same without any claim, with a gift and a transfer. -/
def unclaimed : List Op := .mint "zed" ⟨"q", 5⟩ :: history ++ [sell "frank" 42000 1, place "yan" 0 .bid 5000 none, cancel "zed" 10 1,
  cancel "bob" 10 1, .transfer "alice" "bob" ⟨"q", 1⟩]

theorem claims_unhindered : ∀ p ∈ marketOutcomes ch w0 claimed ++ marketOutcomes ch w0 unclaimed, Unhindered p := by
  have : ∀ p ∈ marketOutcomes ch w0 claimed ++ marketOutcomes ch w0 unclaimed, p.2 ≠ .error .bank ∧ p.2 ≠ .error .cancelFilledOrder := by
    decide +kernel
  exact fun p hp => ⟨(this p hp).1, (this p hp).2⟩
theorem claimed_room : (run ch w0 claimed).HasRoom := (C72_room initial claimed).2.1 (by decide +kernel)
theorem unclaimed_room : (run ch w0 unclaimed).HasRoom := (C72_room initial unclaimed).2.1 (by decide +kernel)
theorem claims_only : market claimed = market unclaimed := by decide +kernel
theorem claimed_market : List.Forall₂ SameOutcome (marketOutcomes ch w0 claimed) (marketOutcomes ch w0 unclaimed) ∧
    (∀ q, QueryFits q → OfTheWhole q → answer (run ch w0 claimed).store q = answer (run ch w0 unclaimed).store q) :=
  have h := C109_market (Traced.init initial) claims_only claimed_room unclaimed_room claims_unhindered
  ⟨h.1, h.2.1⟩

end Demo

/-- In the first history two claims pay out, and a third and a batch find nothing; 14 operations of the market are compared, of which one is refused. -/
example : (marketOutcomes Demo.ch Demo.w0 Demo.claimed).length = 14 ∧
    (gist (answers Demo.ch Demo.w0 Demo.claimed)).drop 10 =
      [(["dave", "zed", "fees"], []), (["frank"], []), ([], []), (["dave", "dave", "fees"], []), ([], []), ([], [5]), (["bob"], [])] ∧
    (gist (answers Demo.ch Demo.w0 Demo.unclaimed)).drop 11 = [(["frank"], []), ([], [5]), (["bob"], []), ([], [])] := by
  decide +kernel

namespace Demo
def thenCancel : List Op := history ++ [cancel "dave" 0 3]
def claimThenCancel : List Op := history ++ [claim "zed" 0 3, cancel "dave" 0 3]
end Demo

/-- The proviso about cancellations is needed: a partly filled order can be cancelled after a claim (which anybody may make), and not before. -/
theorem C109_cancel_needs_claim : ∃ ch w0 ops ops', Initial ch w0 ∧ market ops = market ops' ∧
    ∃ p p', (marketOutcomes ch w0 ops).getLast? = some p ∧ (marketOutcomes ch w0 ops').getLast? = some p' ∧ p.1 = p'.1 ∧
      p.2.isOk = true ∧ p'.2 = .error .cancelFilledOrder := by
  have h1 : (marketOutcomes Demo.ch Demo.w0 Demo.claimThenCancel).getLast?.map (fun p => (p.1, p.2.isOk)) =
      some (Demo.cancel "dave" 0 3, true) := by decide +kernel
  have h2 : (marketOutcomes Demo.ch Demo.w0 Demo.thenCancel).getLast? =
      some (Demo.cancel "dave" 0 3, .error .cancelFilledOrder) := by decide +kernel
  have h3 : market Demo.claimThenCancel = market Demo.thenCancel := by decide +kernel
  obtain ⟨p, hp, he⟩ := Option.map_eq_some_iff.1 h1
  have e1 : p.1 = Demo.cancel "dave" 0 3 := congrArg Prod.fst he
  have e2 : p.2.isOk = true := congrArg Prod.snd he
  exact ⟨Demo.ch, Demo.w0, Demo.claimThenCancel, Demo.thenCancel, Demo.initial, h3, p, (Demo.cancel "dave" 0 3, .error .cancelFilledOrder), hp, h2, e1, e2, rfl⟩

end OB
