import Verif.SpecIds
import Verif.Props.Refine
import Verif.Props.Answers
import Verif.Props.Snapshot
import Verif.Props.Room
import Verif.Proofs.Demo
/- C108: order ids are mere names, and only live orders matter. -/
namespace OB
open Spec

/-- No entry was claimed beyond its fill. -/
def Fine (b : Book) : Prop := ∀ t d, ∀ x ∈ b t d, x.claimed ≤ x.filled

theorem Rel.fine {s : Store} {b : Book} (h : Rel s b) : Fine b := fun t d x hx => ((h.qok t d).ok x hx).claimed_le

theorem Fine.set {b : Book} (h : Fine b) {t : Int} {d : Dir} {q : List Entry} (hq : ∀ x ∈ q, x.claimed ≤ x.filled) : Fine (b.set t d q) := by
  intro t' d' x hx
  unfold Book.set at hx
  split at hx
  · exact hq x hx
  · exact h t' d' x hx

theorem fine_updQ {q : List Entry} (h : ∀ x ∈ q, x.claimed ≤ x.filled) {id : Nat} {g : Entry → Entry} (hg : ∀ x, x.claimed ≤ x.filled → (g x).claimed ≤ (g x).filled) :
    ∀ x ∈ updQ id g q, x.claimed ≤ x.filled := by
  intro x hx
  unfold updQ at hx
  rw [List.mem_map] at hx
  obtain ⟨y, hy, rfl⟩ := hx
  split
  · exact hg y (h y hy)
  · exact h y hy

theorem fine_fillQ {q : List Entry} (h : ∀ x ∈ q, x.claimed ≤ x.filled) (f : Nat) : ∀ x ∈ fillQ f q, x.claimed ≤ x.filled := by
  induction q generalizing f with
  | nil => intro x hx; cases hx
  | cons y q ih =>
    intro x hx
    rw [fillQ, List.mem_cons] at hx
    rcases hx with rfl | hx
    · have := h y (by simp)
      simp only; omega
    · exact ih (fun x hx => h x (by simp [hx])) _ x hx

theorem dead_left {x : Entry} (h : x.claimed ≤ x.filled) (hd : ¬ x.Live) : x.left = 0 := by
  unfold Entry.left
  unfold Entry.Live at hd
  cases hc : x.cancelled with
  | true => rfl
  | false =>
    simp only [hc, true_and, not_lt] at hd
    simp only [Bool.false_eq_true, if_false]
    omega

theorem liveQ_pos {x : Entry} (q : List Entry) (h : x.Live) : liveQ (x :: q) = x :: liveQ q :=
  List.filter_cons_of_pos (decide_eq_true h)
theorem liveQ_neg {x : Entry} (q : List Entry) (h : ¬ x.Live) : liveQ (x :: q) = liveQ q :=
  List.filter_cons_of_neg fun hc => h (of_decide_eq_true hc)
theorem liveQ_append (p q : List Entry) : liveQ (p ++ q) = liveQ p ++ liveQ q := List.filter_append p q

theorem liveQ_fill {q : List Entry} (h : ∀ x ∈ q, x.claimed ≤ x.filled) (f : Nat) : liveQ (fillQ f q) = fillQ f (liveQ q) := by
  induction q generalizing f with
  | nil => rfl
  | cons x q ih =>
    have ih := ih fun y hy => h y (by simp [hy])
    rw [fillQ]
    by_cases hl : x.Live
    · have hy : ({ x with filled := x.filled + min f x.left } : Entry).Live := hl
      rw [liveQ_pos _ hy, liveQ_pos _ hl, fillQ, ih]
    · have hy : ¬ ({ x with filled := x.filled + min f x.left } : Entry).Live := hl
      rw [liveQ_neg _ hy, liveQ_neg _ hl, ih, dead_left (h x (by simp)) hl]
      simp

theorem fillQ_rename (σ : Nat → Nat) (f : Nat) (q : List Entry) : fillQ f (q.map (Entry.rename σ)) = (fillQ f q).map (Entry.rename σ) := by
  induction q generalizing f with
  | nil => rfl
  | cons x q ih => rw [List.map_cons, fillQ, fillQ, List.map_cons, ih]; rfl

theorem liveQ_rename (σ : Nat → Nat) (q : List Entry) : liveQ (q.map (Entry.rename σ)) = (liveQ q).map (Entry.rename σ) := by
  unfold liveQ
  rw [List.filter_map]
  rfl

theorem updQ_rename {σ : Nat → Nat} (hσ : Function.Injective σ) (id : Nat) {g : Entry → Entry} (hg : ∀ x, g (x.rename σ) = (g x).rename σ) (q : List Entry) :
    updQ (σ id) g (q.map (Entry.rename σ)) = (updQ id g q).map (Entry.rename σ) := by
  unfold updQ
  rw [List.map_map, List.map_map]
  refine List.map_congr_left fun x _ => ?_
  simp only [Function.comp]
  by_cases h : x.id = id
  · rw [if_pos h, if_pos (show (x.rename σ).id = σ id from congrArg σ h), hg]
  · rw [if_neg h, if_neg (show (x.rename σ).id ≠ σ id from fun he => h (hσ he))]

/-- Changes that keep the dead dead can be made on the live orders only. -/
theorem liveQ_updQ {q : List Entry} (h : ∀ x ∈ q, x.claimed ≤ x.filled) (id : Nat) {g : Entry → Entry} (hg : ∀ x, x.claimed ≤ x.filled → (g x).Live → x.Live) :
    liveQ (updQ id g q) = liveQ (updQ id g (liveQ q)) := by
  induction q with
  | nil => rfl
  | cons x q ih =>
    have ih := ih fun y hy => h y (by simp [hy])
    have e : ∀ l, updQ id g (x :: l) = (if x.id = id then g x else x) :: updQ id g l := fun l => rfl
    by_cases hl : x.Live
    · rw [liveQ_pos _ hl, e, e]
      by_cases hg' : (if x.id = id then g x else x).Live
      · rw [liveQ_pos _ hg', liveQ_pos _ hg', ih]
      · rw [liveQ_neg _ hg', liveQ_neg _ hg', ih]
    · rw [liveQ_neg _ hl, e, liveQ_neg, ih]
      split
      · exact fun hc => hl (hg x (h x (by simp)) hc)
      · exact hl

theorem openTotal_live (q : List Entry) : openTotal q = ((liveQ q).map fun x => x.placed - x.filled).sum := rfl

theorem same_open {σ : Nat → Nat} {b b' : Book} (h : SameLive σ b b') (t : Int) (d : Dir) : openTotal (b' t d) = openTotal (b t d) := by
  rw [openTotal_live, openTotal_live, h.live, List.map_map]
  rfl

theorem same_find {σ : Nat → Nat} (hσ : Function.Injective σ) {q q' : List Entry} (h : liveQ q' = (liveQ q).map (Entry.rename σ)) (id : Nat) :
    (q'.find? fun x => decide (x.id = σ id ∧ x.Live)) = (q.find? fun x => decide (x.id = id ∧ x.Live)).map (Entry.rename σ) := by
  have e : ∀ (l : List Entry) (id : Nat), (l.find? fun x => decide (x.id = id ∧ x.Live)) = (liveQ l).find? fun x => decide (x.id = id) := by
    intro l id
    unfold liveQ
    rw [List.find?_filter]
    congr 1
    funext x
    rw [Bool.eq_iff_iff]
    simp only [decide_eq_true_eq]
    exact And.comm
  rw [e, e, h, List.find?_map]
  congr 1
  congr 1
  funext x
  show decide (σ x.id = σ id) = decide (x.id = id)
  rw [Bool.eq_iff_iff, decide_eq_true_iff, decide_eq_true_iff]
  exact ⟨fun he => hσ he, fun he => congrArg σ he⟩

/-- The exchange with other queues and another next id. -/
def Spec.Ref.reid (r : Ref) (n : Nat) (b : Book) : Ref := { r with nextId := n, queues := b }

theorem reid_order {σ : Nat → Nat} (hσ : Function.Injective σ) {r : Ref} {n : Nat} {b : Book} (h : SameLive σ r.queues b) (t : Int) (id : Nat) :
    (r.reid n b).order t (σ id) = (r.order t id).map fun p => (p.1, p.2.rename σ) := by
  unfold Ref.order
  simp only [Ref.reid]
  rw [same_find hσ (h.live t .bid), same_find hσ (h.live t .ask)]
  cases (r.queues t .bid).find? fun x => decide (x.id = id ∧ x.Live) with
  | some x => rfl
  | none =>
    simp only [Option.map_none, Option.map_map]
    rfl

theorem reid_levels {σ : Nat → Nat} {r : Ref} {n : Nat} {b : Book} (h : SameLive σ r.queues b) (s : SwapReq) (side : Dir) :
    (r.reid n b).levels s side = r.levels s side := by
  have e : ∀ side t, openTotal (b t side) = openTotal (r.queues t side) := fun side t => same_open h t side
  unfold Ref.levels Ref.reid
  simp only [e]
  generalize Finset.Icc (-108000000 : Int) 182402823 = I
  cases side with
  | bid => exact congrArg (fun F : Finset Int => (F.sort (· ≥ ·)).map _) (by ext t; simp only [Finset.mem_filter, e])
  | ask => exact congrArg (fun F : Finset Int => (F.sort (· ≤ ·)).map _) (by ext t; simp only [Finset.mem_filter, e])

/-- The same conditions, with errors under other ids. -/
def ChecksAlike (σ : Nat → Nat) (l l' : List (Prop × Err)) : Prop := List.Forall₂ (fun x y => (y.1 ↔ x.1) ∧ y.2 = renameErr σ x.2) l l'

theorem ChecksAlike.same {σ : Nat → Nat} {l : List (Prop × Err)} (h : ∀ x ∈ l, renameErr σ x.2 = x.2) : ChecksAlike σ l l := by
  unfold ChecksAlike
  rw [List.forall₂_same]
  exact fun x hx => ⟨Iff.rfl, (h x hx).symm⟩

theorem ChecksAlike.verdict {σ : Nat → Nat} {l l' : List (Prop × Err)} (h : ChecksAlike σ l l') : verdict l' = (verdict l).map (renameErr σ) := by
  unfold ChecksAlike at h
  induction h with
  | nil => rfl
  | @cons x y l l' hxy hs ih =>
    obtain ⟨c, e⟩ := x
    obtain ⟨c', e'⟩ := y
    obtain ⟨h1, h2⟩ := hxy
    simp only at h1 h2
    unfold OB.Spec.verdict
    by_cases hc : c
    · rw [if_pos hc, if_pos (h1.2 hc), ih]
    · rw [if_neg hc, if_neg fun h => hc (h1.1 h), h2]; rfl

theorem matchError_named {σ : Nat → Nat} {side : Dir} {l : List (Int × Nat)} {q : Nat} : renameErr σ ((matchError side l q).getD .std) = (matchError side l q).getD .std := by
  induction l generalizing q with
  | nil => rfl
  | cons k l ih =>
    obtain ⟨t, liq⟩ := k
    unfold matchError
    simp only
    split
    · rfl
    · split
      · rfl
      · split
        · rfl
        · exact ih

theorem reid_checks {σ : Nat → Nat} (hσ : Function.Injective σ) {r : Ref} {n : Nat} {b : Book} (h : SameLive σ r.queues b) (ch : Chain) {op : Op}
    (hf : FitAlike σ op) : ChecksAlike σ (r.checks ch op) ((r.reid n b).checks ch (renameOp σ op)) := by
  have hswap : ∀ s, ChecksAlike σ (r.swapChecks ch s) ((r.reid n b).swapChecks ch s) := by
    intro s
    unfold Ref.swapChecks
    have e : (r.reid n b).base = r.base := rfl
    simp only [reid_levels h, e]
    refine ChecksAlike.same fun x hx => ?_
    simp only [List.mem_cons, List.not_mem_nil, or_false] at hx
    rcases hx with rfl | rfl | rfl | rfl | rfl | rfl | rfl | rfl | rfl | rfl | rfl | rfl | rfl
    all_goals first | rfl | exact matchError_named
  cases op with
  | execute sender funds time msg =>
    cases msg with
    | placeLimit tick side q bounty =>
        refine ChecksAlike.same fun x hx => ?_
        simp only [Ref.checks, Ref.senderChecks, Ref.userChecks, fundsChecks, List.mem_append, List.mem_cons, List.not_mem_nil, or_false] at hx
        rcases hx with (rfl | rfl | rfl) | (rfl | rfl | rfl | rfl) | rfl | rfl | rfl | rfl
        all_goals rfl
    | cancelLimit tick id =>
      have ho := reid_order hσ (n := n) h tick id
      simp only [Ref.checks, Ref.senderChecks, Ref.userChecks, renameOp, renameMsg, ho]
      have hfit : MsgFits (.cancelLimit tick (σ id)) ↔ MsgFits (.cancelLimit tick id) := and_congr_right fun _ => (hf id (by simp [idsOf])).symm
      refine .cons ⟨Iff.rfl, rfl⟩ <| .cons ⟨hfit, rfl⟩ <| .cons ⟨Iff.rfl, rfl⟩ <| .cons ⟨Iff.rfl, rfl⟩ <| .cons ⟨Iff.rfl, rfl⟩ <|
        .cons ⟨?_, rfl⟩ <| .cons ⟨?_, rfl⟩ <| .cons ⟨?_, rfl⟩ .nil
      all_goals
        cases r.order tick id with
        | none => simp
        | some p => obtain ⟨d, x⟩ := p; simp [Entry.rename]
    | claimLimit tick id =>
      have ho := reid_order hσ (n := n) h tick id
      simp only [Ref.checks, Ref.senderChecks, Ref.userChecks, renameOp, renameMsg, ho]
      have hfit : MsgFits (.claimLimit tick (σ id)) ↔ MsgFits (.claimLimit tick id) := and_congr_right fun _ => (hf id (by simp [idsOf])).symm
      refine .cons ⟨Iff.rfl, rfl⟩ <| .cons ⟨hfit, rfl⟩ <| .cons ⟨Iff.rfl, rfl⟩ <| .cons ⟨Iff.rfl, rfl⟩ <| .cons ⟨Iff.rfl, rfl⟩ <|
        .cons ⟨h.used tick, rfl⟩ <| .cons ⟨?_, rfl⟩ <| .cons ⟨?_, rfl⟩ .nil
      all_goals
        cases r.order tick id with
        | none => simp
        | some p => obtain ⟨d, x⟩ := p; simp [Entry.rename]
    | batchClaim l =>
      simp only [Ref.checks, Ref.senderChecks, Ref.userChecks, renameOp, renameMsg, List.length_map]
      have hfit : MsgFits (.batchClaim (l.map fun k => (k.1, σ k.2))) ↔ MsgFits (.batchClaim l) := by
        constructor
        · intro hm k hk
          have := hm (k.1, σ k.2) (List.mem_map.2 ⟨k, hk, rfl⟩)
          exact ⟨this.1, (hf k.2 (by simp only [idsOf]; exact List.mem_map.2 ⟨k, hk, rfl⟩)).2 this.2⟩
        · intro hm k hk
          obtain ⟨j, hj, rfl⟩ := List.mem_map.1 hk
          have := hm j hj
          exact ⟨this.1, (hf j.2 (by simp only [idsOf]; exact List.mem_map.2 ⟨j, hj, rfl⟩)).1 this.2⟩
      exact .cons ⟨Iff.rfl, rfl⟩ <| .cons ⟨hfit, rfl⟩ <| .cons ⟨Iff.rfl, rfl⟩ <| .cons ⟨Iff.rfl, rfl⟩ <| .cons ⟨Iff.rfl, rfl⟩ <| .cons ⟨Iff.rfl, rfl⟩ .nil
    | auth m =>
        refine ChecksAlike.same fun x hx => ?_
        simp only [Ref.checks, Ref.senderChecks, Ref.userChecks, List.mem_append, List.mem_cons, List.not_mem_nil, or_false] at hx
        rcases hx with (rfl | rfl | rfl) | rfl | rfl
        all_goals first | rfl | (cases m <;> rfl)
  | «sudo» time m =>
    cases m with
    | swapExactAmountIn => exact hswap _
    | swapToTick => exact hswap _
    | swapExactAmountOut => exact .cons ⟨Iff.rfl, rfl⟩ <| .cons ⟨Iff.rfl, rfl⟩ <| .cons ⟨Iff.rfl, rfl⟩ .nil
    | transferAdmin => exact .cons ⟨Iff.rfl, rfl⟩ <| .cons ⟨Iff.rfl, rfl⟩ .nil
    | removeAdmin => exact .cons ⟨Iff.rfl, rfl⟩ .nil
    | setActive => exact .cons ⟨Iff.rfl, rfl⟩ .nil
  | migrate => exact .nil
  | mint => exact .nil
  | transfer => exact .cons ⟨Iff.rfl, rfl⟩ <| .cons ⟨Iff.rfl, rfl⟩ .nil


/-! ### The effects -/

theorem set_used (b : Book) (t : Int) (d : Dir) {q : List Entry} (hq : q ≠ [] ↔ b t d ≠ []) (t' : Int) : Used (b.set t d q) t' ↔ Used b t' := by
  unfold Used Book.set
  refine exists_congr fun d' => ?_
  by_cases h : t' = t ∧ d' = d
  · obtain ⟨rfl, rfl⟩ := h
    rw [if_pos ⟨rfl, rfl⟩]; exact hq
  · rw [if_neg h]

theorem updQ_nil (id : Nat) (g : Entry → Entry) (q : List Entry) : updQ id g q ≠ [] ↔ q ≠ [] := by
  cases q <;> simp [updQ]

/-- The same change to an order under both names. -/
theorem same_update {σ : Nat → Nat} (hσ : Function.Injective σ) {b b' : Book} (h : SameLive σ b b') (hf : Fine b) (hf' : Fine b') (t : Int) (d : Dir) (id : Nat)
    {g : Entry → Entry} (hg : ∀ x, g (x.rename σ) = (g x).rename σ) (hl : ∀ x, x.claimed ≤ x.filled → (g x).Live → x.Live) :
    SameLive σ (b.set t d (updQ id g (b t d))) (b'.set t d (updQ (σ id) g (b' t d))) := by
  refine ⟨fun t' d' => ?_, fun t' => ?_⟩
  · unfold Book.set
    by_cases hh : t' = t ∧ d' = d
    · rw [if_pos hh, if_pos hh, liveQ_updQ (hf t d) _ hl, liveQ_updQ (hf' t d) _ hl, h.live, updQ_rename hσ _ hg, liveQ_rename]
    · rw [if_neg hh, if_neg hh]; exact h.live t' d'
  · rw [set_used _ _ _ (updQ_nil _ _ _), set_used _ _ _ (updQ_nil _ _ _)]; exact h.used t'

theorem split_renamed (σ : Nat → Nat) (r : Ref) (n : Nat) (b : Book) (sender : Addr) (t : Int) (d : Dir) (x : Entry) :
    (r.reid n b).claim sender t d (x.rename σ) =
      ((r.claim sender t d x).1.reid n (b.set t d (updQ (σ x.id) (fun x => { x with claimed := x.filled }) (b t d))),
       (r.claim sender t d x).2.1, renameEvent σ (r.claim sender t d x).2.2) := rfl

theorem claim_dead {x : Entry} (h : x.claimed ≤ x.filled) (hl : ({ x with claimed := x.filled } : Entry).Live) : x.Live := by
  obtain ⟨h1, h2⟩ := hl
  simp only at h1 h2
  exact ⟨h1, by omega⟩

theorem reid_claims {σ : Nat → Nat} (hσ : Function.Injective σ) (sender : Addr) (n : Nat) (l : List (Int × Nat)) {r : Ref} {b : Book}
    (h : SameLive σ r.queues b) (hf : Fine r.queues) (hf' : Fine b) :
    ∃ b1, Ref.claims sender (r.reid n b) (l.map fun k => (k.1, σ k.2)) =
        ((Ref.claims sender r l).1.reid n b1, (Ref.claims sender r l).2.1, (Ref.claims sender r l).2.2.map (renameEvent σ)) ∧
      SameLive σ (Ref.claims sender r l).1.queues b1 ∧ Fine (Ref.claims sender r l).1.queues ∧ Fine b1 ∧ (Ref.claims sender r l).1.nextId = r.nextId := by
  induction l generalizing r b with
  | nil => exact ⟨b, rfl, h, hf, hf', rfl⟩
  | cons k l ih =>
    obtain ⟨t, id⟩ := k
    rw [List.map_cons]
    unfold Ref.claims
    simp only
    rw [reid_order hσ h]
    cases r.order t id with
    | none => exact ih h hf hf'
    | some p =>
      obtain ⟨d, x⟩ := p
      simp only [Option.map_some]
      by_cases hl : x.claimed < x.filled
      · rw [if_pos hl, if_pos (show (x.rename σ).claimed < (x.rename σ).filled from hl), split_renamed]
        have h1 : SameLive σ (r.claim sender t d x).1.queues (b.set t d (updQ (σ x.id) (fun x => { x with claimed := x.filled }) (b t d))) :=
          same_update hσ h hf hf' t d x.id (fun _ => rfl) fun _ hx hg => claim_dead hx hg
        have f1 : Fine (r.claim sender t d x).1.queues := hf.set (fine_updQ (hf t d) fun _ _ => le_refl _)
        have f1' : Fine (b.set t d (updQ (σ x.id) (fun x => { x with claimed := x.filled }) (b t d))) := hf'.set (fine_updQ (hf' t d) fun _ _ => le_refl _)
        obtain ⟨b1, e1, e2, e3, e4, e5⟩ := ih h1 f1 f1'
        refine ⟨b1, ?_, e2, e3, e4, e5⟩
        simp only
        rw [e1]
        rfl
      · rw [if_neg hl, if_neg (show ¬ (x.rename σ).claimed < (x.rename σ).filled from hl)]
        exact ih h hf hf'

/-- The same effect under other ids. -/
theorem reid_effect {σ : Nat → Nat} (hσ : Function.Injective σ) {r : Ref} {n : Nat} {b : Book} (h : SameLive σ r.queues b) (hf : Fine r.queues) (hf' : Fine b)
    (hn : ∀ k, σ (r.nextId + k) = n + k) (op : Op) :
    ∃ n1 b1, (r.reid n b).effect (renameOp σ op) = ((r.effect op).1.reid n1 b1, { (r.effect op).2 with events := (r.effect op).2.events.map (renameEvent σ) }) ∧
      SameLive σ (r.effect op).1.queues b1 ∧ Fine (r.effect op).1.queues ∧ Fine b1 ∧ ∀ k, σ ((r.effect op).1.nextId + k) = n1 + k := by
  have hswap : ∀ s, ∃ n1 b1, (r.reid n b).swapEffect s = ((r.swapEffect s).1.reid n1 b1, { (r.swapEffect s).2 with events := (r.swapEffect s).2.events.map (renameEvent σ) }) ∧
      SameLive σ (r.swapEffect s).1.queues b1 ∧ Fine (r.swapEffect s).1.queues ∧ Fine b1 ∧ ∀ k, σ ((r.swapEffect s).1.nextId + k) = n1 + k := by
    intro s
    unfold Ref.swapEffect
    have e : (r.reid n b).base = r.base := rfl
    rw [e, reid_levels h]
    cases matchLevels (s.side r.base) (r.levels s (s.side r.base)) s.tokenIn.amount with
    | none => exact ⟨n, b, rfl, h, hf, hf', hn⟩
    | some y =>
      obtain ⟨F, left, dust⟩ := y
      refine ⟨n, fun t d => if d = s.side r.base then fillQ (filledAt F t) (b t d) else b t d, rfl, ⟨fun t d => ?_, fun t => ?_⟩, fun t d => ?_, fun t d => ?_, hn⟩
      · show liveQ (if d = s.side r.base then fillQ (filledAt F t) (b t d) else b t d) =
          (liveQ (if d = s.side r.base then fillQ (filledAt F t) (r.queues t d) else r.queues t d)).map _
        split
        · rw [liveQ_fill (hf t d), liveQ_fill (hf' t d), h.live, fillQ_rename]
        · exact h.live t d
      · have e : ∀ b : Book, Used (fun t d => if d = s.side r.base then fillQ (filledAt F t) (b t d) else b t d) t ↔ Used b t := by
          intro b
          unfold Used
          refine exists_congr fun d => ?_
          show (if d = s.side r.base then fillQ (filledAt F t) (b t d) else b t d) ≠ [] ↔ b t d ≠ []
          split
          · cases b t d <;> simp [fillQ]
          · rfl
        rw [e b]
        refine (h.used t).trans ?_
        exact (e r.queues).symm
      · show ∀ x ∈ (if d = s.side r.base then fillQ (filledAt F t) (r.queues t d) else r.queues t d), _
        split
        · exact fine_fillQ (hf t d) _
        · exact hf t d
      · show ∀ x ∈ (if d = s.side r.base then fillQ (filledAt F t) (b t d) else b t d), _
        split
        · exact fine_fillQ (hf' t d) _
        · exact hf' t d
  cases op with
  | execute sender funds time msg =>
    cases msg with
    | placeLimit tick side q bounty =>
      have h0 := hn 0
      rw [Nat.add_zero, Nat.add_zero] at h0
      refine ⟨n + 1, b.set tick side (b tick side ++ [⟨n, sender, bounty, time, q, 0, 0, false⟩]), ?_, ⟨fun t d => ?_, fun t => ?_⟩, ?_, ?_, fun k => ?_⟩
      · simp only [Ref.effect, Ref.userEffect, renameOp, renameMsg, Ref.place, List.map_cons, List.map_nil, renameEvent, h0]
        rfl
      · show liveQ (b.set tick side _ t d) = (liveQ (r.queues.set tick side (r.queues tick side ++ [⟨r.nextId, sender, bounty, time, q, 0, 0, false⟩]) t d)).map _
        unfold Book.set
        split
        · rw [liveQ_append, liveQ_append, h.live, List.map_append, ← h0]
          congr 1
          exact liveQ_rename σ [⟨r.nextId, sender, bounty, time, q, 0, 0, false⟩]
        · exact h.live t d
      · have e : ∀ (b : Book) x, Used (b.set tick side (b tick side ++ [x])) t ↔ t = tick ∨ Used b t := by
          intro b x
          unfold Used Book.set
          constructor
          · rintro ⟨d, hd⟩
            split at hd
            · next hh => exact .inl hh.1
            · exact .inr ⟨d, hd⟩
          · rintro (rfl | ⟨d, hd⟩)
            · exact ⟨side, by simp⟩
            · refine ⟨d, ?_⟩
              split
              · simp
              · exact hd
        rw [e]
        refine (or_congr_right (h.used t)).trans ?_
        exact (e r.queues _).symm
      · refine hf.set fun x hx => ?_
        rcases List.mem_append.1 hx with hx | hx
        · exact hf _ _ x hx
        · rw [List.mem_singleton.1 hx]
      · refine hf'.set fun x hx => ?_
        rcases List.mem_append.1 hx with hx | hx
        · exact hf' _ _ x hx
        · rw [List.mem_singleton.1 hx]
      · have := hn (k + 1)
        show σ (r.nextId + 1 + k) = n + 1 + k
        rw [show r.nextId + 1 + k = r.nextId + (k + 1) by omega, this]; omega
    | cancelLimit tick id =>
      simp only [Ref.effect, Ref.userEffect, renameOp, renameMsg]
      rw [reid_order hσ h]
      cases r.order tick id with
      | none => exact ⟨n, b, rfl, h, hf, hf', hn⟩
      | some p =>
        obtain ⟨d, x⟩ := p
        refine ⟨n, _, rfl, same_update hσ h hf hf' tick d x.id (g := fun x => { x with cancelled := true }) (fun _ => rfl) (fun y _ hg => by cases hg.1),
          hf.set (fine_updQ (hf tick d) fun _ hy => hy), hf'.set (fine_updQ (hf' tick d) fun _ hy => hy), hn⟩
    | claimLimit tick id =>
      simp only [Ref.effect, Ref.userEffect, renameOp, renameMsg]
      rw [reid_order hσ h]
      cases r.order tick id with
      | none => exact ⟨n, b, rfl, h, hf, hf', hn⟩
      | some p =>
        obtain ⟨d, x⟩ := p
        refine ⟨n, _, rfl, same_update hσ h hf hf' tick d x.id (g := fun x => { x with claimed := x.filled }) (fun _ => rfl) (fun y hy hg => claim_dead hy hg),
          hf.set (fine_updQ (hf tick d) fun _ _ => le_refl _), hf'.set (fine_updQ (hf' tick d) fun _ _ => le_refl _), hn⟩
    | batchClaim l =>
      obtain ⟨b1, e1, e2, e3, e4, e5⟩ := reid_claims hσ sender n l h hf hf'
      simp only [Ref.effect, Ref.userEffect, renameOp, renameMsg]
      rw [e1]
      refine ⟨n, b1, rfl, e2, e3, e4, fun k => ?_⟩
      have := hn k
      rw [← e5] at this
      exact this
    | auth m => exact ⟨n, b, by cases m <;> rfl, h, hf, hf', hn⟩
  | «sudo» time m =>
    cases m with
    | swapExactAmountIn => exact hswap _
    | swapToTick => exact hswap _
    | _ => exact ⟨n, b, rfl, h, hf, hf', hn⟩
  | _ => exact ⟨n, b, rfl, h, hf, hf', hn⟩

theorem reid_money (σ : Nat → Nat) (ch : Chain) (r : Ref) (n : Nat) (b : Book) (op : Op) (msgs : List SendMsg) :
    (r.reid n b).money ch (renameOp σ op) msgs = r.money ch op msgs := by
  cases op with
  | execute sender funds time msg => cases msg <;> rfl
  | _ => rfl

/-- Whole histories under other ids. -/
theorem reid_run {σ : Nat → Nat} (hσ : Function.Injective σ) (ch : Chain) {ops : List Op} (hfit : ∀ op ∈ ops, FitAlike σ op) {r : Ref} {n : Nat} {b : Book}
    (h : SameLive σ r.queues b) (hf : Fine r.queues) (hf' : Fine b) (hn : ∀ k, σ (r.nextId + k) = n + k) :
    ∃ n1 b1, Ref.run ch (r.reid n b) (ops.map (renameOp σ)) = ((Ref.run ch r ops).1.reid n1 b1, (Ref.run ch r ops).2.map (renameOutcome σ)) ∧
      SameLive σ (Ref.run ch r ops).1.queues b1 ∧ ∀ k, σ ((Ref.run ch r ops).1.nextId + k) = n1 + k := by
  induction ops generalizing r n b with
  | nil => exact ⟨n, b, rfl, h, hn⟩
  | cons op ops ih =>
    have hv := (reid_checks hσ (n := n) h ch (hfit op (by simp))).verdict
    obtain ⟨n1, b1, e1, e2, e3, e4, e5⟩ := reid_effect hσ h hf hf' hn op
    have ih := fun {r n b} => @ih (fun o ho => hfit o (by simp [ho])) r n b
    rw [List.map_cons]
    unfold Ref.run Ref.step
    rw [hv, e1]
    cases verdict (r.checks ch op) with
    | some e =>
      obtain ⟨n2, b2, g1, g2, g3⟩ := ih h hf hf' hn
      exact ⟨n2, b2, by simp only [Option.map_some, g1, List.map_cons]; rfl, g2, g3⟩
    | none =>
      simp only [Option.map_none]
      rw [reid_money]
      obtain ⟨n2, b2, g1, g2, g3⟩ := ih (r := { (r.effect op).1 with bank := r.money ch op (r.effect op).2.msgs }) (n := n1) (b := b1) e2 e3 e4 e5
      refine ⟨n2, b2, ?_, g2, g3⟩
      have e : ({ (r.effect op).1.reid n1 b1 with bank := r.money ch op (r.effect op).2.msgs } : Ref) =
          ({ (r.effect op).1 with bank := r.money ch op (r.effect op).2.msgs } : Ref).reid n1 b1 := rfl
      rw [e, g1]
      rfl


/-! ### Queries -/

theorem reid_answer {σ : Nat → Nat} {r : Ref} {n : Nat} {b : Book} (h : SameLive σ r.queues b) (m m' : Marks) {q : QueryMsg} (hq : OfTheWhole q) :
    (r.reid n b).answer m' q = r.answer m q := by
  have hquote : ∀ s, (r.reid n b).quoteFor s = r.quoteFor s := by
    intro s
    unfold Ref.quoteFor
    have e : (r.reid n b).base = r.base := rfl
    simp only [e, reid_levels h]
    rfl
  cases q with
  | calcOutAmountGivenIn c out fee => simp only [Ref.answer, hquote]
  | calcOutAmtGivenIn c out fee => simp only [Ref.answer, hquote]
  | getTotalPoolLiquidity =>
    have e : ∀ t d, openTotal ((r.reid n b).queues t d) = openTotal (r.queues t d) := fun t d => same_open h t d
    simp only [Ref.answer, e]
    rfl
  | allTicks lo hi limit => exact absurd hq id
  | ordersByOwner owner lo hi limit => exact absurd hq id
  | ordersByTick t lo hi limit => exact absurd hq id
  | ticksById ids => exact absurd hq id
  | getUnrealizedCancels ids => exact absurd hq id
  | auth a => cases a <;> rfl
  | _ => rfl

/-! ### Worlds -/

/-- Deployments with the same face are the same exchange, up to the orders and ids. -/
theorem face_ref {ch ch' : Chain} {n n' : Nat} {w w' : World} {b b' : Book} (h : Traced ch n w b) (h' : Traced ch' n' w' b')
    (hs : SameFace w.store w'.store) (hb : w.bank = w'.bank) : refOf w' b' = (refOf w b).reid (w'.store.orderId.getD 0) b' := by
  obtain ⟨ob, hob, -⟩ := h.rel.ptr
  obtain ⟨ob', hob', -⟩ := h'.rel.ptr
  have e1 := hs.book
  rw [answer_orderbookState hob, answer_orderbookState hob'] at e1
  obtain rfl := Answer.book.inj (Option.some.inj e1)
  have e2 : isActive w.store = isActive w'.store := Answer.bool.inj (Option.some.inj hs.active)
  have e3 : getMakerFee w.store = getMakerFee w'.store := Answer.decimal.inj (Option.some.inj hs.fee)
  have e4 : ∀ a, authQuery w.store a = authQuery w'.store a := fun a => Answer.addr.inj (Option.some.inj (hs.auth a))
  simp only [refOf, refS, Ref.reid, roles, hob, hob', e2, e3, e4, hs.recipient, hb]

theorem ids_core {ch : Chain} {n n' : Nat} {w w' : World} {b b' : Book} (h : Traced ch n w b) (h' : Traced ch n' w' b') {σ : Nat → Nat} (hσ : Function.Injective σ)
    (he : refOf w' b' = (refOf w b).reid (w'.store.orderId.getD 0) b') (hn : IdsContinue σ w.store w'.store) (hl : SameLive σ b b') {ops : List Op}
    (hfit : ∀ op ∈ ops, FitAlike σ op) (hr : (run ch w ops).HasRoom) (hr' : (run ch w' (ops.map (renameOp σ))).HasRoom) :
    answers ch w' (ops.map (renameOp σ)) = (answers ch w ops).map (renameOutcome σ) ∧
    (run ch w' (ops.map (renameOp σ))).bank = (run ch w ops).bank ∧
    SameFace (run ch w ops).store (run ch w' (ops.map (renameOp σ))).store ∧
    (∀ q, QueryFits q → OfTheWhole q → answer (run ch w' (ops.map (renameOp σ))).store q = answer (run ch w ops).store q) ∧
    IdsContinue σ (run ch w ops).store (run ch w' (ops.map (renameOp σ))).store ∧
    ∃ m m' b1 b1', Traced ch m (run ch w ops) b1 ∧ Traced ch m' (run ch w' (ops.map (renameOp σ))) b1' ∧ SameLive σ b1 b1' := by
  obtain ⟨a1, b1, t1, r1⟩ := ref_run h hr
  obtain ⟨a1', b1', t1', r1'⟩ := ref_run h' hr'
  rw [he] at a1' r1'
  obtain ⟨n2, b2, g1, g2, g3⟩ := reid_run hσ ch hfit (r := refOf w b) (n := w'.store.orderId.getD 0) (b := b') hl h.rel.fine h'.rel.fine hn
  rw [g1] at a1' r1'
  rw [r1] at r1' g2 g3
  simp only at a1' r1'
  have q1 : b2 = b1' := congrArg Ref.queues r1'
  have q2 : n2 = (run ch w' (ops.map (renameOp σ))).store.orderId.getD 0 := congrArg Ref.nextId r1'
  subst q1
  have hq : ∀ q, QueryFits q → OfTheWhole q → answer (run ch w' (ops.map (renameOp σ))).store q = answer (run ch w ops).store q := by
    intro q hf ho
    obtain ⟨m, hm⟩ := traced_marks t1
    obtain ⟨m', hm'⟩ := traced_marks t1'
    rw [ref_answer t1 hm q hf, ref_answer t1' hm' q hf, ← r1']
    exact reid_answer g2 m m' ho
  refine ⟨by rw [a1', a1], (congrArg Ref.bank r1').symm, ⟨(hq .orderbookState trivial trivial).symm, (hq .isActive trivial trivial).symm,
    (hq .getMakerFee trivial trivial).symm, congrArg (fun r => r.conf.recipient) r1', fun a => (hq (.auth a) trivial trivial).symm⟩, hq, fun k => ?_, _, _, _, _, t1, t1', g2⟩
  rw [← q2]
  exact g3 k

/-- C108: order ids are mere names, and only live orders matter. Two deployments that look the same (pair, pointers, switch, fee, roles, balances), in
which the same ticks were ever used and the same live orders stand in the same sequence, under other ids, answer every history alike, up to
those ids; and in the end they look the same again, with the same live orders under those ids. -/
theorem C108_ids {ch : Chain} {n n' : Nat} {w w' : World} {b b' : Book} (h : Traced ch n w b) (h' : Traced ch n' w' b')
    (hs : SameFace w.store w'.store) (hb : w.bank = w'.bank) {σ : Nat → Nat} (hσ : Function.Injective σ) (hn : IdsContinue σ w.store w'.store)
    (hl : SameLive σ b b') {ops : List Op} (hfit : ∀ op ∈ ops, FitAlike σ op) (hr : (run ch w ops).HasRoom)
    (hr' : (run ch w' (ops.map (renameOp σ))).HasRoom) :
    answers ch w' (ops.map (renameOp σ)) = (answers ch w ops).map (renameOutcome σ) ∧
    (run ch w' (ops.map (renameOp σ))).bank = (run ch w ops).bank ∧
    SameFace (run ch w ops).store (run ch w' (ops.map (renameOp σ))).store ∧
    (∀ q, QueryFits q → OfTheWhole q → answer (run ch w' (ops.map (renameOp σ))).store q = answer (run ch w ops).store q) ∧
    IdsContinue σ (run ch w ops).store (run ch w' (ops.map (renameOp σ))).store ∧
    ∃ m m' b1 b1', Traced ch m (run ch w ops) b1 ∧ Traced ch m' (run ch w' (ops.map (renameOp σ))) b1' ∧ SameLive σ b1 b1' :=
  ids_core h h' hσ (face_ref h h' hs hb) hn hl hfit hr hr'


/-! ### An order that comes and goes -/

theorem skip_injective (n : Nat) : Function.Injective (skip n) := by
  intro a b h
  unfold skip at h
  split at h <;> split at h <;> omega

theorem swapIds_injective (n : Nat) : Function.Injective (swapIds n) := by
  intro a b h
  unfold swapIds at h
  split_ifs at h <;> omega

theorem rename_id {σ : Nat → Nat} {q : List Entry} (h : ∀ x ∈ q, σ x.id = x.id) : q.map (Entry.rename σ) = q := by
  induction q with
  | nil => rfl
  | cons x q ih =>
    rw [List.map_cons, ih fun y hy => h y (by simp [hy])]
    have := h x (by simp)
    unfold Entry.rename
    rw [this]

theorem step_of_ref {r r' : Ref} {ch : Chain} {op : Op} {resp : Response} (h : r.step ch op = .ok (r', resp)) :
    r' = { (r.effect op).1 with bank := r'.bank } ∧ resp = (r.effect op).2 ∧ verdict (r.checks ch op) = none := by
  unfold Ref.step at h
  split at h
  · cases h
  · next hv => cases h; exact ⟨rfl, rfl, hv⟩

theorem verdict_holds {l : List (Prop × Err)} (h : verdict l = none) : ∀ x ∈ l, x.1 := by
  induction l with
  | nil => simp
  | cons x l ih =>
    obtain ⟨c, e⟩ := x
    unfold verdict at h
    split at h
    · next hc =>
      intro y hy
      rcases List.mem_cons.1 hy with rfl | hy
      · exact hc
      · exact ih h y hy
    · cases h

theorem reid_ext {r r' : Ref} (k1 : r.quote = r'.quote) (k2 : r.base = r'.base) (k3 : r.conf = r'.conf) (k4 : r.best = r'.best) (k5 : r.bank = r'.bank) :
    r = r'.reid r.nextId r.queues := by
  cases r; cases r'
  simp only at k1 k2 k3 k4 k5
  subst k1 k2 k3 k4 k5
  rfl

/-- What an accepted placement does. -/
theorem placed_world {ch : Chain} {n : Nat} {w w1 : World} {b : Book} (h : Traced ch n w b) (hn : w.HasRoom) {sender : Addr} {funds : List Coin} {time : Nat}
    {tick : Int} {side : Dir} {q : Nat} {bounty : Option Nat} {resp : Response}
    (hs : step ch w (.execute sender funds time (.placeLimit tick side q bounty)) = .ok (w1, resp)) :
    ∃ b1, Traced ch (n + 1) w1 b1 ∧
      refOf w1 b1 = { ((refOf w b).place sender tick side q bounty time).1 with bank := w1.bank } ∧ sender ≠ ch.contract ∧
      (∀ a d, w1.bank a d + (if a = sender then amountOf d funds else 0) = w.bank a d + if a = ch.contract then amountOf d funds else 0) ∧
      funds = [⟨denomIn (refOf w b).quote (refOf w b).base side, q⟩] := by
  have h1 := C67_step h hn (.execute sender funds time (.placeLimit tick side q bounty))
  rw [hs] at h1
  obtain ⟨e1, e2, hv⟩ := step_of_ref h1
  have hc := verdict_holds hv
  refine ⟨_, Traced.ok h hs, e1, hc (sender ≠ ch.contract, .std) (by simp [Ref.checks, Ref.senderChecks]), fun a d => ?_, ?_⟩
  · have hb := C63_balances (fun dst c he => by cases he) hs a d
    have hm : resp.msgs = [] := by rw [e2]; rfl
    rw [hm] at hb
    simpa [paysIn, getsPaid, payment, spent, received] using hb
  · exact hc (funds = [⟨denomIn (refOf w b).quote (refOf w b).base side, q⟩],
        .insufficientFunds (amountOf (denomIn (refOf w b).quote (refOf w b).base side) funds) q)
      (by simp only [Ref.checks, Ref.userChecks, fundsChecks, List.mem_append, List.mem_cons]; simp only [or_true, true_or])

/-- C108 (an order that comes and goes leaves no trace): somebody places an order, not better than the best price and at a tick that was used before, and
cancels it. Whatever happens then is answered as if the order had never been placed, except that its id stays taken. -/
theorem C108_no_trace {ch : Chain} {n : Nat} {w w1 w2 : World} {b : Book} (h : Traced ch n w b) {sender : Addr} {funds funds' : List Coin}
    {time time' : Nat} {tick : Int} {side : Dir} {q : Nat} {bounty : Option Nat} {resp resp' : Response} {id : Nat} (hid : id = w.store.orderId.getD 0)
    (h1 : step ch w (.execute sender funds time (.placeLimit tick side q bounty)) = .ok (w1, resp))
    (h2 : step ch w1 (.execute sender funds' time' (.cancelLimit tick id)) = .ok (w2, resp'))
    (hbest : answer w1.store .orderbookState = answer w.store .orderbookState) (hused : Used b tick) {ops : List Op}
    (hfit : ∀ op ∈ ops, ∀ i ∈ idsOf op, i < 2 ^ 64 - 1) (hr : (run ch w ops).HasRoom)
    (hr' : (run ch w2 (ops.map (renameOp (skip id)))).HasRoom) :
    answers ch w2 (ops.map (renameOp (skip id))) = (answers ch w ops).map (renameOutcome (skip id)) ∧
    (run ch w2 (ops.map (renameOp (skip id)))).bank = (run ch w ops).bank ∧
    ∀ q, QueryFits q → OfTheWhole q → answer (run ch w2 (ops.map (renameOp (skip id)))).store q = answer (run ch w ops).store q := by
  have hw : w.HasRoom := run_room_back h hr
  obtain ⟨b1, t1, e1, hne, hbank1, hfunds⟩ := placed_world h hw h1
  have hw1 : w1.HasRoom := by
    refine run_room_back (ops := .execute sender funds' time' (.cancelLimit tick id) :: ops.map (renameOp (skip id))) t1 ?_
    rw [run_cons]
    have : apply ch w1 (.execute sender funds' time' (.cancelLimit tick id)) = w2 := by unfold apply; rw [h2]
    rw [this]; exact hr'
  have h3 := C67_step t1 hw1 (.execute sender funds' time' (.cancelLimit tick id))
  rw [h2] at h3
  replace h3 : (refOf w1 b1).step ch (.execute sender funds' time' (.cancelLimit tick id)) =
    .ok (refOf w2 (b1.observe (.execute sender funds' time' (.cancelLimit tick id)) w1.store w2.store resp'), resp') := h3
  have t2 := Traced.ok t1 h2
  generalize b1.observe (.execute sender funds' time' (.cancelLimit tick id)) w1.store w2.store resp' = b2 at h3 t2
  obtain ⟨e2, e3, hv⟩ := step_of_ref h3
  have hc := verdict_holds hv
  have hfunds' : funds' = [] := hc (funds' = [], .payment .nonPayable) (by simp [Ref.checks, Ref.userChecks])
  -- the cancelled order is the new one
  have q1 : b1 = b.set tick side (b tick side ++ [⟨id, sender, bounty, time, q, 0, 0, false⟩]) := by
    have := congrArg Ref.queues e1
    rw [hid]; exact this
  have hlt : ∀ t d, ∀ x ∈ b t d, x.id < id := fun t d x hx => by rw [hid]; exact h.rel.ids.lt t d x hx
  have horder : (refOf w1 b1).order tick id = some (side, ⟨id, sender, bounty, time, q, 0, 0, false⟩) := by
    have hsome : (refOf w1 b1).order tick id ≠ none := hc ((refOf w1 b1).order tick id ≠ none, .orderNotFound tick id) (by simp [Ref.checks, Ref.userChecks])
    cases ho : (refOf w1 b1).order tick id with
    | none => exact absurd ho hsome
    | some p =>
      obtain ⟨d, x⟩ := p
      obtain ⟨m1, m2, m3⟩ := order_mem ho
      have m1 : x ∈ b1 tick d := m1
      rw [q1] at m1
      unfold Book.set at m1
      split at m1
      · next hh =>
        rcases List.mem_append.1 m1 with hx | hx
        · have := hlt _ _ x hx; omega
        · rw [List.mem_singleton.1 hx, hh.2]
      · have := hlt _ _ x m1; omega
  have heff : (refOf w1 b1).effect (.execute sender funds' time' (.cancelLimit tick id)) =
      (refOf w1 b1).cancel tick side ⟨id, sender, bounty, time, q, 0, 0, false⟩ := by
    simp only [Ref.effect, Ref.userEffect, horder]
  rw [heff] at e2 e3
  have q2 : b2 = b1.set tick side (updQ id (fun x => { x with cancelled := true }) (b1 tick side)) := congrArg Ref.queues e2
  have k1 : updQ id (fun x => { x with cancelled := true }) (b1 tick side) = b tick side ++ [⟨id, sender, bounty, time, q, 0, 0, true⟩] := by
    rw [q1]
    unfold Book.set updQ
    rw [if_pos ⟨rfl, rfl⟩, List.map_append]
    congr 1
    · refine (List.map_congr_left fun x hx => ?_).trans (List.map_id _)
      have := hlt _ _ x hx
      rw [if_neg (by omega)]; rfl
    · simp
  have q3 : b2 = b.set tick side (b tick side ++ [⟨id, sender, bounty, time, q, 0, 0, true⟩]) := by
    rw [q2, k1, q1]
    funext t d
    unfold Book.set
    split <;> rfl
  have hlive : SameLive (skip id) b b2 := by
    refine ⟨fun t d => ?_, fun t => ?_⟩
    · rw [rename_id fun x hx => ?_, q3]
      · unfold Book.set
        split
        · next hh =>
          rw [liveQ_append, hh.1, hh.2, liveQ_neg _ (fun hc => by cases hc.1)]
          simp [liveQ]
        · rfl
      · have hx := hlt t d x (List.mem_of_mem_filter hx)
        unfold skip
        rw [if_pos hx]
    · rw [q3]
      unfold Used Book.set
      constructor
      · rintro ⟨d, hd⟩
        split at hd
        · next hh => rw [hh.1]; exact hused
        · exact ⟨d, hd⟩
      · rintro ⟨d, hd⟩
        refine ⟨d, ?_⟩
        split
        · simp
        · exact hd
  have hbank : w2.bank = w.bank := by
    funext a d
    have g1 := hbank1 a d
    have g2 := C63_balances (fun dst c he => by cases he) h2 a d
    rw [e3, hfunds'] at g2
    simp only [paysIn, getsPaid, payment, Ref.cancel, spent, received, amountOf, List.map_cons, List.map_nil, List.sum_cons, List.sum_nil, ite_self] at g2
    rw [hfunds] at g1
    simp only [amountOf, List.map_cons, List.map_nil, List.sum_cons, List.sum_nil] at g1
    have hq' : (refOf w1 b1).quote = (refOf w b).quote := (congrArg Ref.quote e1).trans rfl
    have hb' : (refOf w1 b1).base = (refOf w b).base := (congrArg Ref.base e1).trans rfl
    rw [hq', hb'] at g2
    generalize denomIn (refOf w b).quote (refOf w b).base side = e at g1 g2
    rcases eq_or_ne a sender with rfl | a1
    · simp only [if_neg hne, if_true, true_and] at g1 g2
      by_cases a3 : e = d
      · simp only [if_pos a3] at g1 g2; omega
      · simp only [if_neg a3] at g1 g2; omega
    · simp only [if_neg a1, if_neg (fun h : sender = a ∧ e = d => a1 h.1.symm)] at g1 g2
      by_cases a2 : a = ch.contract
      · simp only [if_pos a2] at g1 g2
        by_cases a3 : e = d
        · simp only [if_pos a3] at g1 g2; omega
        · simp only [if_neg a3] at g1 g2; omega
      · simp only [if_neg a2] at g1 g2; omega
  have hbest' : (refOf w2 b2).best = (refOf w b).best := by
    have g1 : (refOf w2 b2).best = (refOf w1 b1).best := (congrArg Ref.best e2).trans rfl
    rw [g1]
    obtain ⟨ob, hob, -⟩ := h.rel.ptr
    obtain ⟨ob', hob', -⟩ := t1.rel.ptr
    rw [answer_orderbookState hob, answer_orderbookState hob'] at hbest
    obtain rfl := Answer.book.inj (Option.some.inj hbest)
    simp only [refS, hob, hob']
  have hnext : w2.store.orderId.getD 0 = id + 1 := by
    have g1 : (refOf w2 b2).nextId = (refOf w1 b1).nextId := (congrArg Ref.nextId e2).trans rfl
    have g2 : (refOf w1 b1).nextId = (refOf w b).nextId + 1 := (congrArg Ref.nextId e1).trans rfl
    rw [hid]
    exact g1.trans g2
  have he : refOf w2 b2 = (refOf w b).reid (w2.store.orderId.getD 0) b2 := by
    have c1 : (refOf w2 b2).quote = (refOf w b).quote := (congrArg Ref.quote e2).trans ((congrArg Ref.quote e1).trans rfl)
    have c2 : (refOf w2 b2).base = (refOf w b).base := (congrArg Ref.base e2).trans ((congrArg Ref.base e1).trans rfl)
    have c3 : (refOf w2 b2).conf = (refOf w b).conf := (congrArg Ref.conf e2).trans ((congrArg Ref.conf e1).trans rfl)
    have c4 : (refOf w2 b2).bank = (refOf w b).bank := hbank
    exact reid_ext c1 c2 c3 hbest' c4
  obtain ⟨f1, f2, -, f3, -⟩ := ids_core h t2 (skip_injective id) he
    (fun k => by
      rw [hnext, ← hid]
      unfold skip
      rw [if_neg (by omega)]; omega)
    hlive (fun op ho i hi => by
      have := hfit op ho i hi
      unfold skip
      split <;> omega) hr hr'
  exact ⟨f1, f2, f3⟩


/-! ### Two placements -/

theorem verdict_all {l : List (Prop × Err)} (h : ∀ x ∈ l, x.1) : verdict l = none := by
  induction l with
  | nil => rfl
  | cons x l ih =>
    obtain ⟨c, e⟩ := x
    unfold verdict
    rw [if_pos (h (c, e) (by simp))]
    exact ih fun y hy => h y (by simp [hy])

/-- Whether a placement is accepted depends on the pair, the configuration and what the account owns. -/
theorem place_again {ch : Chain} {r r' : Ref} {sender : Addr} {funds : List Coin} {time : Nat} {tick : Int} {side : Dir} {q : Nat} {bounty : Option Nat}
    (h : verdict (r.checks ch (.execute sender funds time (.placeLimit tick side q bounty))) = none) (h1 : r'.quote = r.quote) (h2 : r'.base = r.base)
    (h3 : r'.conf = r.conf) (ho : Owns r'.bank sender funds) : verdict (r'.checks ch (.execute sender funds time (.placeLimit tick side q bounty))) = none := by
  have hc := verdict_holds h
  refine verdict_all fun x hx => ?_
  simp only [Ref.checks, Ref.senderChecks, Ref.userChecks, h1, h2, h3, List.cons_append, List.nil_append, List.mem_cons] at hx hc
  rcases hx with rfl | rfl | rfl | hx
  · exact hc (sender ≠ ch.contract, .std) (by simp)
  · exact hc (MsgFits (.placeLimit tick side q bounty), .decode) (by simp)
  · exact ho
  · exact hc x (.inr (.inr (.inr hx)))

theorem step_place {ch : Chain} {r : Ref} {sender : Addr} {funds : List Coin} {time : Nat} {tick : Int} {side : Dir} {q : Nat} {bounty : Option Nat}
    (h : verdict (r.checks ch (.execute sender funds time (.placeLimit tick side q bounty))) = none) :
    ∃ bank, r.step ch (.execute sender funds time (.placeLimit tick side q bounty)) = .ok ({ (r.place sender tick side q bounty time).1 with bank := bank },
      (r.place sender tick side q bounty time).2) := by
  unfold Ref.step
  rw [h]
  exact ⟨_, rfl⟩

theorem answers_ok {ch : Chain} {w w' : World} {op : Op} {ops : List Op} {resp : Response} (h : step ch w op = .ok (w', resp)) :
    answers ch w (op :: ops) = .ok resp :: answers ch w' ops := by
  rw [answers, h]

/-- C108 (the sequence of placements at different prices or on different sides does not matter, except for the ids): if two orders for different
queues are accepted one after the other, they are accepted the other way round too, with the ids exchanged, and whatever happens then is answered
alike, with these ids exchanged. -/
theorem C108_placements {ch : Chain} {n : Nat} {w : World} {b : Book} (h : Traced ch n w b) {A B : Op} {a a' : Addr} {funds funds' : List Coin} {time time' : Nat}
    {tick tick' : Int} {side side' : Dir} {q q' : Nat} {bounty bounty' : Option Nat} (hA : A = .execute a funds time (.placeLimit tick side q bounty))
    (hB : B = .execute a' funds' time' (.placeLimit tick' side' q' bounty')) (hne : ¬ (tick = tick' ∧ side = side')) {ops : List Op} {rA rB : Response}
    {rest : List (Except Err Response)} {σ : Nat → Nat} (hσ : σ = swapIds (w.store.orderId.getD 0))
    (ha : answers ch w (A :: B :: ops) = .ok rA :: .ok rB :: rest) (hfit : ∀ op ∈ ops, ∀ i ∈ idsOf op, i < 2 ^ 64 - 1)
    (hr : (run ch w (A :: B :: ops)).HasRoom) (hr' : (run ch w (B :: A :: ops.map (renameOp σ))).HasRoom) :
    answers ch w (B :: A :: ops.map (renameOp σ)) = renameOutcome σ (.ok rB) :: renameOutcome σ (.ok rA) :: rest.map (renameOutcome σ) ∧
    (run ch w (B :: A :: ops.map (renameOp σ))).bank = (run ch w (A :: B :: ops)).bank ∧
    ∀ q, QueryFits q → OfTheWhole q → answer (run ch w (B :: A :: ops.map (renameOp σ))).store q = answer (run ch w (A :: B :: ops)).store q := by
  have hw : w.HasRoom := run_room_back h hr
  -- first order of things
  unfold answers at ha
  cases h1 : step ch w A with
  | error e => rw [h1] at ha; simp at ha
  | ok x =>
  obtain ⟨w1, rA'⟩ := x
  rw [h1] at ha
  simp only [List.cons.injEq, Except.ok.injEq] at ha
  obtain ⟨rfl, ha⟩ := ha
  unfold answers at ha
  cases h2 : step ch w1 B with
  | error e => rw [h2] at ha; simp at ha
  | ok x =>
  obtain ⟨w12, rB'⟩ := x
  rw [h2] at ha
  simp only [List.cons.injEq, Except.ok.injEq] at ha
  obtain ⟨rfl, rfl⟩ := ha
  have a1 : apply ch w A = w1 := by unfold apply; rw [h1]
  have a2 : apply ch w1 B = w12 := by unfold apply; rw [h2]
  rw [run_cons, a1, run_cons, a2] at hr
  subst hA hB
  obtain ⟨b1, t1, e1, ne1, bank1, -⟩ := placed_world h hw h1
  have hw1 : w1.HasRoom := run_room_back (ops := .execute a' funds' time' (.placeLimit tick' side' q' bounty') :: ops) t1 (by rw [run_cons, a2]; exact hr)
  obtain ⟨b12, t12, e12, ne2, bank2, -⟩ := placed_world t1 hw1 h2
  have s1 := C67_step h hw (.execute a funds time (.placeLimit tick side q bounty))
  rw [h1] at s1
  have s2 := C67_step t1 hw1 (.execute a' funds' time' (.placeLimit tick' side' q' bounty'))
  rw [h2] at s2
  obtain ⟨-, m1, v1⟩ := step_of_ref s1
  obtain ⟨-, m2, v2⟩ := step_of_ref s2
  have o1 : Owns w.bank a funds := verdict_holds v1 (Owns w.bank a funds, .bank) (by simp [Ref.checks, Ref.senderChecks, refS])
  have o2 : Owns w1.bank a' funds' := verdict_holds v2 (Owns w1.bank a' funds', .bank) (by simp [Ref.checks, Ref.senderChecks, refS])
  have p1 : (refOf w1 b1).quote = (refOf w b).quote := (congrArg Ref.quote e1).trans rfl
  have p2 : (refOf w1 b1).base = (refOf w b).base := (congrArg Ref.base e1).trans rfl
  have p3 : (refOf w1 b1).conf = (refOf w b).conf := (congrArg Ref.conf e1).trans rfl
  have p4 : (refOf w1 b1).nextId = (refOf w b).nextId + 1 := (congrArg Ref.nextId e1).trans rfl
  -- second order of things: B first
  have o3 : Owns w.bank a' funds' := by
    refine ⟨o2.1, fun d => (o2.2 d).trans ?_⟩
    have := bank1 a' d
    rw [if_neg (show ¬ a' = ch.contract from ne2)] at this
    omega
  have v3 := place_again v2 p1.symm p2.symm p3.symm (r' := refOf w b) o3
  obtain ⟨k2, s3⟩ := step_place v3
  have c3 := C67_step h hw (.execute a' funds' time' (.placeLimit tick' side' q' bounty'))
  rw [s3] at c3
  cases h3 : step ch w (.execute a' funds' time' (.placeLimit tick' side' q' bounty')) with
  | error e => rw [h3] at c3; cases c3
  | ok x =>
  obtain ⟨w2, rB2⟩ := x
  rw [h3] at c3
  have m3 : rB2 = ((refOf w b).place a' tick' side' q' bounty' time').2 := (congrArg Prod.snd (Except.ok.inj c3)).symm
  obtain ⟨b2, t2, e2, -, bank3, -⟩ := placed_world h hw h3
  have a3 : apply ch w (.execute a' funds' time' (.placeLimit tick' side' q' bounty')) = w2 := by unfold apply; rw [h3]
  rw [run_cons, a3] at hr'
  have hw2 : w2.HasRoom := run_room_back t2 hr'
  have p1' : (refOf w2 b2).quote = (refOf w b).quote := (congrArg Ref.quote e2).trans rfl
  have p2' : (refOf w2 b2).base = (refOf w b).base := (congrArg Ref.base e2).trans rfl
  have p3' : (refOf w2 b2).conf = (refOf w b).conf := (congrArg Ref.conf e2).trans rfl
  have p4' : (refOf w2 b2).nextId = (refOf w b).nextId + 1 := (congrArg Ref.nextId e2).trans rfl
  have o4 : Owns w2.bank a funds := by
    refine ⟨o1.1, fun d => ?_⟩
    have g1 := bank1 a d
    have g2 := bank3 a d
    have g3 := o2.2 d
    have g4 := o1.2 d
    rw [if_neg (show ¬ a = ch.contract from ne1)] at g1 g2
    rw [if_pos rfl] at g1
    by_cases hh : a = a'
    · subst hh; rw [if_pos rfl] at g2; omega
    · rw [if_neg hh] at g2; omega
  have v4 := place_again v1 p1' p2' p3' (r' := refOf w2 b2) o4
  obtain ⟨k1, s4⟩ := step_place v4
  have c4 := C67_step t2 hw2 (.execute a funds time (.placeLimit tick side q bounty))
  rw [s4] at c4
  cases h4 : step ch w2 (.execute a funds time (.placeLimit tick side q bounty)) with
  | error e => rw [h4] at c4; cases c4
  | ok x =>
  obtain ⟨w21, rA2⟩ := x
  rw [h4] at c4
  have m4 : rA2 = ((refOf w2 b2).place a tick side q bounty time).2 := (congrArg Prod.snd (Except.ok.inj c4)).symm
  obtain ⟨b21, t21, e21, -, bank4, -⟩ := placed_world t2 hw2 h4
  have a4 : apply ch w2 (.execute a funds time (.placeLimit tick side q bounty)) = w21 := by unfold apply; rw [h4]
  rw [run_cons, a4] at hr'
  -- the two exchanges
  have n0 : (refOf w b).nextId = w.store.orderId.getD 0 := rfl
  generalize hm : w.store.orderId.getD 0 = m at hσ n0
  subst hσ
  have x1 : b1 = b.set tick side (b tick side ++ [⟨m, a, bounty, time, q, 0, 0, false⟩]) := by
    rw [← n0]; exact congrArg Ref.queues e1
  have x12 : b12 = b1.set tick' side' (b1 tick' side' ++ [⟨m + 1, a', bounty', time', q', 0, 0, false⟩]) := by
    rw [← n0, ← p4]; exact congrArg Ref.queues e12
  have x2 : b2 = b.set tick' side' (b tick' side' ++ [⟨m, a', bounty', time', q', 0, 0, false⟩]) := by
    rw [← n0]; exact congrArg Ref.queues e2
  have x21 : b21 = b2.set tick side (b2 tick side ++ [⟨m + 1, a, bounty, time, q, 0, 0, false⟩]) := by
    rw [← n0, ← p4']; exact congrArg Ref.queues e21
  have hlt : ∀ t d, ∀ x ∈ b t d, swapIds m x.id = x.id := fun t d x hx => by
    have := h.rel.ids.lt t d x hx
    unfold swapIds
    rw [if_neg (by omega), if_neg (by omega)]
  have hne' : ¬ (tick' = tick ∧ side' = side) := fun hc => hne ⟨hc.1.symm, hc.2.symm⟩
  have y12 : ∀ t d, b12 t d = if t = tick ∧ d = side then b t d ++ [⟨m, a, bounty, time, q, 0, 0, false⟩] else
      if t = tick' ∧ d = side' then b t d ++ [⟨m + 1, a', bounty', time', q', 0, 0, false⟩] else b t d := by
    intro t d
    rw [x12, x1]
    unfold Book.set
    by_cases c1 : t = tick' ∧ d = side'
    · have c2 : ¬ (t = tick ∧ d = side) := fun hc => hne ⟨hc.1.symm.trans c1.1, hc.2.symm.trans c1.2⟩
      rw [if_pos c1, if_neg hne', if_neg c2, if_pos c1, c1.1, c1.2]
    · rw [if_neg c1, if_neg c1]
      by_cases c2 : t = tick ∧ d = side
      · rw [if_pos c2, if_pos c2, c2.1, c2.2]
      · rw [if_neg c2, if_neg c2]
  have y21 : ∀ t d, b21 t d = if t = tick ∧ d = side then b t d ++ [⟨m + 1, a, bounty, time, q, 0, 0, false⟩] else
      if t = tick' ∧ d = side' then b t d ++ [⟨m, a', bounty', time', q', 0, 0, false⟩] else b t d := by
    intro t d
    rw [x21, x2]
    unfold Book.set
    by_cases c2 : t = tick ∧ d = side
    · rw [if_pos c2, if_neg hne, if_pos c2, c2.1, c2.2]
    · rw [if_neg c2, if_neg c2]
      by_cases c1 : t = tick' ∧ d = side'
      · rw [if_pos c1, if_pos c1, c1.1, c1.2]
      · rw [if_neg c1, if_neg c1]
  have i1 : swapIds m m = m + 1 := by unfold swapIds; rw [if_pos rfl]
  have i2 : swapIds m (m + 1) = m := by unfold swapIds; rw [if_neg (by omega), if_pos rfl]
  have hlive : SameLive (swapIds m) b12 b21 := by
    refine ⟨fun t d => ?_, fun t => ?_⟩
    · rw [y12, y21, ← liveQ_rename]
      split
      · rw [List.map_append, rename_id (hlt t d)]
        simp only [List.map_cons, List.map_nil, Entry.rename, i1]
      · split
        · rw [List.map_append, rename_id (hlt t d)]
          simp only [List.map_cons, List.map_nil, Entry.rename, i2]
        · rw [rename_id (hlt t d)]
    · unfold Used
      refine exists_congr fun d => ?_
      rw [y12, y21]
      split
      · simp
      · split
        · simp
        · rfl
  have hbank : w21.bank = w12.bank := by
    funext x d
    have g1 := bank1 x d
    have g2 := bank2 x d
    have g3 := bank3 x d
    have g4 := bank4 x d
    omega
  have hbest : (refOf w21 b21).best = (refOf w12 b12).best := by
    have q1 : (refOf w1 b1).best = fun d => if d = side then (match side with | .bid => max ((refOf w b).best d) tick | .ask => min ((refOf w b).best d) tick) else (refOf w b).best d :=
      (congrArg Ref.best e1).trans rfl
    have q12 : (refOf w12 b12).best = fun d => if d = side' then (match side' with | .bid => max ((refOf w1 b1).best d) tick' | .ask => min ((refOf w1 b1).best d) tick') else (refOf w1 b1).best d :=
      (congrArg Ref.best e12).trans rfl
    have q2 : (refOf w2 b2).best = fun d => if d = side' then (match side' with | .bid => max ((refOf w b).best d) tick' | .ask => min ((refOf w b).best d) tick') else (refOf w b).best d :=
      (congrArg Ref.best e2).trans rfl
    have q21 : (refOf w21 b21).best = fun d => if d = side then (match side with | .bid => max ((refOf w2 b2).best d) tick | .ask => min ((refOf w2 b2).best d) tick) else (refOf w2 b2).best d :=
      (congrArg Ref.best e21).trans rfl
    rw [q21, q12, q1, q2]
    funext d
    cases side <;> cases side' <;> cases d <;> simp [max_right_comm, min_right_comm]
  have he : refOf w21 b21 = (refOf w12 b12).reid (w21.store.orderId.getD 0) b21 := by
    refine reid_ext ?_ ?_ ?_ hbest hbank
    · exact ((congrArg Ref.quote e21).trans (p1' : _ = _)).trans (((congrArg Ref.quote e12).trans (p1 : _ = _)).symm)
    · exact ((congrArg Ref.base e21).trans (p2' : _ = _)).trans (((congrArg Ref.base e12).trans (p2 : _ = _)).symm)
    · exact ((congrArg Ref.conf e21).trans (p3' : _ = _)).trans (((congrArg Ref.conf e12).trans (p3 : _ = _)).symm)
  have n12 : w12.store.orderId.getD 0 = m + 2 := by
    have : (refOf w12 b12).nextId = (refOf w1 b1).nextId + 1 := (congrArg Ref.nextId e12).trans rfl
    rw [p4, n0] at this; exact this
  have n21 : w21.store.orderId.getD 0 = m + 2 := by
    have : (refOf w21 b21).nextId = (refOf w2 b2).nextId + 1 := (congrArg Ref.nextId e21).trans rfl
    rw [p4', n0] at this; exact this
  obtain ⟨f1, f2, -, f3, -⟩ := ids_core t12 t21 (swapIds_injective m) he
    (fun k => by
      rw [n12, n21]
      unfold swapIds
      rw [if_neg (by omega), if_neg (by omega)])
    hlive (ops := ops) (fun op ho i hi => by
      have := hfit op ho i hi
      unfold swapIds
      split_ifs <;> omega) hr hr'
  refine ⟨?_, ?_, ?_⟩
  · rw [answers_ok h3, answers_ok h4, f1, m3, m4, m1, m2]
    simp only [renameOutcome, Ref.effect, Ref.userEffect, Ref.place, List.map_cons, List.map_nil, renameEvent, p1, p2, p1', p2', p4, p4', n0, i1, i2]
  · rw [run_cons, a3, run_cons, a4, run_cons, a1, run_cons, a2]; exact f2
  · rw [run_cons, a3, run_cons, a4, run_cons, a1, run_cons, a2]; exact f3

/-! ### The hypotheses are met -/

namespace Demo

/-- "zoe" bids at the best bid tick and cancels. -/
def visit : Op := place "zoe" 0 .bid 1000 none
def leave : Op := cancel "zoe" 0 5

/-- What happens afterwards; it names order 5, the next one. -/
def later : List Op :=
  [place "yan" 0 .bid 3000 none, claim "dave" 0 3, sell "frank" 42000 1, claim "yan" 0 5, cancel "yan" 0 5, cancel "bob" 10 1]

def here : World := (trace history).1

theorem here_room (ops : List Op) (h : ops.length < 10 ^ 15) : (run ch here ops).HasRoom := by
  obtain ⟨b, hb⟩ := (traced history).run ops
  exact hb.short (by rw [show history.length = 10 from rfl]; omega)

/-- The two operations of the visit are accepted; nothing else is asked of them by C108_no_trace. -/
theorem visit_traceless :
    answers ch (run ch here [visit, leave]) (later.map (renameOp (skip 5))) = (answers ch here later).map (renameOutcome (skip 5)) ∧
    (run ch (run ch here [visit, leave]) (later.map (renameOp (skip 5)))).bank = (run ch here later).bank := by
  obtain ⟨r1, h1⟩ : ∃ r, step ch here visit = .ok (run ch here [visit], r) := by
    cases hs : step ch here visit with
    | error e =>
      have : (respOf ch here visit).isSome = true := by decide +kernel
      unfold respOf at this
      rw [hs] at this
      exact absurd this (by simp)
    | ok x => exact ⟨x.2, by rw [run_cons]; unfold apply; rw [hs]; rfl⟩
  obtain ⟨r2, h2⟩ : ∃ r, step ch (run ch here [visit]) leave = .ok (run ch here [visit, leave], r) := by
    cases hs : step ch (run ch here [visit]) leave with
    | error e =>
      have : (respOf ch (run ch here [visit]) leave).isSome = true := by decide +kernel
      unfold respOf at this
      rw [hs] at this
      exact absurd this (by simp)
    | ok x =>
      refine ⟨x.2, ?_⟩
      rw [show [visit, leave] = [visit] ++ [leave] from rfl, run_append, run_cons (w := run ch here [visit])]; unfold apply; rw [hs]; rfl
  obtain ⟨g1, g2, -⟩ := C108_no_trace (traced history) (id := 5) (by decide +kernel) h1 h2 (by decide +kernel)
    ⟨.bid, by decide +kernel⟩ (ops := later) (by decide +kernel) (here_room _ (by decide))
    (by rw [← run_append]; exact here_room _ (by decide))
  exact ⟨g1, g2⟩

end Demo

/-- The visit is accepted, the later operations really happen, and they name the renamed order. -/
example : gist (answers Demo.ch Demo.here (Demo.visit :: Demo.leave :: Demo.later.map (renameOp (skip 5)))) =
    [([], [5]), (["zoe"], []), ([], [6]), (["dave", "dave", "fees"], []), (["frank"], []), (["yan", "fees"], []), (["yan"], []), (["bob"], [])] ∧
    gist (answers Demo.ch Demo.here Demo.later) =
      [([], [5]), (["dave", "dave", "fees"], []), (["frank"], []), (["yan", "fees"], []), (["yan"], []), (["bob"], [])] := by
  decide +kernel

namespace Demo

def bidFirst : Op := place "zoe" 0 .bid 1000 none
def askFirst : Op := place "yan" 12 .ask 2000 none
def afterwards : List Op := [claim "dave" 0 3, sell "frank" 42000 1, cancel "zoe" 0 5, cancel "yan" 12 6]

/-- A bid and an ask placed the other way round. -/
theorem exchanged : ∃ rA rB rest, answers ch here (bidFirst :: askFirst :: afterwards) = .ok rA :: .ok rB :: rest ∧
    answers ch here (askFirst :: bidFirst :: afterwards.map (renameOp (swapIds 5))) =
      renameOutcome (swapIds 5) (.ok rB) :: renameOutcome (swapIds 5) (.ok rA) :: rest.map (renameOutcome (swapIds 5)) := by
  obtain ⟨rA, h1⟩ : ∃ r, step ch here bidFirst = .ok (run ch here [bidFirst], r) := by
    cases hs : step ch here bidFirst with
    | error e =>
      have : (respOf ch here bidFirst).isSome = true := by decide +kernel
      unfold respOf at this
      rw [hs] at this
      exact absurd this (by simp)
    | ok x => exact ⟨x.2, by rw [run_cons]; unfold apply; rw [hs]; rfl⟩
  obtain ⟨rB, h2⟩ : ∃ r, step ch (run ch here [bidFirst]) askFirst = .ok (run ch here [bidFirst, askFirst], r) := by
    cases hs : step ch (run ch here [bidFirst]) askFirst with
    | error e =>
      have : (respOf ch (run ch here [bidFirst]) askFirst).isSome = true := by decide +kernel
      unfold respOf at this
      rw [hs] at this
      exact absurd this (by simp)
    | ok x =>
      refine ⟨x.2, ?_⟩
      rw [show [bidFirst, askFirst] = [bidFirst] ++ [askFirst] from rfl, run_append, run_cons (w := run ch here [bidFirst])]
      unfold apply; rw [hs]; rfl
  have ha : answers ch here (bidFirst :: askFirst :: afterwards) = .ok rA :: .ok rB :: answers ch (run ch here [bidFirst, askFirst]) afterwards := by
    rw [answers_ok h1, answers_ok h2]
  refine ⟨rA, rB, _, ha, ?_⟩
  exact (C108_placements (traced history) rfl rfl (by decide) (σ := swapIds 5) (congrArg swapIds (by decide +kernel)) ha (by decide +kernel)
    (here_room _ (by decide)) (here_room _ (by decide))).1

end Demo

example : gist (answers Demo.ch Demo.here (Demo.askFirst :: Demo.bidFirst :: Demo.afterwards.map (renameOp (swapIds 5)))) =
    [([], [5]), ([], [6]), (["dave", "dave", "fees"], []), (["frank"], []), (["yan"], [])] ∧
    gist (answers Demo.ch Demo.here (Demo.bidFirst :: Demo.askFirst :: Demo.afterwards)) =
    [([], [5]), ([], [6]), (["dave", "dave", "fees"], []), (["frank"], []), (["yan"], [])] := by
  decide +kernel

/-- C108_no_trace needs its hypothesis on the pointers (finding 28): an order better than all others that comes and goes leaves the best-tick
pointer, and with it the reported spot price, moved. -/
theorem C108_pointer : ∃ ch w ops, Reachable ch w ∧ (answers ch w ops).length = 2 ∧ (∀ r ∈ answers ch w ops, ∃ resp, r = .ok resp) ∧
    (∃ a t q, ops = [Demo.place a t .bid q none, Demo.cancel a t (w.store.orderId.getD 0)]) ∧
    answer (run ch w ops).store (.spotPrice "q" "b") ≠ answer w.store (.spotPrice "q" "b") := by
  refine ⟨Demo.ch, Demo.here, [Demo.place "zoe" 10 .bid 1000 none, Demo.cancel "zoe" 10 5], ⟨_, (Demo.traced Demo.history).reachable⟩,
    by decide +kernel, fun r hr => ?_, ⟨"zoe", 10, 1000, ?_⟩, ?_⟩
  · have h : ∀ r ∈ answers Demo.ch Demo.here [Demo.place "zoe" 10 .bid 1000 none, Demo.cancel "zoe" 10 5], r.isOk = true := by decide +kernel
    have := h r hr
    cases r with
    | ok x => exact ⟨x, rfl⟩
    | error e => exact absurd this (by simp [Except.isOk, Except.toBool])
  · rw [show Demo.here.store.orderId.getD 0 = 5 by decide +kernel]
  · decide +kernel

end OB
