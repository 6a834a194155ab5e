import Verif.SpecFee
import Verif.Props.Answers
import Verif.Props.Room
import Verif.Proofs.Demo
/- C107: the administration decides nothing but the split of claims. -/
namespace OB
open Spec

/-- The same exchange with another administration (but the same switch) and other balances. -/
def Twin (r r' : Ref) : Prop := r' = { r with conf := r'.conf, bank := r'.bank } ∧ r'.conf.active = r.conf.active

/-- Bounties and fee within their limits. -/
def Modest (r : Ref) : Prop := r.conf.fee ≤ 5 * 10 ^ 16 ∧ ∀ t d, ∀ x ∈ r.queues t d, x.bounty.getD 0 ≤ 10 ^ 16

theorem verdict_past {l l2 : List (Prop × Err)} {c c' : Prop} {e : Err} (h : verdict (l ++ (c, e) :: l2) ≠ some e)
    (h' : verdict (l ++ (c', e) :: l2) ≠ some e) : verdict (l ++ (c, e) :: l2) = verdict (l ++ (c', e) :: l2) := by
  induction l with
  | nil =>
    simp only [List.nil_append, verdict] at h h' ⊢
    by_cases a : c
    · by_cases a' : c'
      · rw [if_pos a, if_pos a']
      · rw [if_neg a'] at h'; exact absurd rfl h'
    · rw [if_neg a] at h; exact absurd rfl h
  | cons x l ih =>
    obtain ⟨d, f⟩ := x
    simp only [List.cons_append, verdict] at h h' ⊢
    split
    · rename_i hd
      rw [if_pos hd] at h h'
      exact ih h h'
    · rfl

/-- Twins decide a trade alike, unless somebody cannot pay. -/
theorem twin_verdict {ch : Chain} {r r' : Ref} (ht : Twin r r') {op : Op} (hop : ¬ Op.Aside op) (h : verdict (r.checks ch op) ≠ some .bank)
    (h' : verdict (r'.checks ch op) ≠ some .bank) : verdict (r.checks ch op) = verdict (r'.checks ch op) := by
  obtain ⟨quote, base, conf, nid, Q, best, k⟩ := r
  obtain ⟨quote', base', c, nid', Q', best', k'⟩ := r'
  obtain ⟨h1, h2⟩ := ht
  simp only [Ref.mk.injEq] at h1
  obtain ⟨rfl, rfl, -, rfl, rfl, rfl, -⟩ := h1
  have h2 : c.active = conf.active := h2
  cases op with
  | execute sender funds time msg =>
    cases msg with
    | auth m => exact absurd trivial hop
    | placeLimit tick side q bounty =>
      simp only [Ref.checks, Ref.senderChecks, Ref.userChecks, h2] at h h' ⊢
      exact verdict_past (l := [_, _]) h h'
    | cancelLimit tick id =>
      simp only [Ref.checks, Ref.senderChecks, Ref.userChecks, h2] at h h' ⊢
      exact verdict_past (l := [_, _]) h h'
    | claimLimit tick id =>
      simp only [Ref.checks, Ref.senderChecks, Ref.userChecks, h2] at h h' ⊢
      exact verdict_past (l := [_, _]) h h'
    | batchClaim l =>
      simp only [Ref.checks, Ref.senderChecks, Ref.userChecks, h2] at h h' ⊢
      exact verdict_past (l := [_, _]) h h'
  | «sudo» time m =>
    cases m with
    | swapExactAmountIn sender c out minOut fee =>
      simp only [Ref.checks, Ref.swapChecks, h2] at h h' ⊢
      exact verdict_past (l := [_, _]) h h'
    | swapToTick sender c out minOut fee target =>
      simp only [Ref.checks, Ref.swapChecks, h2] at h h' ⊢
      exact verdict_past (l := [_, _]) h h'
    | swapExactAmountOut a b c d e => simp only [Ref.checks, h2]
    | transferAdmin a => exact absurd trivial hop
    | removeAdmin => exact absurd trivial hop
    | setActive x => exact absurd trivial hop
  | migrate => exact absurd trivial hop
  | mint a b => exact absurd trivial hop
  | transfer a b c => exact absurd trivial hop

/-- Transfers that are the same up to the split. -/
def SplitAlike (ms ms' : List SendMsg) : Prop :=
  (∀ d, amountOf d (ms.map SendMsg.coin) = amountOf d (ms'.map SendMsg.coin)) ∧
  (ms.filter fun m => m.replyId ≠ 2 ∧ m.replyId ≠ 4) = ms'.filter fun m => m.replyId ≠ 2 ∧ m.replyId ≠ 4

theorem amountOf_append' (d : Denom) (a b : List Coin) : amountOf d (a ++ b) = amountOf d a + amountOf d b := by
  simp [amountOf]

theorem SplitAlike.append {a a' b b' : List SendMsg} (h : SplitAlike a a') (h2 : SplitAlike b b') : SplitAlike (a ++ b) (a' ++ b') :=
  ⟨fun d => by rw [List.map_append, List.map_append, amountOf_append', amountOf_append', h.1, h2.1],
   by rw [List.filter_append, List.filter_append, h.2, h2.2]⟩

theorem amountOf_nonzero (d : Denom) (ms : List SendMsg) :
    amountOf d ((ms.filter fun m => m.coin.amount ≠ 0).map SendMsg.coin) = amountOf d (ms.map SendMsg.coin) := by
  induction ms with
  | nil => rfl
  | cons m ms ih =>
    unfold amountOf at ih ⊢
    by_cases h : m.coin.amount = 0
    · rw [List.filter_cons_of_neg (by simp [h])]
      simp only [List.map_cons, List.sum_cons, h, ite_self]
      rw [ih]; omega
    · rw [List.filter_cons_of_pos (by simp [h])]
      simp only [List.map_cons, List.sum_cons]
      rw [ih]

theorem split_total (caller owner recipient : Addr) (out : Denom) (ρ : Option Nat) (f v : Nat) (hρ : ρ.getD 0 ≤ 10 ^ 16) (hf : f ≤ 5 * 10 ^ 16) (d : Denom) :
    amountOf d ((split caller owner recipient out ρ f v).map SendMsg.coin) = if out = d then v else 0 := by
  unfold split
  have hb : v * ρ.getD 0 / 10 ^ 18 ≤ v / 100 := by
    have : v * ρ.getD 0 ≤ v * 10 ^ 16 := Nat.mul_le_mul_left _ hρ
    omega
  have hfe : v * f / 10 ^ 18 ≤ v / 20 := by
    have : v * f ≤ v * (5 * 10 ^ 16) := Nat.mul_le_mul_left _ hf
    omega
  simp only
  generalize v * ρ.getD 0 / 10 ^ 18 = bt at hb ⊢
  generalize v * f / 10 ^ 18 = fe at hfe ⊢
  generalize hfe' : (if v ≤ bt then 0 else fe) = fe'
  have h3 : fe' ≤ v / 20 := by rw [← hfe']; split <;> omega
  rw [amountOf_nonzero]
  simp only [amountOf, List.map_cons, List.map_nil, List.sum_cons, List.sum_nil]
  by_cases c4 : out = d
  · simp only [if_pos c4]
    have : fe' = 0 ∨ bt + fe' ≤ v := by omega
    omega
  · simp only [if_neg c4]; rfl

theorem split_alike (caller owner recipient recipient' : Addr) (out : Denom) (ρ : Option Nat) (f f' v : Nat) (hρ : ρ.getD 0 ≤ 10 ^ 16)
    (hf : f ≤ 5 * 10 ^ 16) (hf' : f' ≤ 5 * 10 ^ 16) : SplitAlike (split caller owner recipient out ρ f v) (split caller owner recipient' out ρ f' v) := by
  refine ⟨fun d => by rw [split_total _ _ _ _ _ _ _ hρ hf, split_total _ _ _ _ _ _ _ hρ hf'], ?_⟩
  unfold split
  simp only
  generalize v * ρ.getD 0 / 10 ^ 18 = bt
  generalize (if v ≤ bt then 0 else v * f / 10 ^ 18) = fe
  generalize (if v ≤ bt then 0 else v * f' / 10 ^ 18) = fe'
  rw [List.filter_comm, List.filter_comm (_ : SendMsg → Bool) _ [⟨owner, ⟨out, v - bt - fe'⟩, 2⟩, _, _]]
  rfl

theorem order_entry {r : Ref} {tick : Int} {id : Nat} {side : Dir} {x : Entry} (h : r.order tick id = some (side, x)) : x ∈ r.queues tick side := by
  unfold Ref.order at h
  split at h
  · next hx =>
    cases h
    exact List.mem_of_find?_eq_some hx
  · rw [Option.map_eq_some_iff] at h
    obtain ⟨y, h, e⟩ := h
    cases e
    exact List.mem_of_find?_eq_some h

theorem Modest.update {r : Ref} (h : Modest r) (tick : Int) (side : Dir) (id : Nat) (g : Entry → Entry) (hg : ∀ x, (g x).bounty = x.bounty) :
    Modest (r.update tick side id g) := by
  refine ⟨h.1, fun t d x hx => ?_⟩
  unfold Ref.update Book.set updQ at hx
  simp only at hx
  split at hx
  · rw [List.mem_map] at hx
    obtain ⟨y, hy, rfl⟩ := hx
    have := h.2 _ _ y hy
    split
    · rw [hg]; exact this
    · exact this
  · exact h.2 _ _ x hx

theorem Modest.fill {r : Ref} (h : Modest r) (n : Nat) (t : Int) (d : Dir) : ∀ x ∈ fillQ n (r.queues t d), x.bounty.getD 0 ≤ 10 ^ 16 := by
  have := h.2 t d
  generalize r.queues t d = q at this
  induction q generalizing n with
  | nil => intro x hx; simp [fillQ] at hx
  | cons y q ih =>
    intro x hx
    rw [fillQ, List.mem_cons] at hx
    rcases hx with rfl | hx
    · exact this y (by simp)
    · exact ih _ (fun x hx => this x (by simp [hx])) x hx

/-- A sequence of claims on twins. -/
theorem twin_claims {r : Ref} (hm : Modest r) {c : Roles} (hc : c.fee ≤ 5 * 10 ^ 16) (k : Bank) (sender : Addr) (l : List (Int × Nat)) :
    (Ref.claims sender { r with conf := c, bank := k } l).1 = { (Ref.claims sender r l).1 with conf := c, bank := k } ∧
    SplitAlike (Ref.claims sender r l).2.1 (Ref.claims sender { r with conf := c, bank := k } l).2.1 ∧
    (Ref.claims sender r l).2.2.map blind = (Ref.claims sender { r with conf := c, bank := k } l).2.2.map blind ∧
    Modest (Ref.claims sender r l).1 ∧ (Ref.claims sender r l).1.conf = r.conf := by
  induction l generalizing r with
  | nil => exact ⟨rfl, ⟨fun _ => rfl, rfl⟩, rfl, hm, rfl⟩
  | cons key rest ih =>
    obtain ⟨tick, id⟩ := key
    have he : ({ r with conf := c, bank := k } : Ref).order tick id = r.order tick id := rfl
    unfold Ref.claims
    rw [he]
    cases ho : r.order tick id with
    | none => exact ih hm
    | some p =>
      obtain ⟨side, x⟩ := p
      simp only
      by_cases hl : x.claimed < x.filled
      · rw [if_pos hl, if_pos hl]
        have hx := hm.2 _ _ x (order_entry ho)
        have hm1 : Modest (r.claim sender tick side x).1 := hm.update tick side x.id _ fun _ => rfl
        have e1 : (({ r with conf := c, bank := k } : Ref).claim sender tick side x).1 = { (r.claim sender tick side x).1 with conf := c, bank := k } := rfl
        obtain ⟨h1, h2, h3, h4, h5⟩ := ih hm1
        rw [← e1] at h1 h2 h3
        refine ⟨h1, SplitAlike.append ?_ h2, ?_, h4, h5⟩
        · exact split_alike _ _ _ _ _ _ _ _ _ hx hm.1 hc
        · simp only [List.map_cons]
          rw [h3]
          rfl
      · rw [if_neg hl, if_neg hl]
        exact ih hm

/-- A trade that both twins accept leaves twins, with responses that agree. -/
theorem twin_effect {r r' : Ref} (ht : Twin r r') (hm : Modest r) (hm' : Modest r') {op : Op} (hop : ¬ Op.Aside op) :
    Twin (r.effect op).1 (r'.effect op).1 ∧ SameButSplit (r.effect op).2 (r'.effect op).2 ∧ (¬ Op.IsClaim op → (r.effect op).2 = (r'.effect op).2) ∧
    (r.effect op).1.conf = r.conf := by
  obtain ⟨quote', base', conf, nid', Q', best', k⟩ := r
  obtain ⟨quote, base, c, nid, Q, best, k'⟩ := r'
  obtain ⟨h1, h2⟩ := ht
  simp only [Ref.mk.injEq] at h1
  obtain ⟨rfl, rfl, -, rfl, rfl, rfl, -⟩ := h1
  have h2 : c.active = conf.active := h2
  have same : ∀ {x : Response}, SameButSplit x x := ⟨rfl, rfl, fun _ => rfl, rfl⟩
  cases op with
  | execute sender funds time msg =>
    cases msg with
    | auth m => exact absurd trivial hop
    | placeLimit tick side q bounty => exact ⟨⟨rfl, h2⟩, same, fun _ => rfl, rfl⟩
    | cancelLimit tick id =>
      simp only [Ref.effect, Ref.userEffect]
      have he : (⟨quote, base, c, nid, Q, best, k'⟩ : Ref).order tick id = (⟨quote, base, conf, nid, Q, best, k⟩ : Ref).order tick id := rfl
      rw [he]
      cases (⟨quote, base, conf, nid, Q, best, k⟩ : Ref).order tick id with
      | none => exact ⟨⟨rfl, h2⟩, same, fun _ => rfl, rfl⟩
      | some p => exact ⟨⟨rfl, h2⟩, same, fun _ => rfl, rfl⟩
    | claimLimit tick id =>
      simp only [Ref.effect, Ref.userEffect]
      have he : (⟨quote, base, c, nid, Q, best, k'⟩ : Ref).order tick id = (⟨quote, base, conf, nid, Q, best, k⟩ : Ref).order tick id := rfl
      rw [he]
      cases ho : (⟨quote, base, conf, nid, Q, best, k⟩ : Ref).order tick id with
      | none => exact ⟨⟨rfl, h2⟩, same, fun _ => rfl, rfl⟩
      | some p =>
        obtain ⟨side, x⟩ := p
        have hx := hm.2 _ _ x (order_entry ho)
        obtain ⟨g1, g2⟩ := split_alike sender x.owner (conf.recipient.getD "") (c.recipient.getD "") (denomOut quote base side) x.bounty conf.fee c.fee
          (payout side (x.filled - x.claimed) tick) hx hm.1 hm'.1
        exact ⟨⟨rfl, h2⟩, ⟨rfl, rfl, g1, g2⟩, fun hn => absurd trivial hn, rfl⟩
    | batchClaim l =>
      obtain ⟨g1, g2, g3, g4, g5⟩ := twin_claims hm (c := c) hm'.1 k' sender l
      simp only [Ref.effect, Ref.userEffect]
      refine ⟨⟨?_, ?_⟩, ⟨rfl, ?_, g2.1, g2.2⟩, fun hn => absurd trivial hn, g5⟩
      · rw [g1]
      · rw [g1, g5]; exact h2
      · simp only [List.map_cons]
        exact congrArg (_ :: ·) g3
  | «sudo» time m =>
    have key : ∀ s : SwapReq, Twin ((⟨quote, base, conf, nid, Q, best, k⟩ : Ref).swapEffect s).1 ((⟨quote, base, c, nid, Q, best, k'⟩ : Ref).swapEffect s).1 ∧
        ((⟨quote, base, conf, nid, Q, best, k⟩ : Ref).swapEffect s).2 = ((⟨quote, base, c, nid, Q, best, k'⟩ : Ref).swapEffect s).2 ∧
        ((⟨quote, base, conf, nid, Q, best, k⟩ : Ref).swapEffect s).1.conf = conf := by
      intro s
      have hl : ∀ d, (⟨quote, base, c, nid, Q, best, k'⟩ : Ref).levels s d = (⟨quote, base, conf, nid, Q, best, k⟩ : Ref).levels s d := fun _ => rfl
      unfold Ref.swapEffect
      rw [hl]
      simp only
      cases matchLevels (s.side base) ((⟨quote, base, conf, nid, Q, best, k⟩ : Ref).levels s (s.side base)) s.tokenIn.amount with
      | none => exact ⟨⟨rfl, h2⟩, rfl, rfl⟩
      | some p => exact ⟨⟨rfl, h2⟩, rfl, rfl⟩
    cases m with
    | swapExactAmountIn sender c' out minOut fee =>
      obtain ⟨a1, a2, a3⟩ := key ⟨sender, c', out, minOut, fee, none⟩
      exact ⟨a1, by simp only [Ref.effect]; rw [a2]; exact same, fun _ => a2, a3⟩
    | swapToTick sender c' out minOut fee target =>
      obtain ⟨a1, a2, a3⟩ := key ⟨sender, c', out, minOut, fee, some target⟩
      exact ⟨a1, by simp only [Ref.effect]; rw [a2]; exact same, fun _ => a2, a3⟩
    | swapExactAmountOut a b c d e => exact ⟨⟨rfl, h2⟩, same, fun _ => rfl, rfl⟩
    | transferAdmin a => exact absurd trivial hop
    | removeAdmin => exact absurd trivial hop
    | setActive x => exact absurd trivial hop
  | migrate => exact absurd trivial hop
  | mint a b => exact absurd trivial hop
  | transfer a b c => exact absurd trivial hop


/-- Twins keep the same marks. -/
theorem twin_marks {r r' : Ref} (ht : Twin r r') (m : Marks) (op : Op) : r'.marksAfter m op = r.marksAfter m op := by
  obtain ⟨quote', base', conf, nid', Q', best', k⟩ := r
  obtain ⟨quote, base, c, nid, Q, best, k'⟩ := r'
  obtain ⟨h1, h2⟩ := ht
  simp only [Ref.mk.injEq] at h1
  obtain ⟨rfl, rfl, -, rfl, rfl, rfl, -⟩ := h1
  have key : ∀ (sender : Addr) (l : List (Int × Nat)) (r : Ref) (m : Marks) (c : Roles) (k : Bank),
      Ref.claimMarks sender { r with conf := c, bank := k } m l = Ref.claimMarks sender r m l := by
    intro sender l
    induction l with
    | nil => intro r m c k; rfl
    | cons key rest ih =>
      intro r m c k
      obtain ⟨tick, id⟩ := key
      have he : ({ r with conf := c, bank := k } : Ref).order tick id = r.order tick id := rfl
      unfold Ref.claimMarks
      rw [he]
      cases r.order tick id with
      | none => exact ih _ _ _ _
      | some p =>
        obtain ⟨side, x⟩ := p
        simp only
        by_cases hl : x.claimed < x.filled
        · rw [if_pos hl, if_pos hl]
          exact ih (r.claim sender tick side x).1 _ c k
        · rw [if_neg hl, if_neg hl]
          exact ih r _ c k
  cases op with
  | execute sender funds time msg =>
    cases msg with
    | batchClaim l => exact key sender l ⟨quote, base, conf, nid, Q, best, k⟩ m c k'
    | _ => rfl
  | _ => rfl

/-- Twins answer every query about the book alike. -/
theorem twin_answer {r r' : Ref} (ht : Twin r r') (m : Marks) (q : QueryMsg) (hq : ¬ OfAdmin q) : r'.answer m q = r.answer m q := by
  obtain ⟨quote', base', conf, nid', Q', best', k⟩ := r
  obtain ⟨quote, base, c, nid, Q, best, k'⟩ := r'
  obtain ⟨h1, h2⟩ := ht
  simp only [Ref.mk.injEq] at h1
  obtain ⟨rfl, rfl, -, rfl, rfl, rfl, -⟩ := h1
  have h2 : c.active = conf.active := h2
  cases q with
  | isActive => simp only [Ref.answer, h2]
  | getMakerFee => exact absurd trivial hq
  | auth a => exact absurd trivial hq
  | _ => rfl

theorem verdict_clear {l : List (Prop × Err)} (h : verdict l = none) : ∀ x ∈ l, x.1 := by
  induction l with
  | nil => simp
  | cons x l ih =>
    obtain ⟨c, e⟩ := x
    unfold verdict at h
    split at h
    · next hc =>
      intro y hy
      rcases List.mem_cons.1 hy with rfl | hy
      · exact hc
      · exact ih h y hy
    · cases h

theorem step_ok_effect {ch : Chain} {r r' : Ref} {op : Op} {resp : Response} (h : r.step ch op = .ok (r', resp)) :
    verdict (r.checks ch op) = none ∧ r' = { (r.effect op).1 with bank := r'.bank } ∧ resp = (r.effect op).2 := by
  unfold Ref.step at h
  split at h
  · cases h
  · next hv =>
    cases h
    exact ⟨hv, rfl, rfl⟩

/-- Accepted operations keep bounties and fee within their limits. -/
theorem modest_step {ch : Chain} {r r' : Ref} (hm : Modest r) {op : Op} {resp : Response} (h : r.step ch op = .ok (r', resp)) : Modest r' := by
  obtain ⟨hv, h1, -⟩ := step_ok_effect h
  have hc : ∀ p ∈ r.checks ch op, p.1 := verdict_clear hv
  rw [h1]
  suffices g : Modest (r.effect op).1 from g
  have hswap : ∀ s : SwapReq, Modest (r.swapEffect s).1 := by
    intro s
    unfold Ref.swapEffect
    cases matchLevels (s.side r.base) (r.levels s (s.side r.base)) s.tokenIn.amount with
    | none => exact hm
    | some p =>
      refine ⟨hm.1, fun t d x hx => ?_⟩
      unfold Ref.trade at hx
      simp only at hx
      split at hx
      · exact hm.fill _ _ _ x hx
      · exact hm.2 _ _ x hx
  cases op with
  | execute sender funds time msg =>
    cases msg with
    | auth m =>
      refine ⟨?_, hm.2⟩
      show (rolesAfter r.conf sender m).fee ≤ _
      cases m with
      | setMakerFee fee => exact hc (Sensible ch.addrValid sender (.setMakerFee fee), badArgument (.setMakerFee fee)) (by simp [Ref.checks, Ref.userChecks])
      | _ => exact hm.1
    | placeLimit tick side q bounty =>
      refine ⟨hm.1, fun t d x hx => ?_⟩
      simp only [Ref.effect, Ref.userEffect, Ref.place, Book.set] at hx
      split at hx
      · rw [List.mem_append, List.mem_singleton] at hx
        rcases hx with hx | rfl
        · exact hm.2 _ _ x hx
        · have := hc (∀ x, bounty = some x → x ≤ 10 ^ 16, .invalidClaimBounty bounty) (by simp [Ref.checks, Ref.userChecks])
          cases bounty with
          | none => exact Nat.zero_le _
          | some ρ => exact this ρ rfl
      · exact hm.2 _ _ x hx
    | cancelLimit tick id =>
      simp only [Ref.effect, Ref.userEffect]
      cases r.order tick id with
      | none => exact hm
      | some p => exact hm.update tick p.1 p.2.id _ fun _ => rfl
    | claimLimit tick id =>
      simp only [Ref.effect, Ref.userEffect]
      cases r.order tick id with
      | none => exact hm
      | some p => exact hm.update tick p.1 p.2.id _ fun _ => rfl
    | batchClaim l => exact (twin_claims hm (c := r.conf) hm.1 r.bank sender l).2.2.2.1
  | «sudo» time m =>
    cases m with
    | swapExactAmountIn sender c out minOut fee => exact hswap _
    | swapToTick sender c out minOut fee target => exact hswap _
    | _ => exact hm
  | _ => exact hm

/-- What happens beside the trades changes the administration and balances only. -/
theorem aside_step {ch : Chain} {r r' : Ref} {op : Op} (ho : Op.Aside op) {resp : Response} (h : r.step ch op = .ok (r', resp)) :
    r' = { r with conf := r'.conf, bank := r'.bank } := by
  obtain ⟨-, h1, -⟩ := step_ok_effect h
  rw [h1]
  cases op with
  | execute sender funds time msg =>
    cases msg with
    | auth m => rfl
    | _ => cases ho
  | «sudo» time m =>
    cases m with
    | transferAdmin a => rfl
    | removeAdmin => rfl
    | setActive x => rfl
    | _ => cases ho
  | _ => rfl

theorem aside_marks {r : Ref} {op : Op} (ho : Op.Aside op) (m : Marks) : r.marksAfter m op = m := by
  cases op with
  | execute sender funds time msg =>
    cases msg with
    | auth m => rfl
    | _ => cases ho
  | _ => rfl

/-- The exchange after one operation. -/
noncomputable def nextRef (ch : Chain) (r : Ref) (op : Op) : Ref :=
  match r.step ch op with
  | .ok (r', _) => r'
  | .error _ => r

/-- The answer to one operation. -/
noncomputable def saidTo (ch : Chain) (r : Ref) (op : Op) : Except Err Response :=
  match r.step ch op with
  | .ok (_, resp) => .ok resp
  | .error e => .error e

/-- The marks after one operation. -/
noncomputable def marked (ch : Chain) (r : Ref) (m : Marks) (op : Op) : Marks :=
  match r.step ch op with
  | .ok _ => r.marksAfter m op
  | .error _ => m

theorem ref_run_cons (ch : Chain) (r : Ref) (op : Op) (ops : List Op) :
    Ref.run ch r (op :: ops) = ((Ref.run ch (nextRef ch r op) ops).1, saidTo ch r op :: (Ref.run ch (nextRef ch r op) ops).2) := by
  rw [Ref.run]; unfold nextRef saidTo
  cases r.step ch op <;> rfl

theorem ref_marks_cons (ch : Chain) (r : Ref) (m : Marks) (op : Op) (ops : List Op) :
    r.runMarks ch m (op :: ops) = (nextRef ch r op).runMarks ch (marked ch r m op) ops := by
  rw [Ref.runMarks]; unfold nextRef marked
  cases r.step ch op <;> rfl

theorem modest_after {ch : Chain} {r : Ref} (hm : Modest r) (op : Op) : Modest (nextRef ch r op) := by
  unfold nextRef
  cases h : r.step ch op with
  | ok x => exact modest_step hm h
  | error e => exact hm

theorem aside_after {ch : Chain} {r : Ref} {op : Op} (ho : Op.Aside op) :
    nextRef ch r op = { r with conf := (nextRef ch r op).conf, bank := (nextRef ch r op).bank } := by
  unfold nextRef
  cases h : r.step ch op with
  | ok x => exact aside_step ho h
  | error e => rfl

theorem aside_marked {ch : Chain} {r : Ref} {op : Op} (ho : Op.Aside op) (m : Marks) : marked ch r m op = m := by
  unfold marked
  cases h : r.step ch op with
  | ok x => exact aside_marks ho m
  | error e => rfl

/-- One trade on twins. -/
theorem twin_step {ch : Chain} {r r' : Ref} (ht : Twin r r') (hm : Modest r) (hm' : Modest r') {op : Op} (hop : ¬ Op.Aside op)
    (hb : saidTo ch r op ≠ .error .bank) (hb' : saidTo ch r' op ≠ .error .bank) :
    Twin (nextRef ch r op) (nextRef ch r' op) ∧ Agree op (saidTo ch r op) (saidTo ch r' op) ∧ ∀ m, marked ch r m op = marked ch r' m op := by
  have g : ∀ r : Ref, saidTo ch r op ≠ .error .bank → verdict (r.checks ch op) ≠ some .bank := by
    intro r hb hv
    refine hb ?_
    unfold saidTo Ref.step
    rw [hv]
  have hv := twin_verdict ht hop (g r hb) (g r' hb')
  obtain ⟨e1, e2, e3, e4⟩ := twin_effect ht hm hm' hop
  unfold nextRef saidTo marked Ref.step
  rw [← hv]
  cases verdict (r.checks ch op) with
  | some e => exact ⟨ht, rfl, fun _ => rfl⟩
  | none =>
    refine ⟨⟨?_, ?_⟩, ⟨e2, e3⟩, fun m => (twin_marks ht m op).symm⟩
    · have := e1.1
      simp only
      rw [this]
    · exact e1.2

theorem twin_run {ch : Chain} {ops ops' : List Op} (hs : SameTrades ops ops') : ∀ {r r' : Ref} (m : Marks), Twin r r' → Modest r → Modest r' →
    (∀ k, (Ref.run ch r (ops.take k)).1.conf.active = (Ref.run ch r' (ops'.take k)).1.conf.active) →
    (∀ (k : Nat) (op : Op), ops[k]? = some op → ¬ Op.Aside op →
      (Ref.run ch r ops).2[k]? ≠ some (Except.error Err.bank) ∧ (Ref.run ch r' ops').2[k]? ≠ some (Except.error Err.bank)) →
    Twin (Ref.run ch r ops).1 (Ref.run ch r' ops').1 ∧ (r.runMarks ch m ops).2 = (r'.runMarks ch m ops').2 ∧
    ∀ (k : Nat) (op : Op) x x', ops[k]? = some op → ¬ Op.Aside op → (Ref.run ch r ops).2[k]? = some x → (Ref.run ch r' ops').2[k]? = some x' → Agree op x x' := by
  unfold SameTrades at hs
  induction hs with
  | nil => exact fun m ht _ _ _ _ => ⟨ht, rfl, fun k op x x' h => by simp at h⟩
  | @cons a b as bs hab hs ih =>
    intro r r' m ht hm hm' hact hpay
    have hact1 : (nextRef ch r' b).conf.active = (nextRef ch r a).conf.active := by
      have := hact 1
      simp only [List.take_succ_cons, List.take_zero, ref_run_cons, Ref.run] at this
      exact this.symm
    have hnext : Twin (nextRef ch r a) (nextRef ch r' b) ∧ marked ch r m a = marked ch r' m b ∧ (¬ Op.Aside a → Agree a (saidTo ch r a) (saidTo ch r' b)) := by
      by_cases ha : Op.Aside a
      · have hb : Op.Aside b := by
          rcases hab with rfl | h
          · exact ha
          · exact h.2
        refine ⟨⟨?_, hact1⟩, by rw [aside_marked ha, aside_marked hb], fun h => absurd ha h⟩
        rw [aside_after (ch := ch) (r := r) ha, aside_after (ch := ch) (r := r') hb, ht.1]
      · have hab' : a = b := by
          rcases hab with rfl | h
          · rfl
          · exact absurd h.1 ha
        subst hab'
        obtain ⟨p1, p2⟩ := hpay 0 a rfl ha
        rw [ref_run_cons] at p1 p2
        simp only [List.getElem?_cons_zero, ne_eq, Option.some.injEq] at p1 p2
        obtain ⟨q1, q2, q3⟩ := twin_step ht hm hm' ha p1 p2
        exact ⟨q1, q3 m, fun _ => q2⟩
    obtain ⟨n1, n2, n3⟩ := hnext
    obtain ⟨i1, i2, i3⟩ := ih (marked ch r m a) n1 (modest_after hm a) (modest_after hm' b)
      (fun k => by
        have := hact (k + 1)
        simpa only [List.take_succ_cons, ref_run_cons] using this)
      (fun k op hk ho => by
        have := hpay (k + 1) op (by simpa using hk) ho
        simpa only [ref_run_cons, List.getElem?_cons_succ] using this)
    refine ⟨by rw [ref_run_cons, ref_run_cons]; exact i1, by rw [ref_marks_cons, ref_marks_cons, ← n2]; exact i2, ?_⟩
    intro k op x x' hk ho hx hx'
    rw [ref_run_cons] at hx hx'
    cases k with
    | zero =>
      simp only [List.getElem?_cons_zero, Option.some.injEq] at hk hx hx'
      subst hk hx hx'
      exact n3 ho
    | succ k =>
      simp only [List.getElem?_cons_succ] at hk hx hx'
      exact i3 k op x x' hk ho hx hx'

/-- C107: two deployments for the same pair, whatever the balances, with the same trades and any administration that keeps the switch in step: as long as
nobody lacks the money to pay, every trade has the same outcome, up to the split of claims between the owner and the fee recipient, and in the end
every query about the book has the same answer. -/
theorem C107_administration {ch : Chain} {w0 w0' : World} (hi : Initial ch w0) (hi' : Initial ch w0') {quote base : Denom}
    (hd : denoms w0.store = .ok (quote, base)) (hd' : denoms w0'.store = .ok (quote, base)) {ops ops' : List Op} (hs : SameTrades ops ops')
    (hn : (run ch w0 ops).HasRoom) (hn' : (run ch w0' ops').HasRoom)
    (hact : ∀ k, isActive (run ch w0 (ops.take k)).store = isActive (run ch w0' (ops'.take k)).store)
    (hpay : ∀ (k : Nat) (op : Op), ops[k]? = some op → ¬ Op.Aside op → (answers ch w0 ops)[k]? ≠ some (Except.error Err.bank) ∧ (answers ch w0' ops')[k]? ≠ some (Except.error Err.bank)) :
    (∀ (k : Nat) op x x', ops[k]? = some op → ¬ Op.Aside op → (answers ch w0 ops)[k]? = some x → (answers ch w0' ops')[k]? = some x' → Agree op x x') ∧
    ∀ q, QueryFits q → ¬ OfAdmin q → answer (run ch w0 ops).store q = answer (run ch w0' ops').store q := by
  have hroom : ∀ {w : World} {l : List Op} (_ : Initial ch w) (_ : (run ch w l).HasRoom) (k : Nat), (run ch w (l.take k)).HasRoom := by
    intro w l hi hn k
    obtain ⟨b, hb⟩ := (Reachable.run ⟨_, (Traced.init hi).reachable⟩ (l.take k)).choose_spec.traced
    refine run_room_back (ops := l.drop k) hb ?_
    rw [← run_append, List.take_append_drop]
    exact hn
  have hconf : ∀ {w : World} {l : List Op} (_ : Initial ch w) (_ : denoms w.store = .ok (quote, base)) (_ : (run ch w l).HasRoom) (k : Nat),
      (Ref.run ch (Ref.fresh quote base w.bank) (l.take k)).1.conf.active = isActive (run ch w (l.take k)).store := by
    intro w l hi hd hn k
    obtain ⟨-, -, h, -⟩ := C67_refines hi hd (l.take k) (hroom hi hn k)
    rw [← h]; rfl
  have hmod : ∀ bank, Modest (Ref.fresh quote base bank) := fun bank => ⟨Nat.zero_le _, fun t d x hx => by cases hx⟩
  obtain ⟨a1, -⟩ := C67_refines hi hd ops hn
  obtain ⟨a1', -⟩ := C67_refines hi' hd' ops' hn'
  obtain ⟨t1, t2, t3⟩ := twin_run (ch := ch) hs (r := Ref.fresh quote base w0.bank) (r' := Ref.fresh quote base w0'.bank) (fun _ _ => ⟨0, 0⟩)
    ⟨rfl, rfl⟩ (hmod _) (hmod _)
    (fun k => by rw [hconf hi hd hn, hconf hi' hd' hn']; exact hact k)
    (fun k op hk ho => by rw [← a1, ← a1']; exact hpay k op hk ho)
  refine ⟨fun k op x x' hk ho hx hx' => t3 k op x x' hk ho (by rw [← a1]; exact hx) (by rw [← a1']; exact hx'), fun q hq ha => ?_⟩
  obtain ⟨b1, b2⟩ := C68_queries hi hd ops hn q hq
  obtain ⟨b1', b2'⟩ := C68_queries hi' hd' ops' hn' q hq
  rw [b2, b2', b1, b1', t2]
  exact (twin_answer t1 _ q ha).symm


/-- Demo: the demo history, with a claim of dave's half-filled order and a 2% maker fee ... -/
def Demo.feed : List Op := Demo.history ++ [Demo.claim "zed" 0 3, Demo.cancel "alice" 0 1]

/-- ... and the same trades without a fee: instead there are a migration and a gift to the contract. -/
def Demo.unfed : List Op := .migrate :: .transfer "alice" "orderbook" ⟨"q", 5⟩ :: Demo.feed.drop 2

/-- C107 on two demo deployments: the trades agree - the last one, somebody else's cancellation, is rejected in both -, but dave gets more and the
recipient nothing where there is no fee, so the claim's responses differ. -/
example : (∀ (k : Nat) (op : Op) x x', Demo.feed[k]? = some op → ¬ Op.Aside op → (answers Demo.ch Demo.w0 Demo.feed)[k]? = some x →
      (answers Demo.ch Demo.w0 Demo.unfed)[k]? = some x' → Agree op x x') ∧
    (∀ q, QueryFits q → ¬ OfAdmin q → answer (run Demo.ch Demo.w0 Demo.feed).store q = answer (run Demo.ch Demo.w0 Demo.unfed).store q) ∧
    (answers Demo.ch Demo.w0 Demo.feed)[10]? ≠ (answers Demo.ch Demo.w0 Demo.unfed)[10]? ∧
    ((answers Demo.ch Demo.w0 Demo.feed)[10]?.map fun x => x.toOption.map fun y => y.msgs.map fun m => (m.to, m.coin.amount)) =
      some (some [("dave", 58200), ("zed", 600), ("fees", 1200)]) ∧
    getMakerFee (run Demo.ch Demo.w0 Demo.feed).store ≠ getMakerFee (run Demo.ch Demo.w0 Demo.unfed).store := by
  have hs : SameTrades Demo.feed Demo.unfed :=
    .cons (.inr ⟨trivial, trivial⟩) <| .cons (.inr ⟨trivial, trivial⟩) <| List.forall₂_same.2 fun _ _ => .inl rfl
  have hact : ∀ k < 13, (isActive (run Demo.ch Demo.w0 (Demo.feed.take k)).store == isActive (run Demo.ch Demo.w0 (Demo.unfed.take k)).store) = true := by
    decide +kernel
  have hpay : ∀ k < 12, (answers Demo.ch Demo.w0 Demo.feed)[k]? ≠ some (Except.error Err.bank) ∧
      (answers Demo.ch Demo.w0 Demo.unfed)[k]? ≠ some (Except.error Err.bank) := by
    decide +kernel
  obtain ⟨h1, h2⟩ := C107_administration (quote := "q") (base := "b") Demo.initial Demo.initial (by decide +kernel) (by decide +kernel) hs
    ((C72_room Demo.initial _).2.1 (by decide +kernel)) ((C72_room Demo.initial _).2.1 (by decide +kernel))
    (fun k => by
      by_cases hk : k < 13
      · exact eq_of_beq (hact k hk)
      · have e1 : Demo.feed.take k = Demo.feed.take 12 := by
          rw [List.take_of_length_le (by show 12 ≤ k; omega), List.take_of_length_le (by show 12 ≤ 12; omega)]
        have e2 : Demo.unfed.take k = Demo.unfed.take 12 := by
          rw [List.take_of_length_le (by show 12 ≤ k; omega), List.take_of_length_le (by show 12 ≤ 12; omega)]
        rw [e1, e2]; exact eq_of_beq (hact 12 (by omega)))
    (fun k op hk _ => hpay k (by
      have := (List.getElem?_eq_some_iff.1 hk).1
      exact this))
  exact ⟨h1, h2, by decide +kernel, by decide +kernel, by decide +kernel⟩

end OB
