import Verif.SpecScan
import Verif.Proofs.CostStep
import Verif.Proofs.SwapObs
/- Which price levels a swap looks at. -/
namespace OB
open Spec

/-! ### The loop -/

theorem loop_agree {s s' : Store} {dir : Dir} {A : List Int} (h : ∀ t ∈ A, s'.ticks.get? t = s.ticks.get? t) (st : LoopSt) :
    marketLoop s' dir A st = marketLoop s dir A st := by
  induction A generalizing st with
  | nil => rfl
  | cons t A ih =>
    have ih := fun st => ih (fun x hx => h x (List.mem_cons_of_mem _ hx)) st
    unfold marketLoop
    rw [h t (List.mem_cons_self ..)]
    simp only [ih]

theorem loop_updates {s : Store} {dir : Dir} {A : List Int} {st st' : LoopSt} (h : marketLoop s dir A st = .ok st') :
    ∀ x ∈ st.tickUpdates, x ∈ st'.tickUpdates := by
  induction A generalizing st with
  | nil =>
    simp only [marketLoop, Except.ok.injEq] at h
    subst h
    exact fun x hx => hx
  | cons t A ih =>
    unfold marketLoop at h
    split at h
    · cases h
    · simp only at h
      split at h
      · exact ih h
      · simp only [Except.bind_eq_ok'] at h
        obtain ⟨p, -, o, -, h⟩ := h
        split at h
        · simp only [pure, Except.pure, Except.ok.injEq] at h
          subst h
          exact fun x hx => hx
        · simp only [Except.bind_eq_ok'] at h
          obtain ⟨_, -, _, -, _, -, _, -, _, -, h⟩ := h
          split at h
          · cases h
          · simp only [Except.bind_eq_ok'] at h
            obtain ⟨_, -, _, -, _, -, h⟩ := h
            intro x hx
            exact ih h x (List.mem_append_left _ hx)

/-- A level with liquidity that the loop leaves alone ends it. -/
theorem loop_cut {s s' : Store} {dir : Dir} {A R R' : List Int} {M : Int} {st st' : LoopSt}
    (hok : marketLoop s dir (A ++ M :: R) st = .ok st') (hA : ∀ t ∈ A, s'.ticks.get? t = s.ticks.get? t) (hM : s'.ticks.get? M = s.ticks.get? M)
    (hl : (tv s M dir.opposite).tal ≠ 0) (hu : M ∉ st'.tickUpdates.map Prod.fst) : marketLoop s' dir (A ++ M :: R') st = .ok st' := by
  induction A generalizing st with
  | nil =>
    simp only [List.nil_append] at hok ⊢
    unfold marketLoop at hok ⊢
    rw [hM]
    cases hg : s.ticks.get? M with
    | none => rw [hg] at hok; cases hok
    | some cur =>
      rw [hg] at hok
      rw [tv_of_get hg] at hl
      simp only at hok ⊢
      rw [if_neg hl] at hok ⊢
      cases hp : tickToPrice M with
      | error e => rw [hp] at hok; cases hok
      | ok p =>
        rw [hp] at hok
        simp only [Except.ok_bind'] at hok ⊢
        cases ho : amountToValue dir st.quantity p .down with
        | error e => rw [ho] at hok; cases hok
        | ok o =>
          rw [ho] at hok
          simp only [Except.ok_bind'] at hok ⊢
          by_cases hz : o = 0
          · rw [if_pos hz] at hok ⊢
            exact hok
          · exfalso
            rw [if_neg hz] at hok
            simp only [Except.bind_eq_ok'] at hok
            obtain ⟨_, -, _, -, _, -, _, -, _, -, hok⟩ := hok
            split at hok
            · cases hok
            · simp only [Except.bind_eq_ok'] at hok
              obtain ⟨_, -, _, -, _, -, hok⟩ := hok
              exact hu (List.mem_map.2 ⟨_, loop_updates hok _ (List.mem_append_right _ (List.mem_singleton.2 rfl)), rfl⟩)
  | cons t A ih =>
    have ih := fun st => @ih st
    replace ih := fun st h => ih st h (fun x hx => hA x (List.mem_cons_of_mem _ hx))
    simp only [List.cons_append] at hok ⊢
    unfold marketLoop at hok ⊢
    rw [hA t (List.mem_cons_self ..)]
    cases hg : s.ticks.get? t with
    | none => rw [hg] at hok; cases hok
    | some cur =>
      rw [hg] at hok
      simp only at hok ⊢
      split at hok
      · rename_i h0
        rw [if_pos h0]
        exact ih _ hok
      · rename_i h0
        rw [if_neg h0]
        simp only [Except.bind_eq_ok'] at hok ⊢
        obtain ⟨p, g1, o, g2, hok⟩ := hok
        refine ⟨p, g1, o, g2, ?_⟩
        split at hok
        · rename_i h1
          rw [if_pos h1]
          exact hok
        · rename_i h1
          rw [if_neg h1]
          simp only [Except.bind_eq_ok'] at hok ⊢
          obtain ⟨a1, b1, a2, b2, a3, b3, a4, b4, a5, b5, hok⟩ := hok
          refine ⟨a1, b1, a2, b2, a3, b3, a4, b4, a5, b5, ?_⟩
          split at hok
          · cases hok
          · rename_i h2
            rw [if_neg h2]
            simp only [Except.bind_eq_ok'] at hok ⊢
            obtain ⟨a6, b6, a7, b7, a8, b8, hok⟩ := hok
            exact ⟨a6, b6, a7, b7, a8, b8, ih _ hok⟩

/-- The updates are in the order of the list. -/
theorem loop_keys {s : Store} {dir : Dir} {A : List Int} {st st' : LoopSt} (h : marketLoop s dir A st = .ok st') :
    ∃ l, st'.tickUpdates = st.tickUpdates ++ l ∧ (l.map Prod.fst).Sublist A := by
  induction A generalizing st with
  | nil =>
    simp only [marketLoop, Except.ok.injEq] at h
    subst h
    exact ⟨[], by simp, List.Sublist.slnil⟩
  | cons t A ih =>
    unfold marketLoop at h
    split at h
    · cases h
    · simp only at h
      split at h
      · obtain ⟨l, h1, h2⟩ := ih h
        exact ⟨l, h1, h2.cons _⟩
      · simp only [Except.bind_eq_ok'] at h
        obtain ⟨p, -, o, -, h⟩ := h
        split at h
        · simp only [pure, Except.pure, Except.ok.injEq] at h
          subst h
          exact ⟨[], by simp, List.nil_sublist _⟩
        · simp only [Except.bind_eq_ok'] at h
          obtain ⟨_, -, _, -, _, -, _, -, _, -, h⟩ := h
          split at h
          · cases h
          · simp only [Except.bind_eq_ok'] at h
            obtain ⟨_, -, _, -, _, -, h⟩ := h
            obtain ⟨l, h1, h2⟩ := ih h
            refine ⟨_ :: l, by rw [h1]; simp only [List.append_assoc, List.singleton_append]; rfl, ?_⟩
            simp only [List.map_cons]
            exact h2.cons_cons _

/-- A level with liquidity, placed before a level that is filled, is filled as well. -/
theorem loop_hits {s s2 : Store} {b : Book} (hrel : Rel s b) {dir : Dir} {A R R' : List Int} {t f : Int} {st st' st2 : LoopSt} {cur : TickState}
    (hq : st.quantity < U128) (hok : marketLoop s dir (A ++ R) st = .ok st') (hok2 : marketLoop s2 dir (A ++ t :: R') st = .ok st2)
    (hA : ∀ x ∈ A, s2.ticks.get? x = s.ticks.get? x) (hAr : ∀ x ∈ A, MIN_TICK ≤ x ∧ x ≤ MAX_TICK) (hR : ∀ x ∈ R, (MIN_TICK ≤ x ∧ x ≤ MAX_TICK) ∧ ¬ WorseThan dir x t)
    (ht : MIN_TICK ≤ t ∧ t ≤ MAX_TICK) (hcur : s2.ticks.get? t = some cur) (hl : (cur.getValues dir.opposite).tal ≠ 0)
    (hf : f ∈ st'.tickUpdates.map Prod.fst) (hfn : f ∉ st.tickUpdates.map Prod.fst) (hfA : f ∉ A) :
    ∃ cur', (t, cur') ∈ st2.tickUpdates ∧ (cur'.getValues dir.opposite).tal < (cur.getValues dir.opposite).tal := by
  induction A generalizing st with
  | nil =>
    simp only [List.nil_append] at hok hok2
    obtain ⟨F, q', dust, lp, hs, he⟩ := marketLoop_spec hrel (fun x hx => (hR x hx).1) hq hok
    have hne : F ≠ [] := by
      rintro rfl
      rw [he] at hf
      simp only [List.map_nil, List.append_nil] at hf
      exact hfn hf
    have hv : valDown dir st.quantity (priceNat t) ≠ 0 := by
      intro hz
      refine hne (hs.nothing fun x hx => ?_)
      obtain ⟨h1, h2⟩ := hR x hx
      rcases Int.lt_trichotomy t x with hlt | rfl | hlt
      · cases dir
        · exact worseThan_price (q := 0) (dir := .bid) hlt ht h1 hz
        · exact absurd hlt h2
      · exact hz
      · cases dir
        · exact absurd hlt h2
        · exact worseThan_price (q := 0) (dir := .ask) hlt ht h1 hz
    unfold marketLoop at hok2
    rw [hcur] at hok2
    simp only at hok2
    rw [if_neg hl, tickToPrice_ok ht.1 ht.2] at hok2
    simp only [Except.ok_bind'] at hok2
    rw [amountToValue_spec ht.1 ht.2 hq] at hok2
    simp only [Except.ok_bind', valR] at hok2
    rw [if_neg hv] at hok2
    simp only [Except.bind_eq_ok'] at hok2
    obtain ⟨a1, b1, a2, b2, a3, b3, a4, b4, a5, b5, hok2⟩ := hok2
    split at hok2
    · cases hok2
    · simp only [Except.bind_eq_ok'] at hok2
      obtain ⟨a6, b6, a7, b7, a8, b8, hok2⟩ := hok2
      refine ⟨_, loop_updates hok2 _ (List.mem_append_right _ (List.mem_singleton.2 rfl)), ?_⟩
      rw [getValues_setValues_self]
      obtain ⟨-, -, c1⟩ := fromRatio_eq_ok.1 b1
      obtain ⟨c2, c3⟩ := checkedSub_eq_ok.1 b2
      rw [Nat.div_one] at c1
      have hD := D_pos
      have h0 : a1 ≠ 0 := by rw [c1]; exact Nat.mul_ne_zero hv hD.ne'
      show a2 < (cur.getValues dir.opposite).tal
      rw [c3]
      split at c2 <;> rename_i hc <;> simp only [hc, if_true, if_false] at c2 ⊢ <;> omega
  | cons x A ih =>
    have ih := fun st hq h1 h2 hfn => @ih st hq h1 h2 (fun y hy => hA y (List.mem_cons_of_mem _ hy)) (fun y hy => hAr y (List.mem_cons_of_mem _ hy)) hfn
      (fun hm => hfA (List.mem_cons_of_mem _ hm))
    simp only [List.cons_append] at hok hok2
    unfold marketLoop at hok hok2
    rw [hA x (List.mem_cons_self ..)] at hok2
    cases hg : s.ticks.get? x with
    | none => rw [hg] at hok; cases hok
    | some cx =>
      rw [hg] at hok hok2
      simp only at hok hok2
      split at hok
      · rename_i h0
        rw [if_pos h0] at hok2
        exact ih _ hq hok hok2 hfn
      · rename_i h0
        rw [if_neg h0] at hok2
        simp only [Except.bind_eq_ok'] at hok hok2
        obtain ⟨p, g1, o, g2, hok⟩ := hok
        obtain ⟨p', g1', o', g2', hok2⟩ := hok2
        obtain rfl : p' = p := Except.ok.inj (g1'.symm.trans g1)
        obtain rfl : o' = o := Except.ok.inj (g2'.symm.trans g2)
        split at hok
        · rename_i h1
          simp only [pure, Except.pure, Except.ok.injEq] at hok
          subst hok
          exact absurd hf hfn
        · rename_i h1
          rw [if_neg h1] at hok2
          simp only [Except.bind_eq_ok'] at hok hok2
          obtain ⟨a1, b1, a2, b2, a3, b3, a4, b4, a5, b5, hok⟩ := hok
          obtain ⟨a1', b1', a2', b2', a3', b3', a4', b4', a5', b5', hok2⟩ := hok2
          obtain rfl : a1' = a1 := Except.ok.inj (b1'.symm.trans b1)
          obtain rfl : a2' = a2 := Except.ok.inj (b2'.symm.trans b2)
          obtain rfl : a3' = a3 := Except.ok.inj (b3'.symm.trans b3)
          obtain rfl : a4' = a4 := Except.ok.inj (b4'.symm.trans b4)
          obtain rfl : a5' = a5 := Except.ok.inj (b5'.symm.trans b5)
          split at hok
          · cases hok
          · rename_i h2
            rw [if_neg h2] at hok2
            simp only [Except.bind_eq_ok'] at hok hok2
            obtain ⟨a6, b6, a7, b7, a8, b8, hok⟩ := hok
            obtain ⟨a6', b6', a7', b7', a8', b8', hok2⟩ := hok2
            obtain rfl : a6' = a6 := Except.ok.inj (b6'.symm.trans b6)
            obtain rfl : a7' = a7 := Except.ok.inj (b7'.symm.trans b7)
            obtain rfl : a8' = a8 := Except.ok.inj (b8'.symm.trans b8)
            refine ih _ ?_ hok hok2 ?_
            · have := checkedSub_eq_ok.1 b7
              simp only
              omega
            · simp only [List.map_append, List.mem_append, List.map_cons, List.map_nil, List.mem_singleton, not_or]
              exact ⟨hfn, fun e => hfA (by rw [e]; exact List.mem_cons_self ..)⟩

/-! ### The market order -/

theorem internal_congr {s s' : Store} {o : MarketOrder} {bound : Int} {ob : Orderbook} (hob : s.orderbook = some ob) (hob' : s'.orderbook = some ob)
    (hl : marketLoop s' o.dir (sweepTicks s' ob o.dir bound) ⟨o.quantity, ob, 0, [], D⟩ =
      marketLoop s o.dir (sweepTicks s ob o.dir bound) ⟨o.quantity, ob, 0, [], D⟩) :
    runMarketOrderInternal s' o bound = runMarketOrderInternal s o bound := by
  unfold runMarketOrderInternal
  split
  · rfl
  simp only [hob, hob']
  split
  · rfl
  obtain ⟨q, dir, owner⟩ := o
  cases dir <;> simp only [sweepTicks] at hl ⊢ <;> split
  · simp only [Except.ok_bind', hl]
  · rfl
  · simp only [Except.ok_bind', hl]
  · rfl

theorem internal_loop {s : Store} {o : MarketOrder} {bound : Int} {ob : Orderbook} (hob : s.orderbook = some ob) {post : PostMarketOrder}
    (hok : runMarketOrderInternal s o bound = .ok post) :
    ∃ st, marketLoop s o.dir (sweepTicks s ob o.dir bound) ⟨o.quantity, ob, 0, [], D⟩ = .ok st ∧ post.tickUpdates = st.tickUpdates := by
  unfold runMarketOrderInternal at hok
  split at hok
  · cases hok
  simp only [hob] at hok
  split at hok
  · cases hok
  obtain ⟨q, dir, owner⟩ := o
  cases dir <;> simp only [sweepTicks] at hok ⊢ <;> split at hok
  · simp only [Except.ok_bind', Except.bind_eq_ok'] at hok
    obtain ⟨st, h1, _, -, h2⟩ := hok
    split at h2
    · cases h2; exact ⟨st, h1, rfl⟩
    · cases h2
  · cases hok
  · simp only [Except.ok_bind', Except.bind_eq_ok'] at hok
    obtain ⟨st, h1, _, -, h2⟩ := hok
    split at h2
    · cases h2; exact ⟨st, h1, rfl⟩
    · cases h2
  · cases hok

/-- What an accepted swap does to the levels, in any store. -/
theorem dispatch_raw {env : Env} {s s' : Store} {ob : Orderbook} (hob : s.orderbook = some ob) {sender : Addr} {tokenIn : Coin} {out : Denom}
    {min fee : Nat} {target : Option Int} {resp : Response}
    (hok : dispatchSwapExactAmountIn env sender tokenIn out min fee target s = .ok resp s') :
    ∃ dir post, ob.directionFromPair tokenIn.denom out = .ok dir ∧
      runMarketOrderInternal s ⟨tokenIn.amount, dir, sender⟩ (target.getD (defaultBound dir)) = .ok post ∧
      s'.ticks = insertAll s.ticks post.tickUpdates := by
  unfold dispatchSwapExactAmountIn at hok
  rw [EM.bind_eq_ok] at hok
  obtain ⟨u, s1, h1, hok⟩ := hok
  rw [EM.lift_eq_ok] at h1
  obtain ⟨-, rfl⟩ := h1
  rw [EM.bind_eq_ok] at hok
  obtain ⟨u2, s2, h2, hok⟩ := hok
  rw [EM.ensure_eq_ok] at h2
  obtain ⟨-, rfl⟩ := h2
  rw [EM.bind_ok_of (loadOrderbook_some hob)] at hok
  rw [EM.bind_eq_ok] at hok
  obtain ⟨dir, s3, h3, hok⟩ := hok
  rw [EM.lift_eq_ok] at h3
  obtain ⟨h3, rfl⟩ := h3
  rw [EM.bind_eq_ok] at hok
  obtain ⟨u4, s4, h4, hok⟩ := hok
  rw [EM.ensure_eq_ok] at h4
  obtain ⟨-, rfl⟩ := h4
  rw [EM.bind_eq_ok] at hok
  obtain ⟨⟨out', q2⟩, s5, h5, hok⟩ := hok
  simp only at hok
  unfold runMarketOrder at h5
  rw [EM.get_bind, EM.bind_eq_ok] at h5
  obtain ⟨post, s6, h6, h5⟩ := h5
  rw [EM.lift_eq_ok] at h6
  obtain ⟨h6, rfl⟩ := h6
  refine ⟨dir, post, h3, h6, ?_⟩
  rw [EM.bind_ok_of (saveTicks_ok _ _), EM.bind_eq_ok] at h5
  obtain ⟨outDec, s7, h7, h5⟩ := h5
  rw [EM.lift_eq_ok] at h7
  obtain ⟨-, rfl⟩ := h7
  rw [EM.bind_eq_ok] at h5
  obtain ⟨u8, s8, h8, h5⟩ := h5
  unfold subtractDirectionalLiquidity saveDirLiq at h8
  unfold saveOrderbook at h5
  simp only [EM.get_bind, EM.bind_eq_ok, EM.lift_eq_ok, EM.modify_eq_ok, EM.pure_eq_ok] at h8 h5 hok
  obtain ⟨_, _, ⟨-, rfl⟩, rfl⟩ := h8
  obtain ⟨_, _, rfl, -, rfl⟩ := h5
  obtain ⟨_, _, ⟨-, rfl⟩, -, e⟩ := hok
  rw [e]

/-- A sorted list of levels, split at a place. -/
theorem sorted_before {dir : Dir} {l : List Int} (hl : l.Pairwise (WorseThan dir)) (t : Int) :
    ∃ A R, l = A ++ R ∧ (∀ x ∈ A, WorseThan dir x t) ∧ ∀ x ∈ R, ¬ WorseThan dir x t := by
  induction l with
  | nil => exact ⟨[], [], rfl, by simp, by simp⟩
  | cons x l ih =>
    rw [List.pairwise_cons] at hl
    by_cases hx : WorseThan dir x t
    · obtain ⟨A, R, rfl, h2, h3⟩ := ih hl.2
      refine ⟨x :: A, R, rfl, fun y hy => ?_, h3⟩
      rcases List.mem_cons.1 hy with rfl | hy
      · exact hx
      · exact h2 y hy
    · refine ⟨[], x :: l, rfl, by simp, fun y hy => ?_⟩
      rcases List.mem_cons.1 hy with rfl | hy
      · exact hx
      · have := hl.1 y hy
        revert this hx
        cases dir <;> simp only [WorseThan] <;> omega

/-- Two sorted lists of levels that contain `M` and agree on what is better. -/
theorem sorted_split {dir : Dir} {l l' : List Int} (hl : l.Pairwise (WorseThan dir)) (hl' : l'.Pairwise (WorseThan dir)) {M : Int} (hM : M ∈ l)
    (hM' : M ∈ l') (h : ∀ t, WorseThan dir t M → (t ∈ l ↔ t ∈ l')) :
    ∃ A R R', l = A ++ M :: R ∧ l' = A ++ M :: R' ∧ ∀ t ∈ A, WorseThan dir t M := by
  have asym : ∀ a b, WorseThan dir a b → WorseThan dir b a → False := by
    intro a b; cases dir <;> simp only [WorseThan] <;> omega
  have : Std.Irrefl (WorseThan dir) := ⟨fun a h1 => asym a a h1 h1⟩
  have : Std.Antisymm (WorseThan dir) := ⟨fun a b h1 h2 => (asym a b h1 h2).elim⟩
  obtain ⟨A, R, rfl⟩ := List.append_of_mem hM
  obtain ⟨A', R', rfl⟩ := List.append_of_mem hM'
  have g := hl
  have g' := hl'
  rw [List.pairwise_append, List.pairwise_cons] at g g'
  have hA : ∀ t ∈ A, WorseThan dir t M := fun t ht => g.2.2 t ht M (List.mem_cons_self ..)
  have hA' : ∀ t ∈ A', WorseThan dir t M := fun t ht => g'.2.2 t ht M (List.mem_cons_self ..)
  have key : ∀ {A R : List Int}, (∀ a ∈ R, WorseThan dir M a) → ∀ t, WorseThan dir t M → (t ∈ A ++ M :: R ↔ t ∈ A) := by
    intro A R hR t ht
    constructor
    · intro hm
      rcases List.mem_append.1 hm with hm | hm
      · exact hm
      · rcases List.mem_cons.1 hm with rfl | hm
        · exact (asym _ _ ht ht).elim
        · exact (asym _ _ ht (hR t hm)).elim
    · exact fun hm => List.mem_append_left _ hm
  have e : A = A' := List.Pairwise.eq_of_mem_iff g.1 g'.1 fun t => by
    constructor
    · intro ht
      exact (key g'.2.1.1 t (hA t ht)).1 ((h t (hA t ht)).1 (List.mem_append_left _ ht))
    · intro ht
      exact (key g.2.1.1 t (hA' t ht)).1 ((h t (hA' t ht)).2 (List.mem_append_left _ ht))
  subst e
  exact ⟨A, R, R', rfl, rfl, hA⟩

/-! ### Computations -/

/-- A computation that succeeds without writing. -/
theorem UsesP.reads {S : Cell → Prop} {α β : Type} {x : M α} {f : α → M β} {s : Store} {a : α} (h0 : x s = .ok a s)
    (h1 : ∀ s', (∀ c, S c → sview s' c = sview s c) → x s' = .ok a s') (hf : UsesP S (f a) s) : UsesP S (x >>= f) s := by
  intro s' hp ha
  rw [EM.bind_ok_of h0, EM.bind_ok_of (h1 s' ha)]
  exact hf s' hp ha

theorem UsesP.readOn {S : Cell → Prop} {α β : Type} {g : Store → Except Err α} {f : α → M β} {s : Store} {a : α} (h0 : g s = .ok a)
    (h1 : ∀ s', Proper s' → (∀ c, S c → sview s' c = sview s c) → g s' = .ok a) (hf : UsesOn sview S (f a) s) :
    UsesP S (EM.get >>= fun s => EM.lift (g s) >>= f) s := by
  intro s' hp ha
  rw [EM.get_bind, EM.get_bind, h0, h1 s' hp ha]
  exact hf s' ha

theorem UsesP.bindOn {S : Cell → Prop} {α β : Type} {x : M α} {f : α → M β} {s : Store} (hx : UsesP S x s)
    (hf : ∀ a t, x s = .ok a t → UsesOn sview S (f a) t) : UsesP S (x >>= f) s := by
  intro s' hp ha
  have h1 := hx s' hp ha
  rw [EM.bind_apply, EM.bind_apply]
  cases e : x s with
  | err er t =>
    rw [e] at h1
    cases e' : x s' with
    | ok a' t' => rw [e'] at h1; exact h1.elim
    | err er' t' => rw [e'] at h1; exact h1
  | ok a t =>
    rw [e] at h1
    cases e' : x s' with
    | err er' t' => rw [e'] at h1; exact h1.elim
    | ok a' t' =>
      rw [e'] at h1
      obtain ⟨rfl, h1, h2⟩ := h1
      have h3 := hf a' t e t' h1
      simp only
      revert h3
      have tr : ∀ u u', After sview S t t' u u' → After sview S s s' u u' := fun u u' h => ⟨h.1, fun c hc => by
        obtain ⟨a1, a2⟩ := h.2 c hc
        obtain ⟨b1, b2⟩ := h2 c hc
        exact ⟨a1.trans b1, a2.trans b2⟩⟩
      cases f a' t <;> cases f a' t' <;> simp only [Matches]
      · exact fun h => ⟨h.1, tr _ _ h.2⟩
      · exact id
      · exact id
      · exact fun h => ⟨h.1, tr _ _ h.2⟩

theorem saveTicks_on {S : Cell → Prop} (l : List (Int × TickState)) (h : ∀ x ∈ l, S (.tick x.1)) (s : Store) : UsesOn sview S (saveTicks l) s := by
  induction l generalizing s with
  | nil => exact .pure _ _
  | cons x l ih =>
    obtain ⟨t, ts⟩ := x
    unfold saveTicks
    refine .bind ((saveTick_on (S0 := [.tick t]) t ts (by simp)).mono fun c hc => ?_) fun _ t' _ => ih (fun x hx => h x (List.mem_cons_of_mem _ hx)) t'
    rw [List.mem_singleton] at hc
    subst hc
    exact h (t, ts) (List.mem_cons_self ..)

end OB
