import Verif.Props.Sym
/- C80: what lies behind an untouched level does not matter. -/
namespace OB
open Spec
namespace Sym

/-- A level that a match leaves alone ends it: what follows is not looked at. -/
theorem match_prefix {side : Dir} {T : Int} {l : Nat} {A B B' : List (Int × Nat)} {q : Nat} {F : List (Int × Nat)} {left dust : Nat}
    (h : matchLevels side (A ++ (T, l) :: B) q = some (F, left, dust)) (hT : T ∉ F.map Prod.fst) :
    matchLevels side (A ++ (T, l) :: B') q = some (F, left, dust) ∧ ∀ x ∈ F, x.1 ∈ A.map Prod.fst := by
  induction A generalizing q F with
  | nil =>
    simp only [List.nil_append, matchLevels] at h ⊢
    split at h
    · rename_i hz
      rw [if_pos hz]
      simp only [Option.some.injEq, Prod.mk.injEq] at h ⊢
      obtain ⟨rfl, rfl, rfl⟩ := h
      exact ⟨⟨rfl, rfl, rfl⟩, by simp⟩
    · split at h
      · cases h
      · rw [Option.map_eq_some_iff] at h
        obtain ⟨y, -, h2⟩ := h
        simp only [Prod.mk.injEq] at h2
        obtain ⟨rfl, -, -⟩ := h2
        simp at hT
  | cons x A ih =>
    obtain ⟨t, liq⟩ := x
    simp only [List.cons_append, matchLevels] at h ⊢
    split at h
    · rename_i hz
      rw [if_pos hz]
      simp only [Option.some.injEq, Prod.mk.injEq] at h ⊢
      obtain ⟨rfl, rfl, rfl⟩ := h
      exact ⟨⟨rfl, rfl, rfl⟩, by simp⟩
    · rename_i hz
      rw [if_neg hz]
      split at h
      · cases h
      · rename_i hc
        rw [if_neg hc]
        rw [Option.map_eq_some_iff] at h
        obtain ⟨⟨F1, l1, d1⟩, h1, h2⟩ := h
        simp only [Prod.mk.injEq] at h2
        obtain ⟨rfl, rfl, rfl⟩ := h2
        simp only [List.map_cons, List.mem_cons, not_or] at hT
        obtain ⟨i1, i2⟩ := ih h1 hT.2
        rw [i1]
        refine ⟨rfl, ?_⟩
        intro x hx
        rcases List.mem_cons.1 hx with rfl | hx
        · simp
        · exact List.mem_cons_of_mem _ (i2 x hx)

theorem match_pos {side : Dir} {L : List (Int × Nat)} (hL : ∀ x ∈ L, x.2 ≠ 0) {q : Nat} {F : List (Int × Nat)} {left dust : Nat}
    (h : matchLevels side L q = some (F, left, dust)) : ∀ x ∈ F, x.2 ≠ 0 ∧ x.1 ∈ L.map Prod.fst := by
  induction L generalizing q F left dust with
  | nil =>
    simp only [matchLevels, Option.some.injEq, Prod.mk.injEq] at h
    obtain ⟨rfl, -, -⟩ := h
    simp
  | cons x L ih =>
    obtain ⟨t, liq⟩ := x
    have hl := hL _ (List.mem_cons_self ..)
    simp only [matchLevels] at h
    split at h
    · simp only [Option.some.injEq, Prod.mk.injEq] at h
      obtain ⟨rfl, -, -⟩ := h
      simp
    · rename_i hz
      split at h
      · cases h
      · rw [Option.map_eq_some_iff] at h
        obtain ⟨⟨F1, l1, d1⟩, h1, h2⟩ := h
        simp only [Prod.mk.injEq] at h2
        obtain ⟨rfl, -, -⟩ := h2
        intro x hx
        rcases List.mem_cons.1 hx with rfl | hx
        · simp only at hl ⊢
          exact ⟨by omega, by simp⟩
        · obtain ⟨k1, k2⟩ := ih (fun x hx => hL x (List.mem_cons_of_mem _ hx)) h1 x hx
          exact ⟨k1, List.mem_cons_of_mem _ k2⟩

theorem filledAt_zero {F : List (Int × Nat)} {T : Int} (hF : ∀ x ∈ F, x.2 ≠ 0) : filledAt F T = 0 ↔ T ∉ F.map Prod.fst := by
  unfold filledAt
  rw [List.sum_eq_zero_iff]
  constructor
  · intro h hm
    obtain ⟨x, hx, rfl⟩ := List.mem_map.1 hm
    exact hF x hx (h _ (List.mem_map.2 ⟨x, List.mem_filter.2 ⟨hx, by simp⟩, rfl⟩))
  · intro h y hy
    obtain ⟨x, hx, rfl⟩ := List.mem_map.1 hy
    rw [List.mem_filter] at hx
    exact absurd (List.mem_map.2 ⟨x, hx.1, of_decide_eq_true hx.2⟩) h

theorem better_trans {side : Dir} {a b c : Int} (h1 : Better side a b) (h2 : ¬ Better side c b) : Better side a c := by
  cases side <;> simp only [Better] at * <;> omega

/-- Levels of two stores that agree down to `T`: the same up to `T`, if `T` is among them, and else the same. -/
theorem levels_split {r : SwapReq} {s s' : Store} {side : Dir} {T : Int} (hd : ∀ t, ¬ Better side T t → tickLiquidity s t side = tickLiquidity s' t side)
    (hT : tickLiquidity s T side ≠ 0) {L L' : List (Int × Nat)} (h : r.Levels s side L) (h' : r.Levels s' side L') :
    (L = L' ∧ ∀ x ∈ L, ¬ Better side T x.1) ∨ ∃ A B B', L = A ++ (T, tickLiquidity s T side) :: B ∧ L' = A ++ (T, tickLiquidity s T side) :: B' ∧
      ∀ x ∈ A, Better side x.1 T := by
  have hTT : ¬ Better side T T := by cases side <;> simp [Better]
  have hirr : ∀ a b : Int × Nat, Better side a.1 b.1 → Better side b.1 a.1 → False := fun a b h1 h2 => by
    cases side <;> simp only [Better] at h1 h2 <;> omega
  have : Std.Irrefl (fun a b : Int × Nat => Better side a.1 b.1) := ⟨fun a h1 => hirr a a h1 h1⟩
  have : Std.Antisymm (fun a b : Int × Nat => Better side a.1 b.1) := ⟨fun a b h1 h2 => (hirr a b h1 h2).elim⟩
  by_cases hw : r.within side T
  · right
    obtain ⟨A, B, e⟩ := List.append_of_mem ((h.2 T _).2 ⟨rfl, hT, hw⟩)
    obtain ⟨A', B', e'⟩ := List.append_of_mem ((h'.2 T (tickLiquidity s T side)).2 ⟨hd T hTT, hT, hw⟩)
    have g := h.1
    have g' := h'.1
    rw [e, List.pairwise_append] at g
    rw [e', List.pairwise_append] at g'
    have hA : ∀ x ∈ A, Better side x.1 T := fun x hx => g.2.2 x hx _ (List.mem_cons_self ..)
    have hA' : ∀ x ∈ A', Better side x.1 T := fun x hx => g'.2.2 x hx _ (List.mem_cons_self ..)
    have key : ∀ {s s' : Store} {L L' A A' B B' : List (Int × Nat)} {l l' : Nat}, r.Levels s side L → r.Levels s' side L' →
        L = A ++ (T, l) :: B → L' = A' ++ (T, l') :: B' → L.Pairwise (fun x y => Better side x.1 y.1) →
        L'.Pairwise (fun x y => Better side x.1 y.1) →
        (∀ t, ¬ Better side T t → tickLiquidity s t side = tickLiquidity s' t side) → ∀ x, x ∈ A → x ∈ A' := by
      intro s s' L L' A A' B B' l l' h h' e e' p p' hd x hx
      have hb : Better side x.1 T := by
        rw [e, List.pairwise_append] at p
        exact p.2.2 x hx _ (List.mem_cons_self ..)
      have hm : x ∈ L := by rw [e]; exact List.mem_append_left _ hx
      obtain ⟨m1, m2, m3⟩ := (h.2 x.1 x.2).1 hm
      have hnb : ¬ Better side T x.1 := fun hh => hirr _ (T, 0) hb hh
      have hm' : x ∈ L' := (h'.2 x.1 x.2).2 ⟨by rw [← hd _ hnb]; exact m1, m2, m3⟩
      rw [e'] at hm' p'
      rw [List.pairwise_append, List.pairwise_cons] at p'
      rcases List.mem_append.1 hm' with hm' | hm'
      · exact hm'
      · rcases List.mem_cons.1 hm' with rfl | hm'
        · exact absurd hb hTT
        · exact absurd (p'.2.1.1 x hm') hnb
    have hAA : A = A' := List.Pairwise.eq_of_mem_iff g.1 g'.1 fun x =>
      ⟨key h h' e e' h.1 h'.1 hd x, key h' h e' e h'.1 h.1 (fun t ht => (hd t ht).symm) x⟩
    subst hAA
    exact ⟨A, B, B', e, e', hA⟩
  · left
    have hnb : ∀ t, r.within side t → ¬ Better side T t := by
      intro t hwt hb
      refine hw fun target htg hbt => ?_
      exact hwt target htg (by cases side <;> simp only [Better] at * <;> omega)
    refine ⟨List.Pairwise.eq_of_mem_iff h.1 h'.1 fun ⟨t, x⟩ => ?_, fun x hx => hnb _ ((h.2 x.1 x.2).1 hx).2.2⟩
    rw [h.2, h'.2]
    constructor
    · rintro ⟨a, b, c⟩; exact ⟨by rw [← hd t (hnb t c)]; exact a, b, c⟩
    · rintro ⟨a, b, c⟩; exact ⟨by rw [hd t (hnb t c)]; exact a, b, c⟩

theorem verdict_none {l : List (Prop × Err)} : verdict l = none ↔ ∀ x ∈ l, x.1 := by
  induction l with
  | nil => simp [verdict]
  | cons x l ih =>
    obtain ⟨c, e⟩ := x
    unfold verdict
    by_cases h : c
    · rw [if_pos h, ih]; simp [h]
    · rw [if_neg h]; simp [h]

end Sym
open Sym

/-- C80: the price levels behind one that a swap leaves alone have no influence on it. Take a swap that is accepted and does not touch the
level `T`, which has liquidity, and any other book that agrees with the first on `T` and all better prices. There the same swap is accepted,
too, with the same response, it takes the same from every level, and whatever lies behind `T` is left alone in both. -/
theorem C80_local {ch : Chain} {w0 w0' : World} (hi : Initial ch w0) (hi' : Initial ch w0') {ops ops' : List Op}
    (hn : ops.length < 10 ^ 16) (hn' : ops'.length < 10 ^ 16) {w w' : World} (hw : w = run ch w0 ops) (hw' : w' = run ch w0' ops')
    {quote base : Denom} (hd : denoms w.store = .ok (quote, base)) {r : SwapReq} {side : Dir} (hp : r.pair quote base side) {T : Int}
    (hs : SameUpTo side T r.sender w w') (hT : tickLiquidity w.store T side ≠ 0) {time time' : Nat} {w1 : World} {resp : Response}
    (hok : step ch w (r.op time) = .ok (w1, resp)) (hkeep : tickLiquidity w1.store T side = tickLiquidity w.store T side) :
    ∃ w1', step ch w' (r.op time') = .ok (w1', resp) ∧
      (∀ t, ¬ Better side T t → tickLiquidity w1'.store t side = tickLiquidity w1.store t side) ∧
      ∀ t, Better side T t → tickLiquidity w1.store t side = tickLiquidity w.store t side ∧
        tickLiquidity w1'.store t side = tickLiquidity w'.store t side := by
  have hr := (C72_room hi ops).2.1 hn
  have hr' := (C72_room hi' ops').2.1 hn'
  obtain ⟨-, b, h, -⟩ := ref_run (Traced.init hi) hr
  obtain ⟨-, b', h', -⟩ := ref_run (Traced.init hi') hr'
  rw [← hw] at hr h
  rw [← hw'] at hr' h'
  obtain ⟨ob, hob, hptr⟩ := h.rel.ptr
  obtain ⟨ob', hob', -⟩ := h'.rel.ptr
  have hbk := hs.book
  rw [answer_orderbookState hob, answer_orderbookState hob'] at hbk
  simp only [Option.some.injEq, Answer.book.injEq] at hbk
  subst hbk
  have hd' := denoms_of hob
  rw [hd] at hd'
  simp only [Except.ok.injEq, Prod.mk.injEq] at hd'
  obtain ⟨rfl, rfl⟩ := hd'
  have hside : r.side ob.baseDenom = side := by
    unfold SwapReq.side
    cases side with
    | bid => exact if_pos hp.1
    | ask => exact if_neg fun hh => hptr.denoms (hp.1.symm.trans hh)
  -- the first book
  have hc : ∀ (R : Ref) (t : Nat), R.checks ch (r.op t) = R.swapChecks ch r := by
    intro R t
    obtain ⟨a, c, o, m, fee, target⟩ := r
    cases target <;> rfl
  have he : ∀ (R : Ref) (t : Nat), R.effect (r.op t) = R.swapEffect r := by
    intro R t
    obtain ⟨a, c, o, m, fee, target⟩ := r
    cases target <;> rfl
  have e1 := C67_step h hr (r.op time)
  rw [hok] at e1
  simp only at e1
  unfold Ref.step at e1
  rw [hc, he] at e1
  cases hv : verdict ((refOf w b).swapChecks ch r) with
  | some e => rw [hv] at e1; cases e1
  | none =>
    rw [hv] at e1
    simp only [Except.ok.injEq, Prod.mk.injEq] at e1
    obtain ⟨e1, e2⟩ := e1
    have hbase : (refOf w b).base = ob.baseDenom := (refOf_denoms (b := b) hob).2
    have hbase' : (refOf w' b').base = ob.baseDenom := (refOf_denoms (b := b') hob').2
    have hquote : (refOf w b).quote = ob.quoteDenom := (refOf_denoms (b := b) hob).1
    have hquote' : (refOf w' b').quote = ob.quoteDenom := (refOf_denoms (b := b') hob').1
    have hbest : (refOf w' b').best = (refOf w b).best := by simp [refS, hob, hob']
    have hact : (refOf w' b').conf.active = (refOf w b).conf.active := hs.active.symm
    have hown : Owns (refOf w' b').bank r.sender [r.tokenIn] = Owns (refOf w b).bank r.sender [r.tokenIn] := by
      unfold Owns
      simp only [refS, hs.balance]
    have hvn := verdict_none.1 hv
    have hmerr : matchError side ((refOf w b).levels r side) r.tokenIn.amount = none := by
      have := hvn (matchError ((r.side (refOf w b).base)) ((refOf w b).levels r (r.side (refOf w b).base)) r.tokenIn.amount = none,
        (matchError (r.side (refOf w b).base) ((refOf w b).levels r (r.side (refOf w b).base)) r.tokenIn.amount).getD .std) (by
          unfold Ref.swapChecks; simp)
      rw [hbase, hside] at this
      exact this
    obtain ⟨⟨F, left, dust⟩, hm⟩ := matchError_none.1 hmerr
    have hlv := ref_levels h r side
    have hlv' := ref_levels h' r side
    have hpos : ∀ x ∈ (refOf w b).levels r side, x.2 ≠ 0 := fun x hx => ((hlv.2 x.1 x.2).1 hx).2.1
    have hFpos := fun x hx => (match_pos hpos hm x hx).1
    have hst : step ch w (r.op time) = .ok (w1, resp) := hok
    have htr1 := Traced.ok h hok
    -- liquidity after a trade
    have after : ∀ {n : Nat} {w : World} {b : Book} {R1 : Ref}, Traced ch n w b → R1 = ((refOf w b).trade r side F left).1 →
        ∀ t, openTotal (R1.queues t side) = tickLiquidity w.store t side - filledAt F t := by
      intro n w b R1 h hR t
      obtain ⟨_, _, hs, -, -⟩ := h.rel.sides t side
      rw [hR]
      simp only [Ref.trade, if_true]
      rw [(C26_tick_liquidity h t side).2]
      exact openTotal_fill hs.ok
    have heff : (refOf w b).swapEffect r = (refOf w b).trade r side F left := by
      unfold Ref.swapEffect
      rw [hbase, hside, hm]
    have hliq1 : ∀ t, tickLiquidity w1.store t side = tickLiquidity w.store t side - filledAt F t := by
      intro t
      rw [(C26_tick_liquidity htr1 t side).2, ← after h rfl t, ← heff]
      have := congrArg (fun R : Ref => openTotal (R.queues t side)) e1
      exact this.symm
    have hTF : T ∉ F.map Prod.fst := by
      rw [← filledAt_zero hFpos]
      have := hliq1 T
      rw [hkeep] at this
      by_contra hh
      omega
    have hmF : matchLevels side ((refOf w' b').levels r side) r.tokenIn.amount = some (F, left, dust) ∧
        ∀ x ∈ F, ¬ Better side T x.1 := by
      rcases levels_split hs.depth hT hlv hlv' with hE | ⟨A, B, B', g1, g2, g3⟩
      · refine ⟨by rw [← hE.1]; exact hm, fun x hx => ?_⟩
        obtain ⟨y, hy, hxy⟩ := List.mem_map.1 (match_pos hpos hm x hx).2
        rw [← hxy]
        exact hE.2 y hy
      · rw [g1] at hm
        obtain ⟨k1, k2⟩ := match_prefix (B' := B') hm hTF
        rw [g2]
        refine ⟨k1, fun x hx => ?_⟩
        obtain ⟨y, hy, hxy⟩ := List.mem_map.1 (k2 x hx)
        have := g3 y hy
        rw [hxy] at this
        cases side <;> simp only [Better] at * <;> omega
    obtain ⟨hm', hFT⟩ := hmF
    have hv' : verdict ((refOf w' b').swapChecks ch r) = none := by
      have hme' : matchError side ((refOf w' b').levels r side) r.tokenIn.amount = none := matchError_none.2 ⟨_, hm'⟩
      unfold Ref.swapChecks at hv ⊢
      simp only [hbase, hbase', hquote, hquote', hside, hbest, hact, hown, hm, hm', hmerr, hme'] at hv ⊢
      exact hv
    have e1' := C67_step h' hr' (r.op time')
    unfold Ref.step at e1'
    rw [hc, he, hv'] at e1'
    have heff' : (refOf w' b').swapEffect r = (refOf w' b').trade r side F left := by
      unfold Ref.swapEffect
      rw [hbase', hside, hm']
    rw [heff'] at e1'
    rw [heff] at e2
    cases hs2 : step ch w' (r.op time') with
    | error e => rw [hs2] at e1'; cases e1'
    | ok y =>
      obtain ⟨w1', resp'⟩ := y
      rw [hs2] at e1'
      simp only [Except.ok.injEq, Prod.mk.injEq] at e1'
      obtain ⟨k1, k2⟩ := e1'
      have htr1' := Traced.ok h' hs2
      have hliq1' : ∀ t, tickLiquidity w1'.store t side = tickLiquidity w'.store t side - filledAt F t := by
        intro t
        rw [(C26_tick_liquidity htr1' t side).2, ← after h' rfl t]
        have := congrArg (fun R : Ref => openTotal (R.queues t side)) k1
        exact this.symm
      have hresp : resp' = resp := by rw [← k2, ← e2]; rfl
      subst hresp
      refine ⟨w1', rfl, fun t ht => ?_, fun t ht => ?_⟩
      · rw [hliq1, hliq1', hs.depth t ht]
      · have hz : filledAt F t = 0 := by
          rw [filledAt_zero hFpos]
          intro hmem
          obtain ⟨x, hx, rfl⟩ := List.mem_map.1 hmem
          exact hFT x hx ht
        rw [hliq1, hliq1', hz]
        exact ⟨rfl, rfl⟩

namespace Demo

theorem absent {s : Store} {t : Int} {ks : List Int} (hk : s.ticks.map Prod.fst = ks) (ht : t ∉ ks) (d : Dir) : tickLiquidity s t d = 0 := by
  have : SMap.get? s.ticks t = none := by
    generalize s.ticks = m at hk
    subst hk
    induction m with
    | nil => rfl
    | cons x m ih =>
      obtain ⟨k, v⟩ := x
      simp only [List.map_cons, List.mem_cons, not_or] at ht
      simp only [SMap.get?]
      rw [if_neg (by first | exact ht.1 | exact fun h => ht.1 h.symm)]
      exact ih ht.2
  unfold tickLiquidity
  rw [this]
  cases d <;> decide +kernel

/-- Two bids, and the same two with a larger one far below. -/
theorem upTo : let ops := [place "alice" 10 .bid 100 none, place "bob" 0 .bid 50 none]
    let ops' := [place "carol" 10 .bid 100 none, place "dave" (-5000000) .bid 7000 (some 5), place "bob" 0 .bid 50 none]
    SameUpTo .bid 0 "frank" (run ch w0 ops) (run ch w0 ops') := by
  intro ops ops'
  refine ⟨by decide +kernel, by decide +kernel, fun t ht => ?_, fun d => ?_⟩
  · by_cases h0 : t = 0
    · subst h0; decide +kernel
    · by_cases h1 : t = 10
      · subst h1; decide +kernel
      · have h2 : t ≠ -5000000 := by
          rintro rfl
          exact ht (by simp [Better])
        rw [absent (s := (run ch w0 ops).store) (t := t) (ks := [0, 10]) (by decide +kernel) (by simp [h0, h1]),
          absent (s := (run ch w0 ops').store) (t := t) (ks := [-5000000, 0, 10]) (by decide +kernel) (by simp [h0, h1, h2])]
  · exact (idle (by decide +kernel) ops _ (by decide +kernel) (by decide +kernel) d).trans
      (idle (by decide +kernel) ops' _ (by decide +kernel) (by decide +kernel) d).symm

end Demo

/-- A sale that stays within the level at 10: accepted in both books, and the level at 0 and what is behind it do not matter. -/
example : let w := run Demo.ch Demo.w0 [Demo.place "alice" 10 .bid 100 none, Demo.place "bob" 0 .bid 50 none]
    let w' := run Demo.ch Demo.w0 [Demo.place "carol" 10 .bid 100 none, Demo.place "dave" (-5000000) .bid 7000 (some 5), Demo.place "bob" 0 .bid 50 none]
    let r : SwapReq := ⟨"frank", ⟨"b", 60⟩, "q", 1, 0, none⟩
    ∃ w1 resp w1', step Demo.ch w (r.op 3) = .ok (w1, resp) ∧ step Demo.ch w' (r.op 8) = .ok (w1', resp) ∧ resp.data = some 60 ∧
      tickLiquidity w1.store (-5000000) .bid = 0 ∧ tickLiquidity w1'.store (-5000000) .bid = 7000 := by
  intro w w' r
  obtain ⟨x, hx⟩ : ∃ x, step Demo.ch w (r.op 3) = .ok x := by
    have h : (match step Demo.ch w (r.op 3) with | .ok _ => true | .error _ => false) = true := by decide +kernel
    cases hs : step Demo.ch w (r.op 3) with
    | ok x => exact ⟨x, rfl⟩
    | error e => rw [hs] at h; cases h
  have k1 : (match step Demo.ch w (r.op 3) with | .ok x => decide (x.2.data = some 60 ∧ tickLiquidity x.1.store 0 .bid = 50) | .error _ => false) = true := by
    decide +kernel
  rw [hx] at k1
  replace k1 := of_decide_eq_true k1
  obtain ⟨w1', h1, -, h3⟩ := C80_local Demo.initial Demo.initial (by decide +kernel) (by decide +kernel) (w := w) (w' := w') rfl rfl
    (quote := "q") (base := "b") (by decide +kernel) (r := r) (side := .bid) ⟨rfl, rfl⟩ Demo.upTo (T := 0) (by decide +kernel) (time := 3) (time' := 8)
    (w1 := x.1) (resp := x.2) hx (k1.2.trans (by decide +kernel))
  obtain ⟨g1, g2⟩ := h3 (-5000000) (by simp [Better])
  exact ⟨x.1, x.2, w1', hx, h1, k1.1, g1.trans (by decide +kernel), g2.trans (by decide +kernel)⟩

end OB
