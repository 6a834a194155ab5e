import Verif.Proofs.Sudo
import Verif.Proofs.Cancel
/- Classification of the successful operations of a related store. -/
namespace OB

/-- A successful claim of one order. -/
inductive ClaimStep (sender : Addr) (tick : Int) (id : Nat) :
    Store → Book → Nat × List SendMsg × LimitOrder → Store → Book → Prop
  | mk {s s1 b dir p q x ob rc} : b tick dir = p ++ x :: q → x.Live → x.id = id → s.orderbook = some ob →
      s.makerFeeRecipient = some rc → Synced s s1 b tick → x.claimed < x.filled →
      ClaimStep sender tick id s b
        (ownerAmount x.bounty (getMakerFee s) (valDown dir (x.filled - x.claimed) (priceNat tick)),
          claimMsgs sender x.owner rc (ob.oppositeDenom dir) x.bounty (getMakerFee s)
            (valDown dir (x.filled - x.claimed) (priceNat tick)),
          orderOf tick dir (sumBy Entry.placed p) { x with claimed := x.filled })
        (claimedStore s1 tick (orderOf tick dir (sumBy Entry.placed p) { x with claimed := x.filled }))
        (b.set tick dir (p ++ { x with claimed := x.filled } :: q))

theorem ClaimStep.rel {sender : Addr} {tick : Int} {id : Nat} {s s' : Store} {b b' : Book} {r : Nat × List SendMsg × LimitOrder}
    (h : ClaimStep sender tick id s b r s' b') : Rel s' b' := by
  obtain ⟨h1, h2, h3, h4, h5, h6, h7⟩ := h
  exact h6.rel.claimed h1 h2

/-- A failed claim: nothing to claim, and only a sync happened. -/
structure ClaimFail (s s' : Store) (b : Book) (tick : Int) (id : Nat) : Prop where
  kind : (s' = s ∧ ∀ dir x, x ∈ b tick dir → x.id = id → ¬ x.Live) ∨
    (Synced s s' b tick ∧ ∃ dir x, x ∈ b tick dir ∧ x.Live ∧ x.id = id)
  none : ∀ dir x, x ∈ b tick dir → x.Live → x.id = id → x.filled = x.claimed

theorem ClaimFail.store {s s' : Store} {b : Book} {tick : Int} {id : Nat} (h : ClaimFail s s' b tick id) : s' = s ∨ Synced s s' b tick :=
  h.kind.imp And.left And.left

theorem ClaimFail.rel {s s' : Store} {b : Book} {tick : Int} {id : Nat} (h : ClaimFail s s' b tick id) (hr : Rel s b) : Rel s' b := by
  rcases h.store with rfl | h
  · exact hr
  · exact h.rel

theorem Rel.recipient {s : Store} {b : Book} (h : Rel s b) : ∃ rc, s.makerFeeRecipient = some rc :=
  Option.ne_none_iff_exists'.1 h.conf.recipient

/-- Looking an order up. -/
theorem Rel.lookup {s : Store} {b : Book} (h : Rel s b) (tick : Int) (id : Nat) :
    (s.orders.get? (tick, id) = none ∧ ∀ dir x, x ∈ b tick dir → x.id = id → ¬ x.Live) ∨
    ∃ dir p x q, b tick dir = p ++ x :: q ∧ x.Live ∧ x.id = id ∧
      s.orders.get? (tick, id) = some (orderOf tick dir (sumBy Entry.placed p) x) := by
  cases hg : s.orders.get? (tick, id) with
  | none =>
    left
    refine ⟨rfl, ?_⟩
    intro dir x hx hid hl
    obtain ⟨p, q, hsp⟩ := List.append_of_mem hx
    have := (h.orders tick id _).2 ⟨dir, p, x, q, hsp, hl, hid, rfl⟩
    rw [hg] at this
    simp at this
  | some o =>
    right
    obtain ⟨dir, p, x, q, h1, h2, h3, h4⟩ := (h.orders tick id o).1 hg
    exact ⟨dir, p, x, q, h1, h2, h3, by rw [h4]⟩

theorem Rel.same_entry {s : Store} {b : Book} (h : Rel s b) {tick tick' : Int} {dir dir' : Dir} {p q : List Entry} {x y : Entry}
    (hsp : b tick dir = p ++ x :: q) (hy : y ∈ b tick' dir') (hid : y.id = x.id) : tick' = tick ∧ dir' = dir ∧ y = x := by
  have hx : x ∈ b tick dir := by rw [hsp]; simp
  obtain ⟨rfl, rfl⟩ := h.ids.disj _ _ _ _ _ _ hy hx hid
  obtain ⟨p1, q1, hsp1⟩ := List.append_of_mem hy
  exact ⟨rfl, rfl, (entry_unique (h.ids.inc tick' dir') hsp hsp1 hid).2.1⟩

theorem claimOrder_cases {s : Store} {b : Book} (h : Rel s b) (sender : Addr) (tick : Int) (id : Nat) :
    (¬ s.trees.cnt tick + 2 < U64 ∧ ∃ s', claimOrder sender tick id s = .err .panic s') ∨
    (∃ e s', claimOrder sender tick id s = .err e s' ∧ e ≠ .panic ∧ e ≠ .diverge ∧ ClaimFail s s' b tick id) ∨
    (∃ r s' b', claimOrder sender tick id s = .ok r s' ∧ ClaimStep sender tick id s b r s' b') := by
  obtain ⟨ob, hob, -⟩ := h.ptr
  obtain ⟨rc, hrc⟩ := h.recipient
  rcases h.lookup tick id with ⟨h1, h2⟩ | ⟨dir, p, x, q, h1, h2, rfl, h4⟩
  · right; left
    have hfail : ClaimFail s s b tick id := ⟨Or.inl ⟨rfl, h2⟩, fun dir x hx hl hid => absurd hl (h2 dir x hx hid)⟩
    rcases claimOrder_none h (sender := sender) h1 with h3 | h3
    · exact ⟨_, s, h3, by simp, by simp, hfail⟩
    · exact ⟨_, s, h3, by simp, by simp, hfail⟩
  · rcases claimOrder_some h sender h1 h2 hob hrc with h5 | ⟨s1, h5, ⟨h6, h7⟩ | ⟨h6, h7⟩⟩
    · exact Or.inl h5
    · right; left
      refine ⟨_, s1, h7, by simp, by simp, Or.inr ⟨h5, dir, x, by rw [h1]; simp, h2, rfl⟩, ?_⟩
      intro dir' y hy hl hid
      obtain ⟨-, -, rfl⟩ := h.same_entry h1 hy hid
      exact h6
    · right; right
      exact ⟨_, _, _, h7, .mk h1 h2 rfl hob hrc h5 h6⟩

/-- What a claim's event tells the bookkeeper. -/
theorem ClaimStep.note {sender : Addr} {tick : Int} {id : Nat} {s s' : Store} {b b' : Book} {r : Nat × List SendMsg × LimitOrder}
    (h : ClaimStep sender tick id s b r s' b') (hr : Rel s b) (op : Op) (s1 s2 : Store) (d1 d2 : Denom) :
    Book.note op s1 s2 b (claimedEvent sender r.2.2 r.1 d1 d2) = b' := by
  obtain ⟨h1, h2, h3, h4, h5, h6, h7⟩ := h
  rename_i dir p q x ob rc
  simp only [claimedEvent, Book.note, orderOf]
  have hinc := hr.ids.inc tick dir
  rw [h1, updQ_split (by rw [← h1]; exact hinc)]

/-- A run of claims; failing ones are skipped. -/
inductive ClaimRun (sender : Addr) (ob : Orderbook) :
    List (Int × Nat) → Store → Book → List SendMsg → List Event → Store → Book → Prop
  | nil {s b} : ClaimRun sender ob [] s b [] [] s b
  | ok {tick id rest s b r s1 b1 ms es s' b'} : claimOrder sender tick id s = .ok r s1 → ClaimStep sender tick id s b r s1 b1 →
      ClaimRun sender ob rest s1 b1 ms es s' b' →
      ClaimRun sender ob ((tick, id) :: rest) s b (r.2.1 ++ ms)
        (claimedEvent sender r.2.2 r.1 (ob.expectedDenom r.2.2.dir) (ob.oppositeDenom r.2.2.dir) :: es) s' b'
  | skip {tick id rest s b e s1 ms es s' b'} : claimOrder sender tick id s = .err e s1 → ClaimFail s s1 b tick id →
      ClaimRun sender ob rest s1 b ms es s' b' → ClaimRun sender ob ((tick, id) :: rest) s b ms es s' b'

theorem ClaimRun.rel {sender : Addr} {ob : Orderbook} {l : List (Int × Nat)} {s s' : Store} {b b' : Book} {ms : List SendMsg}
    {es : List Event} (h : ClaimRun sender ob l s b ms es s' b') (hr : Rel s b) : Rel s' b' := by
  induction h with
  | nil => exact hr
  | ok _ h _ ih => exact ih h.rel
  | skip _ h _ ih => exact ih (h.rel hr)

theorem ClaimRun.note {sender : Addr} {ob : Orderbook} {l : List (Int × Nat)} {s s' : Store} {b b' : Book} {ms : List SendMsg}
    {es : List Event} (h : ClaimRun sender ob l s b ms es s' b') (hr : Rel s b) (op : Op) (s1 s2 : Store) :
    es.foldl (Book.note op s1 s2) b = b' := by
  induction h with
  | nil => rfl
  | ok _ h _ ih => rw [List.foldl_cons, h.note hr]; exact ih h.rel
  | skip _ h _ ih => exact ih (h.rel hr)

theorem batchLoop_ok {sender : Addr} {ob : Orderbook} {l : List (Int × Nat)} {s s' : Store} {b : Book} {ms : List SendMsg}
    {es : List Event} (hr : Rel s b) (hok : batchLoop sender ob l s = .ok (ms, es) s') :
    ∃ b', ClaimRun sender ob l s b ms es s' b' := by
  induction l generalizing s b ms es with
  | nil =>
    unfold batchLoop at hok
    rw [EM.pure_eq_ok] at hok
    simp only [Prod.mk.injEq] at hok
    obtain ⟨⟨rfl, rfl⟩, rfl⟩ := hok
    exact ⟨b, .nil⟩
  | cons k l ih =>
    obtain ⟨tick, id⟩ := k
    unfold batchLoop at hok
    rcases claimOrder_cases hr sender tick id with ⟨-, s1, h1⟩ | ⟨e, s1, h1, h2, h3, h4⟩ | ⟨⟨a, m, o⟩, s1, b1, h1, h2⟩
    · simp [h1] at hok
    · have : batchLoop sender ob l s1 = .ok (ms, es) s' := by
        simp only [h1] at hok
        cases e <;> first | exact absurd rfl h2 | exact absurd rfl h3 | exact hok
      obtain ⟨b', hb⟩ := ih (h4.rel hr) this
      exact ⟨b', .skip h1 h4 hb⟩
    · simp only [h1] at hok
      rw [EM.bind_eq_ok] at hok
      obtain ⟨⟨ms1, es1⟩, s2, h3, h4⟩ := hok
      rw [EM.pure_eq_ok] at h4
      simp only [Prod.mk.injEq] at h4
      obtain ⟨⟨rfl, rfl⟩, rfl⟩ := h4
      obtain ⟨b', hb⟩ := ih h2.rel h3
      exact ⟨b', .ok h1 h2 hb⟩

/-- The store changed at most in its configuration. -/
structure ConfigOnly (s s' : Store) : Prop where
  orderId : s'.orderId = s.orderId
  orderbook : s'.orderbook = s.orderbook
  ticks : s'.ticks = s.ticks
  dirLiq : s'.dirLiq = s.dirLiq
  orders : s'.orders = s.orders
  trees : s'.trees = s.trees

theorem Rel.config {s s' : Store} {b : Book} (h : Rel s b) (hc : ConfigOnly s s') (hcf : ConfOk s') : Rel s' b := by
  obtain ⟨c1, c2, c3, c4, c5, c6⟩ := hc
  have htv : ∀ t d, tv s' t d = tv s t d := fun t d => tv_congr (by rw [c3]) d
  have hl : ∀ d, getDirectionalLiquidity s' d = getDirectionalLiquidity s d := by
    intro d; unfold getDirectionalLiquidity; rw [c4]
  have hst : ∀ d, sumTal s' d = sumTal s d := by intro d; unfold sumTal; rw [c3]
  refine ⟨?_, by rw [c6]; exact h.fresh, by rw [c3]; exact h.known, by rw [c3]; exact h.ticksSorted, by rw [c5]; exact h.ordersSorted,
    ?_, ⟨h.ids.inc, by rw [c1]; exact h.ids.lt, h.ids.disj⟩, h.range, h.bounty, ?_, ?_, hcf, by rw [c2]; exact h.ptr⟩
  · intro t d
    obtain ⟨r, rt, a1, a2, a3⟩ := h.sides t d
    exact ⟨r, rt, by rw [htv]; exact a1, by rw [c6]; exact a2, a3⟩
  · intro t id o; rw [c5]; exact h.orders t id o
  · intro d; rw [hl, hst]; exact h.liq d
  · intro d; rw [hl]; exact h.liqLt d

end OB
