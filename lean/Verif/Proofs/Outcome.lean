import Verif.Proofs.Liquidity
/- Outcomes of claims; how entries of the queues evolve. -/
namespace OB

/-- The response of a transaction, if it succeeds. -/
def respOf (ch : Chain) (w : World) (op : Op) : Option Response :=
  match step ch w op with
  | .ok (_, resp) => some resp
  | .error _ => none

theorem respOf_eq_some {ch : Chain} {w : World} {op : Op} {resp : Response} :
    respOf ch w op = some resp ↔ ∃ w', step ch w op = .ok (w', resp) := by
  unfold respOf
  split
  · rename_i w' r h; rw [h]; simp
  · rename_i e h; rw [h]; simp

theorem respOf_eq_none {ch : Chain} {w : World} {op : Op} : respOf ch w op = none ↔ ∃ e, step ch w op = .error e := by
  unfold respOf
  split
  · rename_i w' r h; rw [h]; simp
  · rename_i e h; rw [h]; simp

theorem respOf_of_not {ch : Chain} {w : World} {op : Op} (h : ∀ w' resp, step ch w op ≠ .ok (w', resp)) : respOf ch w op = none := by
  cases hr : respOf ch w op with
  | none => rfl
  | some r =>
    obtain ⟨w', hw'⟩ := respOf_eq_some.1 hr
    exact absurd hw' (h w' r)

/-! ### Senders -/

theorem step_sender {ch : Chain} {w w' : World} {sender : Addr} {funds : List Coin} {time : Nat} {msg : ExecuteMsg} {resp : Response}
    (h : step ch w (.execute sender funds time msg) = .ok (w', resp)) : sender ≠ ch.contract := by
  intro hc
  simp only [step, if_pos hc] at h
  simp at h

theorem swap_sender {ch : Chain} {w w' : World} {time : Nat} {msg : SudoMsg} {resp : Response} {a : Addr × Coin × Denom × Nat × Nat × Option Int}
    (h : step ch w (.sudo time msg) = .ok (w', resp)) (ha : msg.swapArgs = some a) : a.1 ≠ ch.contract := by
  have hd : msg.deposit = some (a.1, a.2.1) := by
    cases msg <;> simp [SudoMsg.swapArgs] at ha <;> subst ha <;> rfl
  simp only [step, hd] at h
  split at h
  · simp at h
  · split at h
    · simp at h
    · assumption

theorem updQ_mem {id : Nat} {g : Entry → Entry} {q : List Entry} {y : Entry} (hy : y ∈ updQ id g q) :
    ∃ x ∈ q, y = x ∨ (x.id = id ∧ y = g x) := by
  unfold updQ at hy
  rw [List.mem_map] at hy
  obtain ⟨x, hx, rfl⟩ := hy
  refine ⟨x, hx, ?_⟩
  split
  · exact Or.inr ⟨‹_›, rfl⟩
  · exact Or.inl rfl

/-! ### Evolution of entries -/

/-- What can happen to an order over time. -/
structure Entry.Evolves (x x' : Entry) : Prop where
  id : x'.id = x.id
  owner : x'.owner = x.owner
  bounty : x'.bounty = x.bounty
  placedAt : x'.placedAt = x.placedAt
  placed : x'.placed = x.placed
  filled : x.filled ≤ x'.filled
  claimed : x.claimed ≤ x'.claimed
  dead : x.cancelled = true → x' = x
  done : x.claimed = x.placed → x' = x

theorem Entry.Evolves.refl (x : Entry) : x.Evolves x :=
  ⟨rfl, rfl, rfl, rfl, rfl, le_refl _, le_refl _, fun _ => rfl, fun _ => rfl⟩

theorem Entry.Evolves.trans {x y z : Entry} (h : x.Evolves y) (g : y.Evolves z) : x.Evolves z :=
  ⟨g.id.trans h.id, g.owner.trans h.owner, g.bounty.trans h.bounty, g.placedAt.trans h.placedAt, g.placed.trans h.placed,
    le_trans h.filled g.filled, le_trans h.claimed g.claimed,
    fun hd => by have e := h.dead hd; subst e; exact g.dead hd,
    fun hd => by have e := h.done hd; subst e; exact g.done hd⟩

/-- Queues only grow at the end; new entries get ids not used before (`≥ k`). -/
def QueueGrows (k : Nat) (q q' : List Entry) : Prop :=
  ∃ l new, q' = l ++ new ∧ List.Forall₂ Entry.Evolves q l ∧ ∀ x ∈ new, k ≤ x.id

def BookGrows (k : Nat) (b b' : Book) : Prop := ∀ t d, QueueGrows k (b t d) (b' t d)

theorem forall₂_refl (q : List Entry) : List.Forall₂ Entry.Evolves q q := by
  induction q with
  | nil => exact .nil
  | cons x q ih => exact .cons (.refl x) ih

theorem QueueGrows.refl (k : Nat) (q : List Entry) : QueueGrows k q q := ⟨q, [], by simp, forall₂_refl q, by simp⟩

theorem forall₂_trans {p q r : List Entry} (h : List.Forall₂ Entry.Evolves p q) (g : List.Forall₂ Entry.Evolves q r) :
    List.Forall₂ Entry.Evolves p r := by
  induction h generalizing r with
  | nil => exact g
  | cons h _ ih => cases g with | cons g1 g2 => exact .cons (h.trans g1) (ih g2)

theorem QueueGrows.trans {k k' : Nat} {p q r : List Entry} (h : QueueGrows k p q) (hk : k ≤ k') (g : QueueGrows k' q r) : QueueGrows k p r := by
  obtain ⟨l, new, rfl, h1, h2⟩ := h
  obtain ⟨l', new', rfl, g1, g2⟩ := g
  obtain ⟨l1, l2, e, a1, a2⟩ : ∃ l1 l2, l' = l1 ++ l2 ∧ List.Forall₂ Entry.Evolves l l1 ∧ List.Forall₂ Entry.Evolves new l2 := by
    clear h1
    induction l generalizing l' with
    | nil => exact ⟨[], l', rfl, .nil, g1⟩
    | cons x l ih =>
      cases g1 with
      | cons g1 g3 =>
        obtain ⟨l1, l2, rfl, a1, a2⟩ := ih _ g3
        exact ⟨_ :: l1, l2, rfl, .cons g1 a1, a2⟩
  subst e
  refine ⟨l1, l2 ++ new', by simp, forall₂_trans h1 a1, ?_⟩
  intro x hx
  rcases List.mem_append.1 hx with hx | hx
  · clear a1 g1 h1
    induction a2 with
    | nil => simp at hx
    | cons h _ ih =>
      rcases List.mem_cons.1 hx with rfl | hx
      · rw [h.id]; exact h2 _ (by simp)
      · exact ih (fun x hx => h2 x (by simp [hx])) (by simp [hx]) hx
  · exact le_trans hk (g2 x hx)

theorem QueueGrows.mem {k : Nat} {q q' : List Entry} (h : QueueGrows k q q') {x : Entry} (hx : x ∈ q) : ∃ x' ∈ q', x.Evolves x' := by
  obtain ⟨l, new, rfl, h1, -⟩ := h
  induction h1 with
  | nil => simp at hx
  | @cons a b l1 l2 h _ ih =>
    rcases List.mem_cons.1 hx with rfl | hx
    · exact ⟨b, by simp, h⟩
    · obtain ⟨x', h1, h2⟩ := ih hx
      exact ⟨x', by simp at h1 ⊢; tauto, h2⟩

theorem QueueGrows.mem_new {k : Nat} {q q' : List Entry} (h : QueueGrows k q q') {x' : Entry} (hx : x' ∈ q') :
    (∃ x ∈ q, x.Evolves x') ∨ k ≤ x'.id := by
  obtain ⟨l, new, rfl, h1, h2⟩ := h
  rcases List.mem_append.1 hx with hx | hx
  · left
    clear h2
    induction h1 with
    | nil => simp at hx
    | @cons a b l1 l2 h _ ih =>
      rcases List.mem_cons.1 hx with rfl | hx
      · exact ⟨a, by simp, h⟩
      · obtain ⟨x, g1, g2⟩ := ih (by simp [hx]) hx
        exact ⟨x, by simp [g1], g2⟩
  · exact Or.inr (h2 _ hx)

theorem BookGrows.refl (k : Nat) (b : Book) : BookGrows k b b := fun _ _ => .refl _ _

theorem set_grows {b : Book} {tick : Int} {dir : Dir} {p q : List Entry} {x x' : Entry} (h1 : b tick dir = p ++ x :: q)
    (hx : x.Evolves x') (k : Nat) : BookGrows k b (b.set tick dir (p ++ x' :: q)) := by
  intro t d
  by_cases he : t = tick ∧ d = dir
  · obtain ⟨rfl, rfl⟩ := he
    rw [Book.set_same, h1]
    refine ⟨_, [], (List.append_nil _).symm, ?_, by simp⟩
    induction p with
    | nil => exact .cons hx (forall₂_refl q)
    | cons y p ih => exact .cons (.refl y) (by
        have : List.Forall₂ Entry.Evolves (p ++ x :: q) (p ++ x' :: q) := by
          clear ih h1
          induction p with
          | nil => exact .cons hx (forall₂_refl q)
          | cons z p ih => exact .cons (.refl z) ih
        exact this)
  · rw [Book.set_ne b _ (by tauto)]; exact .refl _ _

theorem fillQ_evolves {f : Nat} {q : List Entry} (hok : ∀ x ∈ q, EntryOk x) : List.Forall₂ Entry.Evolves q (fillQ f q) := by
  induction q generalizing f with
  | nil => exact .nil
  | cons x q ih =>
    refine .cons ?_ (ih (fun y hy => hok y (by simp [hy])))
    refine ⟨rfl, rfl, rfl, rfl, rfl, Nat.le_add_right _ _, le_refl _, ?_, ?_⟩
    · intro hc
      have : x.left = 0 := by simp [Entry.left, hc]
      simp [this]
    · intro hc
      have h1 := hok x (by simp)
      have h2 := h1.claimed_le; have h3 := h1.filled_le
      have : x.left = 0 := by unfold Entry.left; split <;> omega
      simp [this]

theorem ClaimStep.grows {sender : Addr} {tick : Int} {id : Nat} {s s' : Store} {b b' : Book} {r : Nat × List SendMsg × LimitOrder}
    (h : ClaimStep sender tick id s b r s' b') (k : Nat) : BookGrows k b b' := by
  obtain ⟨h1, h2, h3, h4, h5, h6, h7⟩ := h
  rename_i x ob rc
  refine set_grows (x' := { x with claimed := x.filled }) h1 ⟨rfl, rfl, rfl, rfl, rfl, le_refl _, le_of_lt h7, ?_, ?_⟩ k
  · intro hc; rw [h2.1] at hc; simp at hc
  · intro hc; have := h2.2; omega

theorem BookGrows.trans {k k' : Nat} {b b1 b2 : Book} (h : BookGrows k b b1) (hk : k ≤ k') (g : BookGrows k' b1 b2) : BookGrows k b b2 :=
  fun t d => (h t d).trans hk (g t d)

theorem ClaimRun.grows {sender : Addr} {ob : Orderbook} {l : List (Int × Nat)} {s s' : Store} {b b' : Book} {ms : List SendMsg}
    {es : List Event} (h : ClaimRun sender ob l s b ms es s' b') (k : Nat) : BookGrows k b b' := by
  induction h with
  | nil => exact .refl _ _
  | ok _ h _ ih => exact (h.grows k).trans (le_refl _) ih
  | skip _ _ _ ih => exact ih

theorem StoreStep.grows {ch : Chain} {op : Op} {s s' : Store} {b b' : Book} {resp : Response} (h : StoreStep ch op s b resp s' b')
    (hr : Rel s b) : BookGrows (s.orderId.getD 0) b b' ∧ s.orderId.getD 0 ≤ s'.orderId.getD 0 := by
  cases h with
  | @place sender funds time tick dir q cb s b ob h1 h2 h3 h4 =>
    refine ⟨?_, ?_⟩
    · intro t d
      by_cases he : t = tick ∧ d = dir
      · obtain ⟨rfl, rfl⟩ := he
        rw [Book.set_same]
        exact ⟨_, _, rfl, forall₂_refl _, by simp [newEntry]⟩
      · rw [Book.set_ne b _ (by tauto)]; exact .refl _ _
    · show _ ≤ s.orderId.getD 0 + 1
      omega
  | @cancel time tick dir s s1 b ob p q x tr ts1 h1 h2 h3 h4 h5 h6 h7 h8 h9 =>
    refine ⟨set_grows (x' := { x with cancelled := true }) h3 ⟨rfl, rfl, rfl, rfl, rfl, le_refl _, le_refl _, ?_, ?_⟩ _, ?_⟩
    · intro hc; rw [h4.1] at hc; simp at hc
    · intro hc; have := h4.2; omega
    · show _ ≤ s1.orderId.getD 0
      rw [h6.same.id]
  | claim h1 h2 h3 h4 => exact ⟨h4.grows _, by rw [h4.same.id]⟩
  | batch h1 h2 h3 h4 => exact ⟨h4.grows _, by rw [h4.same.id]⟩
  | @swap time msg sender c out m fee target s b ob dir F q' dust lp h1 h2 h3 h4 h5 =>
    refine ⟨fun t d => ⟨_, [], (List.append_nil _).symm, fillQ_evolves ?_, by simp⟩, le_refl _⟩
    obtain ⟨r, rt, hs, -, -⟩ := hr.sides t d
    exact hs.ok
  | config h1 h2 => exact ⟨.refl _ _, by rw [h2.orderId]⟩

theorem Traced.step_grows {ch : Chain} {n : Nat} {w : World} {b : Book} (h : Traced ch n w b) (op : Op) :
    ∃ b', Traced ch (n + 1) (OB.apply ch w op) b' ∧ BookGrows (w.store.orderId.getD 0) b b' ∧
      w.store.orderId.getD 0 ≤ (OB.apply ch w op).store.orderId.getD 0 := by
  unfold OB.apply
  cases hs : OB.step ch w op with
  | ok r =>
    obtain ⟨w', resp⟩ := r
    obtain ⟨h1, h2⟩ := (h.step hs).grows h.rel
    exact ⟨_, .ok h hs, h1, h2⟩
  | error e => exact ⟨b, .failed h hs, .refl _ _, le_refl _⟩

theorem Traced.run_grows {ch : Chain} {n : Nat} {w : World} {b : Book} (h : Traced ch n w b) (ops : List Op) :
    ∃ b', Traced ch (n + ops.length) (OB.run ch w ops) b' ∧ BookGrows (w.store.orderId.getD 0) b b' ∧
      w.store.orderId.getD 0 ≤ (OB.run ch w ops).store.orderId.getD 0 := by
  induction ops generalizing n w b with
  | nil => exact ⟨b, h, .refl _ _, le_refl _⟩
  | cons op ops ih =>
    obtain ⟨b1, h1, h2, h3⟩ := h.step_grows op
    obtain ⟨b2, g1, g2, g3⟩ := ih h1
    refine ⟨b2, ?_, h2.trans h3 g2, le_trans h3 g3⟩
    rw [show n + (op :: ops).length = n + 1 + ops.length by simp; omega]
    exact g1

/-- Owners are never the contract. -/
theorem Traced.owner_ne {ch : Chain} {n : Nat} {w : World} {b : Book} (h : Traced ch n w b) :
    ∀ t d, ∀ x ∈ b t d, x.owner ≠ ch.contract := by
  induction h with
  | init => intro t d x hx; simp [Book.empty] at hx
  | @ok n w b op w' resp ht hs ih =>
    intro t d x hx
    have hst := ht.step hs
    have hgrow := ((hst.grows ht.rel).1 t d)
    have hnew : ∀ x ∈ b.observe op w.store w'.store resp t d, (∃ y ∈ b t d, y.Evolves x) ∨ x.owner ≠ ch.contract := by
      intro x hx
      generalize hb' : b.observe op w.store w'.store resp = b' at *
      generalize hss : w'.store = s' at *
      generalize hso : w.store = s at *
      have hrel := ht.rel
      rw [hso] at hrel
      cases hst with
      | @place sender funds time tick dir q cb s b ob h1 h2 h3 h4 =>
        have hne := step_sender hs
        by_cases he : t = tick ∧ d = dir
        · obtain ⟨rfl, rfl⟩ := he
          rw [Book.set_same] at hx
          rcases List.mem_append.1 hx with hx | hx
          · exact Or.inl ⟨x, hx, .refl x⟩
          · right
            simp only [List.mem_singleton] at hx
            subst hx
            exact hne
        · rw [Book.set_ne b _ (by tauto)] at hx
          exact Or.inl ⟨x, hx, .refl x⟩
      | cancel h1 h2 h3 h4 h5 h6 h7 h8 h9 =>
        left
        rcases hgrow.mem_new hx with h | h
        · exact h
        · have := h9.ids.lt t d x hx
          have e := h6.same.id
          unfold cancelledStore at this
          simp only [e] at this
          omega
      | claim h1 h2 h3 h4 =>
        left
        rcases hgrow.mem_new hx with h | h
        · exact h
        · have := h4.rel.ids.lt t d x hx
          rw [h4.same.id] at this
          omega
      | batch h1 h2 h3 h4 =>
        left
        rcases hgrow.mem_new hx with h | h
        · exact h
        · have := (h4.rel hrel).ids.lt t d x hx
          rw [h4.same.id] at this
          omega
      | swap h1 h2 h3 h4 h5 =>
        left
        rcases hgrow.mem_new hx with h | h
        · exact h
        · have := (hrel.fill h2 (h5.run.fillsOk hrel h2)).ids.lt t d x hx
          unfold swappedStore at this
          simp only at this
          omega
      | config h1 h2 => exact Or.inl ⟨x, hx, .refl x⟩
    rcases hnew x hx with ⟨y, hy, he⟩ | h
    · rw [he.owner]; exact ih t d y hy
    · exact h
  | failed _ _ ih => exact ih

/-! ### Claims -/

/-- The response of a successful claim of `x`. -/
def claimResp (sender : Addr) (tick : Int) (dir : Dir) (x : Entry) (ob : Orderbook) (rc : Addr) (mf : Nat) : Response :=
  { msgs := claimMsgs sender x.owner rc (ob.oppositeDenom dir) x.bounty mf (valDown dir (x.filled - x.claimed) (priceNat tick)),
    events := [.limitClaimed sender tick x.id (x.placed - x.filled) x.owner dir
      (ownerAmount x.bounty mf (valDown dir (x.filled - x.claimed) (priceNat tick))) x.placed (decide (x.placed - x.filled = 0))
      (ob.expectedDenom dir) (ob.oppositeDenom dir)] }

theorem Traced.claim_resp {ch : Chain} {n : Nat} {w : World} {b : Book} (h : Traced ch n w b) (hn : Room 4 w.store)
    {sender : Addr} (hs : sender ≠ ch.contract) (ha : isActive w.store = true) {tick : Int} {dir : Dir} {x : Entry}
    (hx : x ∈ b tick dir) (hl : x.Live) (hc : x.claimed < x.filled) (time : Nat) {ob : Orderbook} (hob : w.store.orderbook = some ob)
    {rc : Addr} (hrc : w.store.makerFeeRecipient = some rc) :
    respOf ch w (.execute sender [] time (.claimLimit tick x.id)) = some (claimResp sender tick dir x ob rc (getMakerFee w.store)) := by
  obtain ⟨w', resp, hok⟩ := h.claim_step hn hs ha hx hl hc time
  rw [respOf_eq_some]
  refine ⟨w', ?_⟩
  rw [hok]
  obtain ⟨p, q, hsp⟩ := List.append_of_mem hx
  have hst := h.step hok
  generalize b.observe _ _ _ _ = b' at hst
  generalize hss : w'.store = s' at hst
  clear hok hss
  cases hst with
  | claim h1 h2 h3 h4 =>
    rename_i ob' r
    obtain rfl : ob' = ob := by rw [hob] at h2; exact (Option.some.inj h2).symm
    rcases claimOrder_some h.rel sender hsp hl hob hrc with ⟨g1, -⟩ | ⟨s1, g1, ⟨g2, -⟩ | ⟨-, g3⟩⟩
    · have := hn.cnt_lt tick; omega
    · omega
    · rw [h3] at g3
      simp only [Res.ok.injEq] at g3
      rw [g3.1]
      rfl
  | config h1 => simp [Op.isConfig] at h1

theorem Traced.claim_resp_none {ch : Chain} {n : Nat} {w : World} {b : Book} (h : Traced ch n w b) {sender : Addr} {funds : List Coin}
    {time : Nat} {tick : Int} {id : Nat}
    (hno : funds ≠ [] ∨ isActive w.store = false ∨ ∀ dir, ∀ x ∈ b tick dir, x.id = id → x.Live → x.filled ≤ x.claimed) :
    respOf ch w (.execute sender funds time (.claimLimit tick id)) = none := by
  refine respOf_of_not ?_
  intro w' resp hok
  have hst := h.step hok
  generalize b.observe _ _ _ _ = b' at hst
  generalize w'.store = s' at hst
  cases hst with
  | claim h1 h2 h3 h4 =>
    obtain ⟨g1, g2, g3, g4, g5, g6, g7⟩ := h4
    rename_i dir p q x ob rc
    rcases hno with hh | hh | hh
    · exact hh rfl
    · rw [h1] at hh; simp at hh
    · have := hh dir x (by rw [g1]; simp) g3 g2
      omega
  | config h1 => simp [Op.isConfig] at h1

/-- Classification of an order key. -/
theorem Traced.claim_outcome {ch : Chain} {n : Nat} {w : World} {b : Book} (h : Traced ch n w b) (hn : Room 4 w.store)
    {sender : Addr} (hs : sender ≠ ch.contract) (tick : Int) (id : Nat) :
    (∃ dir, ∃ x ∈ b tick dir, x.id = id ∧ x.Live ∧ x.claimed < x.filled) ∨
    ∀ dir, ∀ x ∈ b tick dir, x.id = id → x.Live → x.filled ≤ x.claimed := by
  by_cases hc : ∃ dir, ∃ x ∈ b tick dir, x.id = id ∧ x.Live ∧ x.claimed < x.filled
  · exact Or.inl hc
  · right
    intro dir x hx hid hl
    by_contra hlt
    exact hc ⟨dir, x, hx, hid, hl, by omega⟩

end OB
