import Verif.Proofs.Step
/- Every successful operation is one of the known kinds; reachable stores are related to the observed queues. -/
namespace OB

/-- Operations that concern only the configuration or the bank. -/
def Op.isConfig : Op → Bool
  | .execute _ _ _ (.auth _) => true
  | .execute .. => false
  | .sudo _ (.swapExactAmountIn ..) => false
  | .sudo _ (.swapToTick ..) => false
  | .sudo _ (.swapExactAmountOut ..) => false
  | .sudo .. => true
  | .migrate => true
  | .transfer .. => true
  | .mint .. => true

/-- The swap messages as one. -/
def SudoMsg.swapArgs : SudoMsg → Option (Addr × Coin × Denom × Nat × Nat × Option Int)
  | .swapExactAmountIn sender c out m fee => some (sender, c, out, m, fee, none)
  | .swapToTick sender c out m fee t => some (sender, c, out, m, fee, some t)
  | _ => none

/-- The effect of a successful operation on store and queues. -/
inductive StoreStep (ch : Chain) : Op → Store → Book → Response → Store → Book → Prop
  | place {sender funds time tick dir q cb s b ob} : isActive s = true → s.orderbook = some ob → q < U128 →
      PlaceCond s ob funds tick dir q cb →
      StoreStep ch (.execute sender funds time (.placeLimit tick dir q cb)) s b
        { events := [.placeLimit sender tick (s.orderId.getD 0) dir q (ob.expectedDenom dir) (ob.oppositeDenom dir)] }
        (placedStore s ob tick dir sender q cb time) (b.set tick dir (b tick dir ++ [newEntry s sender q cb time]))
  | cancel {time tick dir s s1 b ob p q x tr ts1} : isActive s = true → s.orderbook = some ob →
      b tick dir = p ++ x :: q → x.Live → x.filled = x.claimed → Synced s s1 b tick → s1.ticks.get? tick = some ts1 →
      CancelFrame s1.trees tr tick dir →
      Rel (cancelledStore s1 tr tick dir ts1 x.id (x.placed - x.claimed)) (b.set tick dir (p ++ { x with cancelled := true } :: q)) →
      StoreStep ch (.execute x.owner [] time (.cancelLimit tick x.id)) s b
        { msgs := [⟨x.owner, ⟨ob.expectedDenom dir, x.placed - x.claimed⟩, REPLY_ID_REFUND⟩],
          events := [.cancelLimit x.owner tick x.id (x.placed - x.claimed) dir x.placed (ob.expectedDenom dir) (ob.oppositeDenom dir)] }
        (cancelledStore s1 tr tick dir ts1 x.id (x.placed - x.claimed)) (b.set tick dir (p ++ { x with cancelled := true } :: q))
  | claim {sender time tick id s b ob r s' b'} : isActive s = true → s.orderbook = some ob →
      claimOrder sender tick id s = .ok r s' → ClaimStep sender tick id s b r s' b' →
      StoreStep ch (.execute sender [] time (.claimLimit tick id)) s b
        { msgs := r.2.1, events := [claimedEvent sender r.2.2 r.1 (ob.expectedDenom r.2.2.dir) (ob.oppositeDenom r.2.2.dir)] } s' b'
  | batch {sender time l s b ob ms es s' b'} : isActive s = true → s.orderbook = some ob → l.length ≤ MAX_BATCH_CLAIM →
      ClaimRun sender ob l s b ms es s' b' →
      StoreStep ch (.execute sender [] time (.batchClaim l)) s b
        { msgs := ms, events := .method "batchClaimLimit" [("sender", .str sender)] :: es } s' b'
  | swap {time msg sender c out m fee target s b ob dir F q' dust lp} : isActive s = true → s.orderbook = some ob →
      msg.swapArgs = some (sender, c, out, m, fee, target) → c.amount < U128 →
      SwapOk (ch.env time) s b ob sender c out m fee target dir F q' dust lp →
      StoreStep ch (.sudo time msg) s b (swapResponse sender c out m (sumAmount F) q')
        (swappedStore s dir.opposite F ob) (filledBook b F dir.opposite)
  | config {op s b resp s'} : op.isConfig = true → ConfigOnly s s' → ConfOk s' → resp.msgs = [] →
      (∀ e ∈ resp.events, ∃ m a, e = .method m a) → StoreStep ch op s b resp s' b

theorem StoreStep.rel {ch : Chain} {op : Op} {s s' : Store} {b b' : Book} {resp : Response}
    (h : StoreStep ch op s b resp s' b') (hr : Rel s b) : Rel s' b' := by
  cases h with
  | place h1 h2 h3 h4 => exact hr.place h2 h3 h4
  | cancel _ _ _ _ _ _ _ _ h => exact h
  | claim _ _ _ h => exact h.rel
  | batch _ _ _ h => exact h.rel hr
  | swap _ h2 _ _ h => exact hr.fill h2 (h.run.fillsOk hr h2)
  | config _ h1 h2 => exact hr.config h1 h2

theorem StoreStep.observe {ch : Chain} {op : Op} {s s' : Store} {b b' : Book} {resp : Response}
    (h : StoreStep ch op s b resp s' b') (hr : Rel s b) : b.observe op s s' resp = b' := by
  cases h with
  | place h1 h2 h3 h4 => rfl
  | @cancel time tick dir s s1 b ob p q x tr ts1 h1 h2 h3 h4 h5 h6 h7 h8 h9 =>
    simp only [Book.observe, List.foldl_cons, List.foldl_nil, Book.note]
    rw [h3, updQ_split (by rw [← h3]; exact hr.ids.inc tick dir)]
  | claim _ _ _ h => simp only [Book.observe, List.foldl_cons, List.foldl_nil]; exact h.note hr _ _ _ _ _
  | batch _ _ _ h =>
    simp only [Book.observe, List.foldl_cons, Book.note]
    exact h.note hr _ _ _
  | @swap time msg sender c out m fee target s b ob dir F q' dust lp _ h2 _ _ h =>
    simp only [Book.observe, swapResponse, List.foldl_cons, List.foldl_nil, Book.note]
    funext t d
    rw [taken_observed hr (h.run.fillsOk hr h2)]
    rfl
  | config _ _ _ _ h =>
    unfold Book.observe
    generalize resp.events = l at h
    induction l with
    | nil => rfl
    | cons e l ih =>
      obtain ⟨m, a, rfl⟩ := h e (by simp)
      rw [List.foldl_cons]
      exact ih (fun e he => h e (by simp [he]))

/-! ### Handlers -/

theorem ensureIsActive_eq_ok {s s' : Store} {u : Unit} : ensureIsActive s = .ok u s' ↔ isActive s = true ∧ s' = s := by
  unfold ensureIsActive
  rw [EM.get_bind, EM.ensure_eq_ok]
  rfl

/-- `s'` differs from `s` in configuration only, and the configuration stays complete. -/
def ConfStep (s s' : Store) : Prop := ConfigOnly s s' ∧ (ConfOk s → ConfOk s')

theorem authDispatch_ok {env : Env} {info : MessageInfo} {msg : AuthMsg} {s s' : Store} {resp : Response}
    (hok : authDispatch env info msg s = .ok resp s') :
    ConfStep s s' ∧ resp.msgs = [] ∧ ∃ m a, resp.events = [.method m a] := by
  cases msg <;>
    simp only [authDispatch, ensureIsAdmin, ensureIsAdminOrModerator, offerAdmin, removeAdminTransfer, updateAdmin, removeAdmin,
      offerModerator, removeModeratorOffer, updateModerator, setActive, setMakerFee, setMakerFeeRecipient,
      EM.bind_eq_ok, EM.get_eq_ok, EM.ensure_eq_ok, EM.modify_eq_ok, EM.pure_eq_ok] at hok
  case transferAdmin => 
    obtain ⟨_, _, ⟨_, _, ⟨rfl, rfl⟩, -, rfl⟩, _, _, ⟨_, _, ⟨-, rfl⟩, rfl⟩, rfl, rfl⟩ := hok
    exact ⟨⟨⟨rfl, rfl, rfl, rfl, rfl, rfl⟩, fun h => ⟨h.1, h.2, h.3⟩⟩, rfl, _, _, rfl⟩
  case cancelAdminTransfer =>
    obtain ⟨_, _, ⟨_, _, ⟨rfl, rfl⟩, -, rfl⟩, _, _, rfl, rfl, rfl⟩ := hok
    exact ⟨⟨⟨rfl, rfl, rfl, rfl, rfl, rfl⟩, fun h => ⟨h.1, h.2, h.3⟩⟩, rfl, _, _, rfl⟩
  case rejectAdminTransfer =>
    obtain ⟨_, _, ⟨rfl, rfl⟩, _, _, ⟨-, rfl⟩, _, _, rfl, rfl, rfl⟩ := hok
    exact ⟨⟨⟨rfl, rfl, rfl, rfl, rfl, rfl⟩, fun h => ⟨h.1, h.2, h.3⟩⟩, rfl, _, _, rfl⟩
  case claimAdmin =>
    obtain ⟨_, _, ⟨rfl, rfl⟩, _, _, ⟨-, rfl⟩, _, _, ⟨_, _, ⟨-, rfl⟩, rfl⟩, _, _, rfl, rfl, rfl⟩ := hok
    exact ⟨⟨⟨rfl, rfl, rfl, rfl, rfl, rfl⟩, fun h => ⟨h.1, h.2, h.3⟩⟩, rfl, _, _, rfl⟩
  case renounceAdminship =>
    obtain ⟨_, _, ⟨_, _, ⟨rfl, rfl⟩, -, rfl⟩, _, _, rfl, rfl, rfl⟩ := hok
    exact ⟨⟨⟨rfl, rfl, rfl, rfl, rfl, rfl⟩, fun h => ⟨h.1, h.2, h.3⟩⟩, rfl, _, _, rfl⟩
  case offerModerator =>
    obtain ⟨_, _, ⟨_, _, ⟨rfl, rfl⟩, -, rfl⟩, _, _, ⟨_, _, ⟨-, rfl⟩, rfl⟩, rfl, rfl⟩ := hok
    exact ⟨⟨⟨rfl, rfl, rfl, rfl, rfl, rfl⟩, fun h => ⟨h.1, h.2, h.3⟩⟩, rfl, _, _, rfl⟩
  case rejectModeratorOffer =>
    obtain ⟨_, _, ⟨rfl, rfl⟩, _, _, ⟨-, rfl⟩, _, _, rfl, rfl, rfl⟩ := hok
    exact ⟨⟨⟨rfl, rfl, rfl, rfl, rfl, rfl⟩, fun h => ⟨h.1, h.2, h.3⟩⟩, rfl, _, _, rfl⟩
  case claimModerator =>
    obtain ⟨_, _, ⟨rfl, rfl⟩, _, _, ⟨-, rfl⟩, _, _, ⟨_, _, ⟨-, rfl⟩, rfl⟩, _, _, rfl, rfl, rfl⟩ := hok
    exact ⟨⟨⟨rfl, rfl, rfl, rfl, rfl, rfl⟩, fun h => ⟨h.1, h.2, by simp⟩⟩, rfl, _, _, rfl⟩
  case setActive =>
    obtain ⟨_, _, ⟨_, _, ⟨rfl, rfl⟩, -, rfl⟩, _, _, rfl, rfl, rfl⟩ := hok
    exact ⟨⟨⟨rfl, rfl, rfl, rfl, rfl, rfl⟩, fun h => ⟨h.1, h.2, h.3⟩⟩, rfl, _, _, rfl⟩
  case setMakerFee =>
    obtain ⟨_, _, ⟨_, _, ⟨rfl, rfl⟩, -, rfl⟩, _, _, ⟨_, _, ⟨hf, rfl⟩, _, _, rfl, rfl, rfl⟩, rfl, rfl⟩ := hok
    exact ⟨⟨⟨rfl, rfl, rfl, rfl, rfl, rfl⟩, fun h => ⟨by simpa [getMakerFee] using hf, h.2, h.3⟩⟩, rfl, _, _, rfl⟩
  case setMakerFeeRecipient =>
    obtain ⟨_, _, ⟨_, _, ⟨rfl, rfl⟩, -, rfl⟩, _, _, ⟨_, _, ⟨-, rfl⟩, rfl⟩, rfl, rfl⟩ := hok
    exact ⟨⟨⟨rfl, rfl, rfl, rfl, rfl, rfl⟩, fun h => ⟨h.1, by simp, h.3⟩⟩, rfl, _, _, rfl⟩

theorem cancelLimit_eq_ok {s : Store} {b : Book} (h : Rel s b) {env : Env} {info : MessageInfo} {tick : Int} {id : Nat}
    {resp : Response} {s' : Store} {ob : Orderbook} (hob : s.orderbook = some ob)
    (hok : cancelLimit env info tick id s = .ok resp s') :
    info.funds = [] ∧ ∃ s1 tr ts1 dir p q x, b tick dir = p ++ x :: q ∧ x.Live ∧ x.id = id ∧ x.owner = info.sender ∧
      x.filled = x.claimed ∧ Synced s s1 b tick ∧ s1.ticks.get? tick = some ts1 ∧ CancelFrame s1.trees tr tick dir ∧
      Rel (cancelledStore s1 tr tick dir ts1 x.id (x.placed - x.claimed)) (b.set tick dir (p ++ { x with cancelled := true } :: q)) ∧
      resp = { msgs := [⟨x.owner, ⟨ob.expectedDenom dir, x.placed - x.claimed⟩, REPLY_ID_REFUND⟩],
               events := [.cancelLimit x.owner tick x.id (x.placed - x.claimed) dir x.placed (ob.expectedDenom dir) (ob.oppositeDenom dir)] } ∧
      s' = cancelledStore s1 tr tick dir ts1 x.id (x.placed - x.claimed) := by
  obtain ⟨sender, funds⟩ := info
  by_cases hf : funds = []
  swap
  · rw [cancelLimit_payable hf] at hok; simp at hok
  subst hf
  refine ⟨rfl, ?_⟩
  rcases h.lookup tick id with ⟨h1, h2⟩ | ⟨dir, p, x, q, h1, h2, rfl, h4⟩
  · rw [cancelLimit_none h1] at hok; simp at hok
  by_cases hs : sender = x.owner
  swap
  · rw [cancelLimit_unauthorized h4 (by simpa [orderOf] using hs)] at hok; simp at hok
  subst hs
  rcases cancelLimit_some h env h1 h2 hob with ⟨-, s1, h5⟩ | ⟨s1, h5, ⟨-, h7⟩ | ⟨h6, tr, ts1, h7, h8, h9, h10⟩⟩
  · rw [h5] at hok; simp at hok
  · rw [h7] at hok; simp at hok
  · rw [h8] at hok
    simp only [Res.ok.injEq] at hok
    exact ⟨s1, tr, ts1, dir, p, q, x, h1, h2, rfl, rfl, h6, h5, h7, h9, h10, hok.1.symm, hok.2.symm⟩

theorem claimLimit_eq_ok {s : Store} {b : Book} (h : Rel s b) {env : Env} {info : MessageInfo} {tick : Int} {id : Nat}
    {resp : Response} {s' : Store} {ob : Orderbook} (hob : s.orderbook = some ob)
    (hok : claimLimit env info tick id s = .ok resp s') :
    info.funds = [] ∧ ∃ r b', claimOrder info.sender tick id s = .ok r s' ∧ ClaimStep info.sender tick id s b r s' b' ∧
      resp = { msgs := r.2.1, events := [claimedEvent info.sender r.2.2 r.1 (ob.expectedDenom r.2.2.dir) (ob.oppositeDenom r.2.2.dir)] } := by
  unfold claimLimit at hok
  rw [EM.bind_eq_ok] at hok
  obtain ⟨u, s1, h1, hok⟩ := hok
  rw [EM.lift_eq_ok] at h1
  obtain ⟨h1, rfl⟩ := h1
  refine ⟨nonpayable_eq_ok.1 h1, ?_⟩
  rw [EM.bind_eq_ok] at hok
  obtain ⟨⟨a, m, o⟩, s2, h2, hok⟩ := hok
  rcases claimOrder_cases h info.sender tick id with ⟨-, s1, h3⟩ | ⟨e, s1, h3, -⟩ | ⟨r, s1, b1, h3, h4⟩
  · rw [h3] at h2; simp at h2
  · rw [h3] at h2; simp at h2
  · have h2' := h2
    rw [h3] at h2
    simp only [Res.ok.injEq] at h2
    obtain ⟨rfl, rfl⟩ := h2
    have hob2 : s1.orderbook = some ob := by
      obtain ⟨g1, g2, g3, g4, g5, g6, g7⟩ := h4
      have e1 := g6.store
      unfold claimedStore
      split
      · show Store.orderbook _ = _
        simp only
        rw [e1]; exact hob
      · show Store.orderbook _ = _
        simp only
        rw [e1]; exact hob
    simp only at hok
    rw [EM.bind_ok_of (loadOrderbook_some hob2), EM.pure_eq_ok] at hok
    obtain ⟨rfl, rfl⟩ := hok
    exact ⟨_, b1, h3, h4, rfl⟩

theorem batchClaim_eq_ok {s : Store} {b : Book} (h : Rel s b) {env : Env} {info : MessageInfo} {l : List (Int × Nat)}
    {resp : Response} {s' : Store} {ob : Orderbook} (hob : s.orderbook = some ob)
    (hok : batchClaimLimits info env l s = .ok resp s') :
    info.funds = [] ∧ l.length ≤ MAX_BATCH_CLAIM ∧ ∃ ms es b', ClaimRun info.sender ob l s b ms es s' b' ∧
      resp = { msgs := ms, events := .method "batchClaimLimit" [("sender", .str info.sender)] :: es } := by
  unfold batchClaimLimits at hok
  rw [EM.bind_eq_ok] at hok
  obtain ⟨u, s1, h1, hok⟩ := hok
  rw [EM.lift_eq_ok] at h1
  obtain ⟨h1, rfl⟩ := h1
  rw [EM.bind_eq_ok] at hok
  obtain ⟨u2, s2, h2, hok⟩ := hok
  rw [EM.ensure_eq_ok] at h2
  obtain ⟨h2, rfl⟩ := h2
  rw [EM.bind_ok_of (loadOrderbook_some hob), EM.bind_eq_ok] at hok
  obtain ⟨⟨ms, es⟩, s3, h3, hok⟩ := hok
  simp only at hok
  rw [EM.pure_eq_ok] at hok
  obtain ⟨rfl, rfl⟩ := hok
  obtain ⟨b', hb⟩ := batchLoop_ok h h3
  exact ⟨nonpayable_eq_ok.1 h1, by simpa using h2, ms, es, b', hb, rfl⟩

theorem execute_ok {ch : Chain} {s : Store} {b : Book} (h : Rel s b) {sender : Addr} {funds : List Coin} {time : Nat}
    {msg : ExecuteMsg} (hw : msg.wellTyped = true) {resp : Response} {s' : Store}
    (hok : execute (ch.env time) ⟨sender, funds⟩ msg s = .ok resp s') :
    ∃ b', StoreStep ch (.execute sender funds time msg) s b resp s' b' := by
  obtain ⟨ob, hob, -⟩ := h.ptr
  unfold execute at hok
  rw [EM.bind_eq_ok] at hok
  obtain ⟨u, s1, h1, hok⟩ := hok
  cases msg with
  | placeLimit tick dir q cb =>
    obtain ⟨ha, rfl⟩ := ensureIsActive_eq_ok.1 h1
    have hq : q < U128 := by simp [ExecuteMsg.wellTyped] at hw; exact hw.1.2
    obtain ⟨ob', hob', hc, rfl, rfl⟩ := (placeLimit_eq_ok hq).1 hok
    exact ⟨_, .place ha hob' hq hc⟩
  | cancelLimit tick id =>
    obtain ⟨ha, rfl⟩ := ensureIsActive_eq_ok.1 h1
    obtain ⟨hf, s1, tr, ts1, dir, p, q, x, g1, g2, rfl, g4, g5, g6, g7, g8, g9, rfl, rfl⟩ := cancelLimit_eq_ok h hob hok
    simp only at hf g4
    subst hf g4
    exact ⟨_, .cancel ha hob g1 g2 g5 g6 g7 g8 g9⟩
  | claimLimit tick id =>
    obtain ⟨ha, rfl⟩ := ensureIsActive_eq_ok.1 h1
    obtain ⟨hf, r, b', g1, g2, rfl⟩ := claimLimit_eq_ok h hob hok
    simp only at hf g1 g2
    subst hf
    exact ⟨b', .claim ha hob g1 g2⟩
  | batchClaim l =>
    obtain ⟨ha, rfl⟩ := ensureIsActive_eq_ok.1 h1
    obtain ⟨hf, hl, ms, es, b', g1, rfl⟩ := batchClaim_eq_ok h hob hok
    simp only at hf g1
    subst hf
    exact ⟨b', .batch ha hob hl g1⟩
  | auth m =>
    unfold activeGate at h1
    rw [EM.pure_eq_ok] at h1
    obtain ⟨-, rfl⟩ := h1
    obtain ⟨⟨g1, g2⟩, g3, m', a', g4⟩ := authDispatch_ok hok
    exact ⟨b, .config rfl g1 (g2 h.conf) g3 (by rw [g4]; simp)⟩

theorem sudo_step_ok {ch : Chain} {s : Store} {b : Book} (h : Rel s b) {time : Nat} {msg : SudoMsg} (hw : msg.wellTyped = true)
    {resp : Response} {s' : Store} (hok : «sudo» (ch.env time) msg s = .ok resp s') :
    ∃ b', StoreStep ch (.sudo time msg) s b resp s' b' := by
  obtain ⟨ob, hob, -⟩ := h.ptr
  unfold «sudo» at hok
  rw [EM.bind_eq_ok] at hok
  obtain ⟨u, s1, h1, hok⟩ := hok
  obtain ⟨ha, rfl⟩ := ensureIsActive_eq_ok.1 h1
  cases msg with
  | swapExactAmountIn sender c out m fee =>
    have hq : c.amount < U128 := by simp [SudoMsg.wellTyped] at hw; exact hw.1.1
    obtain ⟨dir, F, q', dust, lp, g1, rfl, rfl⟩ := dispatchSwap_eq_ok h hob hq hok
    exact ⟨_, .swap ha hob rfl hq g1⟩
  | swapToTick sender c out m fee t =>
    have hq : c.amount < U128 := by simp [SudoMsg.wellTyped] at hw; exact hw.1.1.1
    obtain ⟨dir, F, q', dust, lp, g1, rfl, rfl⟩ := dispatchSwap_eq_ok h hob hq hok
    exact ⟨_, .swap ha hob rfl hq g1⟩
  | swapExactAmountOut => simp at hok
  | transferAdmin a =>
    simp only [updateAdmin, EM.bind_eq_ok, EM.ensure_eq_ok, EM.modify_eq_ok, EM.pure_eq_ok] at hok
    obtain ⟨_, _, ⟨_, _, ⟨-, rfl⟩, rfl⟩, rfl, rfl⟩ := hok
    exact ⟨b, .config rfl ⟨rfl, rfl, rfl, rfl, rfl, rfl⟩ ⟨h.conf.1, h.conf.2, h.conf.3⟩ rfl (by simp)⟩
  | removeAdmin =>
    simp only [removeAdmin, EM.bind_eq_ok, EM.ensure_eq_ok, EM.modify_eq_ok, EM.pure_eq_ok] at hok
    obtain ⟨_, _, rfl, rfl, rfl⟩ := hok
    exact ⟨b, .config rfl ⟨rfl, rfl, rfl, rfl, rfl, rfl⟩ ⟨h.conf.1, h.conf.2, h.conf.3⟩ rfl (by simp)⟩
  | setActive a =>
    simp only [setActive, EM.bind_eq_ok, EM.modify_eq_ok, EM.pure_eq_ok] at hok
    obtain ⟨_, _, rfl, rfl, rfl⟩ := hok
    exact ⟨b, .config rfl ⟨rfl, rfl, rfl, rfl, rfl, rfl⟩ ⟨h.conf.1, h.conf.2, h.conf.3⟩ rfl (by simp)⟩

end OB
