import Verif.Proofs.Limits
/- The directional totals are the open interest; payments always succeed. -/
namespace OB

/-- Summing over a map is summing over all ticks. -/
theorem smap_total {m : SMap Int TickState} (hs : SMap.Sorted m) (hr : ∀ t, SMap.get? m t ≠ none → t ∈ tickRange)
    (f : TickState → Nat) : SMap.total (fun _ x => f x) m = total (fun t => ((SMap.get? m t).map f).getD 0) := by
  induction m with
  | nil => simp only [SMap.get?, Option.map_none, Option.getD_none]; exact total_zero.symm
  | cons kv m ih =>
    obtain ⟨k, v⟩ := kv
    have hs' : SMap.Sorted m := (List.pairwise_cons.1 hs).2
    have hk : SMap.get? m k = none := by
      by_contra hc
      obtain ⟨v', hv'⟩ := Option.ne_none_iff_exists'.1 hc
      have := (List.pairwise_cons.1 hs).1 _ (SMap.get?_mem hv')
      rw [Key.irrefl] at this
      simp at this
    have hkr : k ∈ tickRange := hr k (by simp [SMap.get?])
    have h1 := ih hs' (fun t ht => hr t (by
      by_cases he : t = k
      · subst he; exact absurd hk ht
      · simpa [SMap.get?, he] using ht))
    have h2 := total_update (g := fun t => ((SMap.get? m t).map f).getD 0)
      (g' := fun t => ((SMap.get? ((k, v) :: m) t).map f).getD 0) hkr (by
        intro t hne; simp [SMap.get?, hne])
    simp only [hk, Option.map_none, Option.getD_none] at h2
    have e : SMap.get? ((k, v) :: m) k = some v := by simp [SMap.get?]
    rw [e] at h2
    simp only [Option.map_some, Option.getD_some] at h2
    have h3 : SMap.total (fun _ x => f x) ((k, v) :: m) = f v + SMap.total (fun _ x => f x) m := by
      simp [SMap.total]
    rw [h3, h1]
    omega

theorem total_mul (k : Nat) (g : Int → Nat) : total (fun t => k * g t) = k * total g := by
  unfold total; rw [Finset.mul_sum]

/-- The directional total is the open interest of the direction. -/
theorem Rel.liq_open {s : Store} {b : Book} (h : Rel s b) (d : Dir) : getDirectionalLiquidity s d = D * openOf b d := by
  rw [h.liq d]
  unfold sumTal
  rw [smap_total (f := fun ts => (ts.getValues d).tal) h.ticksSorted (fun t ht => mem_tickRange.2 (h.known_range ht))]
  unfold openOf
  rw [← total_mul]
  refine total_congr (fun t _ => ?_)
  rw [← h.tal_eq t d]
  unfold tv
  cases s.ticks.get? t with
  | none => cases d <;> rfl
  | some x => rfl

/-- The transfers of an operation never exceed the contract's balance. -/
theorem Traced.payable {ch : Chain} {n : Nat} {w : World} {b b' : Book} (h : Traced ch n w b) (hn : w.store.orderId.getD 0 + 1 < D) {op : Op}
    {resp : Response} {s' : Store} (hst : StoreStep ch op w.store b resp s' b') {bank1 : Bank}
    (hb : ∀ d, w.bank ch.contract d + coinSum d op.inflow ≤ bank1 ch.contract d) (d : Denom) :
    msgSum d resp.msgs ≤ bank1 ch.contract d := by
  obtain ⟨ob, hob, C, hC, hB⟩ := h.solvent
  obtain ⟨C', g1, g2, g3⟩ := hst.solv h.rel hob hC hB
  by_cases hd : ∃ dir, d = ob.expectedDenom dir
  · obtain ⟨dir, rfl⟩ := hd
    have a1 := g2 dir
    have a2 := g1.due (hst.rel h.rel) (fun t d => by
      have c1 := (hst.rel h.rel).length_le t d
      have c2 := hst.counts.id_le
      omega) dir.opposite
    have a3 := hb (ob.expectedDenom dir)
    unfold World.held at a1
    omega
  · have : msgSum d resp.msgs = 0 := by
      revert g3
      generalize resp.msgs = ms
      intro g3
      induction ms with
      | nil => rfl
      | cons m ms ih =>
        rw [msgSum_cons, ih (fun m hm => g3 m (by simp [hm])), if_neg]
        intro hc
        obtain ⟨dir, he⟩ := g3 m (by simp)
        exact hd ⟨dir, by rw [← hc, he]⟩
    omega

theorem Traced.dispatch {ch : Chain} {n : Nat} {w : World} {b b' : Book} (h : Traced ch n w b) (hn : w.store.orderId.getD 0 + 1 < D) {op : Op}
    {resp : Response} {s' : Store} (hst : StoreStep ch op w.store b resp s' b') {bank1 : Bank}
    (hb : ∀ d, w.bank ch.contract d + coinSum d op.inflow ≤ bank1 ch.contract d) (h0 : ∀ m ∈ resp.msgs, m.coin.amount ≠ 0) :
    ∃ bank2, bank1.dispatch ch.contract resp.msgs = .ok bank2 :=
  Bank.dispatch_ok h0 (fun d => h.payable hn hst hb d)

/-! ### Execution of handlers inside transactions -/

theorem step_execute {ch : Chain} {w : World} {sender : Addr} {time : Nat} {msg : ExecuteMsg} (hs : sender ≠ ch.contract)
    (hw : msg.wellTyped = true) :
    step ch w (.execute sender [] time msg) = runTx ch w w.bank (execute (ch.env time) ⟨sender, []⟩ msg) := by
  simp only [step, if_neg hs, hw, Bool.not_true, Bool.false_eq_true, if_false, Bank.sendAll]
  rfl

theorem execute_active {env : Env} {info : MessageInfo} {msg : ExecuteMsg} {s : Store} (h : isActive s = true) :
    execute env info msg s = (match msg with
      | .placeLimit tick dir quantity bounty => placeLimit env info tick dir quantity bounty
      | .cancelLimit tick id => cancelLimit env info tick id
      | .claimLimit tick id => claimLimit env info tick id
      | .batchClaim orders => batchClaimLimits info env orders
      | .auth m => authDispatch env info m) s := by
  have ha : ensureIsActive s = .ok () s := ensureIsActive_eq_ok.2 ⟨h, rfl⟩
  unfold execute
  cases msg with
  | auth m => exact EM.bind_ok_of (x := activeGate _) (a := ()) (s' := s) rfl
  | _ => exact EM.bind_ok_of (x := activeGate _) ha

theorem execute_inactive {env : Env} {info : MessageInfo} {msg : ExecuteMsg} {s : Store} (h : isActive s = false)
    (hm : ∀ m, msg ≠ .auth m) : execute env info msg s = .err .inactive s := by
  have ha : ensureIsActive s = .err .inactive s := by
    unfold ensureIsActive
    rw [EM.get_bind]
    unfold isActive at h
    rw [h]; rfl
  unfold execute
  cases msg with
  | auth m => exact absurd rfl (hm m)
  | _ => exact EM.bind_err_of (x := activeGate _) ha

theorem runTx_ok {ch : Chain} {w : World} {bank bank2 : Bank} {x : M Response} {resp : Response} {s : Store} (h : x w.store = .ok resp s)
    (hd : bank.dispatch ch.contract resp.msgs = .ok bank2) : runTx ch w bank x = .ok (⟨s, bank2⟩, resp) := by
  rw [runTx_dispatch]; rw [h]; simp only [hd]

theorem runTx_err {ch : Chain} {w : World} {bank : Bank} {x : M Response} {e : Err} {s : Store} (h : x w.store = .err e s) :
    runTx ch w bank x = .error e := by
  rw [runTx_dispatch]; rw [h]

theorem claimLimit_of_claimOrder {env : Env} {sender : Addr} {tick : Int} {id : Nat} {s s' : Store} {r : Nat × List SendMsg × LimitOrder}
    {ob : Orderbook} (hob : s'.orderbook = some ob) (h : claimOrder sender tick id s = .ok r s') :
    claimLimit env ⟨sender, []⟩ tick id s = .ok
      { msgs := r.2.1, events := [claimedEvent sender r.2.2 r.1 (ob.expectedDenom r.2.2.dir) (ob.oppositeDenom r.2.2.dir)] } s' := by
  unfold claimLimit
  rw [EM.bind_ok_of (x := EM.lift (nonpayable (MessageInfo.mk sender []).funds)) (a := ()) (s' := s) rfl]
  rw [EM.bind_ok_of h]
  obtain ⟨a, m, o⟩ := r
  simp only
  rw [EM.bind_ok_of (loadOrderbook_some hob)]
  rfl

theorem claimLimit_err {env : Env} {sender : Addr} {tick : Int} {id : Nat} {s s' : Store} {e : Err}
    (h : claimOrder sender tick id s = .err e s') : claimLimit env ⟨sender, []⟩ tick id s = .err e s' := by
  unfold claimLimit
  rw [EM.bind_ok_of (x := EM.lift (nonpayable (MessageInfo.mk sender []).funds)) (a := ()) (s' := s) rfl]
  exact EM.bind_err_of h

theorem claimLimit_payable {env : Env} {info : MessageInfo} {tick : Int} {id : Nat} {s : Store} (hf : info.funds ≠ []) :
    claimLimit env info tick id s = .err (.payment .nonPayable) s := by
  unfold claimLimit
  have : nonpayable info.funds = .error (.payment .nonPayable) := by
    unfold nonpayable; simp [hf]
  rw [this]
  exact EM.bind_err_of rfl

/-- Transactions of the claim and cancel messages, for histories short of exhaustion. -/
theorem Traced.claim_step {ch : Chain} {n : Nat} {w : World} {b : Book} (h : Traced ch n w b) (hn : Room 4 w.store)
    {sender : Addr} (hs : sender ≠ ch.contract) (ha : isActive w.store = true) {tick : Int} {dir : Dir} {x : Entry}
    (hx : x ∈ b tick dir) (hl : x.Live) (hc : x.claimed < x.filled) (time : Nat) :
    ∃ w' resp, OB.step ch w (.execute sender [] time (.claimLimit tick x.id)) = .ok (w', resp) := by
  obtain ⟨ob, hob, -⟩ := h.rel.ptr
  obtain ⟨rc, hrc⟩ := h.rel.recipient
  obtain ⟨p, q, hsp⟩ := List.append_of_mem hx
  have hid : x.id < U64 := by
    have := h.rel.ids.lt _ _ _ hx; have := hn.id_lt; omega
  have htick := h.rel.range tick dir (by rw [hsp]; simp)
  have hwt : (ExecuteMsg.claimLimit tick x.id).wellTyped = true := by
    unfold MIN_TICK MAX_TICK at htick
    simp only [ExecuteMsg.wellTyped, i64Ok, hid, decide_true, Bool.and_true, decide_eq_true_eq]
    omega
  rw [step_execute hs hwt]
  rcases claimOrder_some h.rel sender hsp hl hob hrc with ⟨h1, -⟩ | ⟨s1, h1, ⟨h2, -⟩ | ⟨-, h3⟩⟩
  · have := hn.cnt_lt tick; omega
  · omega
  · have hstep := ClaimStep.mk (sender := sender) hsp hl rfl hob hrc h1 hc
    have hob' : (claimedStore s1 tick (orderOf tick dir (sumBy Entry.placed p) { x with claimed := x.filled })).orderbook = some ob := by
      rw [hstep.orderbook]; exact hob
    have h4 := claimLimit_of_claimOrder (env := ch.env time) hob' h3
    have hss : StoreStep ch (.execute sender [] time (.claimLimit tick x.id)) w.store b _ _ _ := StoreStep.claim ha hob h3 hstep
    obtain ⟨_, _, _, _, -, -, -, -, -, -, g1, -⟩ := hstep.msgs_sum h.rel hob
    obtain ⟨bank2, hb2⟩ := h.dispatch hn.lt_D hss (bank1 := w.bank) (fun d => by simp [Op.inflow]) (fun m hm => (g1 m hm).1)
    exact ⟨_, _, runTx_ok (by rw [execute_active ha]; exact h4) hb2⟩

theorem Traced.cancel_step {ch : Chain} {n : Nat} {w : World} {b : Book} (h : Traced ch n w b) (hn : Room 4 w.store)
    (ha : isActive w.store = true) {tick : Int} {dir : Dir} {x : Entry}
    (hx : x ∈ b tick dir) (hs : x.owner ≠ ch.contract) (hl : x.Live) (hc : x.filled = x.claimed) (time : Nat) :
    ∃ w' resp, OB.step ch w (.execute x.owner [] time (.cancelLimit tick x.id)) = .ok (w', resp) := by
  obtain ⟨ob, hob, -⟩ := h.rel.ptr
  obtain ⟨p, q, hsp⟩ := List.append_of_mem hx
  have hid : x.id < U64 := by
    have := h.rel.ids.lt _ _ _ hx; have := hn.id_lt; omega
  have htick := h.rel.range tick dir (by rw [hsp]; simp)
  have hwt : (ExecuteMsg.cancelLimit tick x.id).wellTyped = true := by
    unfold MIN_TICK MAX_TICK at htick
    simp only [ExecuteMsg.wellTyped, i64Ok, hid, decide_true, Bool.and_true, decide_eq_true_eq]
    omega
  rw [step_execute hs hwt]
  rcases cancelLimit_some h.rel (ch.env time) hsp hl hob with ⟨h1, -⟩ | ⟨s1, h1, ⟨h2, -⟩ | ⟨-, tr, ts1, h3, h4, h5, h6⟩⟩
  · have := hn.cnt_lt tick; omega
  · omega
  · have hss : StoreStep ch (.execute x.owner [] time (.cancelLimit tick x.id)) w.store b _ _ _ :=
      StoreStep.cancel ha hob hsp hl hc h1 h3 h5 h6
    obtain ⟨bank2, hb2⟩ := h.dispatch hn.lt_D hss (bank1 := w.bank) (fun d => by simp [Op.inflow]) (by
      intro m hm
      simp only [List.mem_singleton] at hm
      subst hm
      have := hl.2
      simp only; omega)
    exact ⟨_, _, runTx_ok (by rw [execute_active ha]; exact h4) hb2⟩

end OB
