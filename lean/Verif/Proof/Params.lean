import Verif.Spec.Params
import Verif.Proof.Size
import Verif.Proof.Origin
/-! # What a client announces when it connects is in force for the connection -/
namespace Akasa

variable {cfg : Config} {ext : Ext} {pr : Proto}

/-! ## The topic alias maximum -/

theorem aliasMax_publish {env : Env} {g : Global} {s : Session} {p : Publish} {r : Res}
    (h : PubCase cfg ext pr env g s p r) : r.session.aliasMax = s.aliasMax := by
  have hres : ∀ {s1 t}, Resolved cfg pr s p s1 t → s1.aliasMax = s.aliasMax := by
    intro s1 t h
    rw [resolved_ident h]
  cases h with
  | rejectV5 hpr s' hs code =>
    rcases hs with rfl | ⟨t, hs⟩
    · rfl
    · exact (hres hs :)
  | rejectV3 => rfl
  | inUse _ s1 t pid prev h => exact hres h
  | repeated s1 t pid h => exact hres h
  | lostFirst s1 t pid h => exact (hres h :)
  | route2 s1 t pid s' g' n h hp hd hg hlen hs =>
    have := hres h
    exact (ident_aliasMax (ident_of_core (core_sendOf hs))).trans this
  | route01 s1 t s' g' n h hp hs =>
    exact (ident_aliasMax (ident_of_core (core_sendOf hs))).trans (hres h)

theorem aliasMax_packet {env : Env} {g : Global} {s : Session} {n : Nat} {p : InPkt} {r : Res}
    (h : handlePacket cfg ext .v5 env g s n p = some r) :
    r.session.aliasMax = s.aliasMax := by
  by_cases hp : ∃ q, p = .publish q
  · obtain ⟨q, rfl⟩ := hp
    exact aliasMax_publish (handle_publish_cases h)
  simp only [handlePacket, handlePacketV5] at h
  split at h
  · cases h; rfl
  cases p with
  | publish q => exact absurd ⟨q, rfl⟩ hp
  | subscribe pid ts id =>
    simp only [handleSubscribeV5] at h
    split at h
    · cases h; rfl
    split at h
    · cases h; rfl
    rw [Option.map_eq_some_iff] at h
    obtain ⟨a, h1, rfl⟩ := h
    exact (ident_aliasMax (ident_subscribeLoopV5 h1) :)
  | unsubscribe pid ts =>
    simp only [handleUnsubscribeV5, Option.map_eq_some_iff] at h
    obtain ⟨a, h1, rfl⟩ := h
    exact (ident_aliasMax (ident_unsubscribeLoopV5 h1) :)
  | pubrel pid =>
    cases h
    unfold handlePubrelV5
    split <;> rfl
  | disconnect c e =>
    cases h
    unfold handleDisconnectV5
    split
    · split <;> rfl
    · rfl
  | _ => cases h; rfl

theorem aliasMax_step {r : Rec} (hs : r.pre.step cfg ext .v5 r.env r.before r.ev = some (r.post, r.res)) :
    r.post.session.aliasMax =
      match r.ev with | .resume c => c.aliasMax | _ => r.pre.session.aliasMax := by
  obtain ⟨ev, env, before, pre, post, res⟩ := r
  simp only at hs
  cases ev with
  | packet after n p =>
    simp only [Peer.step] at hs
    split at hs
    · rw [Option.map_eq_some_iff] at hs
      obtain ⟨a, ha, hb⟩ := hs
      simp only [Prod.mk.injEq] at hb
      obtain ⟨rfl, rfl⟩ := hb
      obtain ⟨r0, h0, hc, -⟩ := onPacket_handled ha
      exact (ident_aliasMax (ident_of_core hc)).trans (aliasMax_packet h0)
    · simp only [Option.some.injEq, Prod.mk.injEq] at hs
      rw [← hs.1]
  | normal m =>
    simp only [Peer.step] at hs
    split at hs
    · simp only [Option.some.injEq, Prod.mk.injEq] at hs
      rw [← hs.1]
      exact ident_aliasMax (ident_of_core (core_onNormal ..))
    · simp only [Option.some.injEq, Prod.mk.injEq] at hs
      rw [← hs.1]
  | offline m =>
    simp only [Peer.step] at hs
    split at hs
    · simp only [Option.some.injEq, Prod.mk.injEq] at hs
      rw [← hs.1]
    · simp only [Option.some.injEq, Prod.mk.injEq] at hs
      rw [← hs.1]
      exact ident_aliasMax (ident_of_core (core_normal ..))
  | passed b n =>
    simp only [Peer.step, Option.some.injEq, Prod.mk.injEq] at hs
    rw [← hs.1]
  | lost =>
    simp only [Peer.step, Option.some.injEq, Prod.mk.injEq] at hs
    rw [← hs.1]
  | resume c =>
    simp only [Peer.step, Option.some.injEq, Prod.mk.injEq] at hs
    rw [← hs.1]
    rfl

/-- The parameters of the last connection. -/
def paramsOf (c : ConnParams) (recs : List Rec) : ConnParams :=
  recs.foldl (fun c r => match r.ev with | .resume c' => c' | _ => c) c

theorem paramsOf_snoc (c : ConnParams) (recs : List Rec) (r : Rec) :
    paramsOf c (recs ++ [r]) = match r.ev with | .resume c' => c' | _ => paramsOf c recs := by
  unfold paramsOf
  rw [List.foldl_append]
  rfl

theorem aliasMax_run {i : Str} {id : ClientId} {c : ConnParams} {recs : List Rec}
    (h : IsRun cfg ext .v5 { session := Session.start cfg .v5 i id c } recs) :
    (endOf { session := Session.start cfg .v5 i id c } recs).session.aliasMax =
      (paramsOf c recs).aliasMax := by
  induction recs using snoc_induction with
  | nil => rfl
  | snoc recs r ih =>
    rw [isRun_append] at h
    obtain ⟨h1, h2, h3, _⟩ := h
    rw [← h2] at h3
    rw [endOf_append]
    show r.post.session.aliasMax = _
    rw [aliasMax_step h3, h2, paramsOf_snoc]
    cases r.ev <;> first | rfl | exact ih h1

/-- What is seen in a step apart from a new connection. -/
def Rec.tail (r : Rec) : List Obs :=
  r.received.toList.map .received ++ (r.taken.toList.map .took ++
    (r.res.routed.map .routed ++ r.res.out.map .sent))

theorem mem_tail {r : Rec} {o : Obs} (h : o ∈ r.tail) :
    (∀ b c, o ≠ .connected b c) ∧ ∀ p, o = .sent p → p ∈ r.res.out := by
  unfold Rec.tail at h
  simp only [List.mem_append, List.mem_map] at h
  rcases h with ⟨a, _, rfl⟩ | ⟨a, _, rfl⟩ | ⟨a, _, rfl⟩ | ⟨a, h, rfl⟩ <;> simp
  exact h

theorem conn_quiet (l : List Obs) (st : Option ConnParams) (h : ∀ o ∈ l, ∀ b c, o ≠ .connected b c) :
    l.foldl Obs.conn st = st := by
  induction l generalizing st with
  | nil => rfl
  | cons o l ih =>
    rw [List.foldl_cons, ih _ fun o ho => h o (List.mem_cons_of_mem _ ho)]
    have := h o List.mem_cons_self
    cases o with
    | connected b c => exact absurd rfl (this b c)
    | _ => rfl

theorem obs_eq (r : Rec) : r.obs =
    (match r.ev with | .resume c => [Obs.connected true c] | _ => []) ++ r.tail := rfl

theorem conn_rec (r : Rec) (c : ConnParams) : r.obs.foldl Obs.conn (some c) =
    some (match r.ev with | .resume c' => c' | _ => c) := by
  rw [obs_eq, List.foldl_append, conn_quiet _ _ fun o ho => (mem_tail ho).1]
  cases r.ev <;> rfl

theorem connIn_recs (recs : List Rec) (c : ConnParams) (b : Bool) :
    connIn (.connected b c :: recs.flatMap Rec.obs) = some (paramsOf c recs) := by
  unfold connIn
  rw [List.foldl_cons]
  show (recs.flatMap Rec.obs).foldl Obs.conn (some c) = _
  unfold paramsOf
  induction recs generalizing c with
  | nil => rfl
  | cons r recs ih =>
    rw [List.flatMap_cons, List.foldl_append, conn_rec, ih]
    rfl

/-- A packet sent in a life: the step that sends it. -/
theorem sent_split {recs : List Rec} {A B : List Obs} {o : OutPkt}
    (h : recs.flatMap Rec.obs = A ++ .sent o :: B) :
    ∃ R1 r R2 C D, recs = R1 ++ r :: R2 ∧ r.obs = C ++ .sent o :: D ∧
      A = R1.flatMap Rec.obs ++ C := by
  induction recs generalizing A with
  | nil => simp at h
  | cons r recs ih =>
    rw [List.flatMap_cons] at h
    rcases List.append_eq_append_iff.1 h with ⟨A2, h1, h2⟩ | ⟨B2, h1, h2⟩
    · obtain ⟨R1, r', R2, C, D, h3, h4, h5⟩ := ih h2
      refine ⟨r :: R1, r', R2, C, D, by rw [h3]; rfl, h4, ?_⟩
      rw [h1, h5, List.flatMap_cons, List.append_assoc]
    · cases B2 with
      | nil =>
        rw [List.nil_append] at h2
        rw [List.append_nil] at h1
        obtain ⟨R1, r', R2, C, D, h3, h4, h5⟩ := ih (A := []) h2.symm
        refine ⟨r :: R1, r', R2, C, D, by rw [h3]; rfl, h4, ?_⟩
        rw [List.flatMap_cons, List.append_assoc, ← h5, List.append_nil, h1]
      | cons b B2 =>
        rw [List.cons_append] at h2
        cases h2
        exact ⟨[], r, recs, A, B2, rfl, h1, rfl⟩

theorem rec_split {r : Rec} {C D : List Obs} {o : OutPkt} (h : r.obs = C ++ .sent o :: D)
    (c : ConnParams) : o ∈ r.res.out ∧
      C.foldl Obs.conn (some c) = some (match r.ev with | .resume c' => c' | _ => c) := by
  have key : ∀ C, r.tail = C ++ .sent o :: D → o ∈ r.res.out ∧ ∀ st, C.foldl Obs.conn st = st := by
    intro C h
    refine ⟨(mem_tail (o := .sent o) (by rw [h]; simp)).2 o rfl, fun st => conn_quiet _ _ fun o' ho => ?_⟩
    exact (mem_tail (by rw [h]; exact List.mem_append.2 (.inl ho))).1
  rw [obs_eq] at h
  cases hev : r.ev with
  | resume c' =>
    rw [hev] at h
    cases C with
    | nil => cases h
    | cons a C =>
      simp only [List.cons_append, List.nil_append, List.cons.injEq] at h
      obtain ⟨rfl, h⟩ := h
      obtain ⟨h1, h2⟩ := key C h
      exact ⟨h1, h2 _⟩
  | _ =>
    rw [hev] at h
    obtain ⟨h1, h2⟩ := key C h
    exact ⟨h1, h2 _⟩

/-- A packet sent in a life: the step that sends it and the connection it is sent on. -/
theorem sent_conn {recs : List Rec} {c : ConnParams} {A B : List Obs} {o : OutPkt}
    (h : .connected false c :: recs.flatMap Rec.obs = A ++ .sent o :: B) :
    ∃ R1 r R2, recs = R1 ++ r :: R2 ∧ o ∈ r.res.out ∧
      connIn A = some (paramsOf c (R1 ++ [r])) := by
  cases A with
  | nil => cases h
  | cons a A =>
    rw [List.cons_append, List.cons.injEq] at h
    obtain ⟨rfl, h⟩ := h
    obtain ⟨R1, r, R2, C, D, rfl, h1, rfl⟩ := sent_split h
    obtain ⟨h2, h3⟩ := rec_split h1 (paramsOf c R1)
    refine ⟨R1, r, R2, rfl, h2, ?_⟩
    have := connIn_recs R1 c false
    unfold connIn at this ⊢
    rw [← List.cons_append, List.foldl_append, this, h3, paramsOf_snoc]

/-! ## The receive maximum -/

theorem sendLoop_congr {P : Type} {exp exp' : P → Option Nat} (clk : Clock) (n : Nat) (q : Pending P)
    (i : Nat) (h : ∀ p ∈ q.packets.filterMap PStatus.msg?, exp p = exp' p) :
    q.sendLoop exp clk n i = q.sendLoop exp' clk n i := by
  induction n generalizing q i with
  | zero => rfl
  | succ n ih =>
    rw [Pending.sendLoop, Pending.sendLoop]
    split
    · rfl
    · rename_i j _
      split
      · rfl
      · rename_i s hs
        have hmem := List.mem_of_getElem? hs
        have h1 : s.attempt exp (clk.sent j) = s.attempt exp' (clk.sent j) := by
          cases s with
          | new a l pid p d =>
            have := h p (List.mem_filterMap.2 ⟨_, hmem, rfl⟩)
            simp only [PStatus.attempt, this]
          | _ => rfl
        have h2 : (s.attempt exp' (clk.sent j)).1.msg? = s.msg? := by
          cases s with
          | new a l pid p d =>
            simp only [PStatus.attempt]
            split
            · rfl
            · split <;> rfl
          | _ => rfl
        simp only [h1]
        rw [ih]
        intro p hp
        refine h p ?_
        rw [List.mem_filterMap] at hp ⊢
        obtain ⟨e, he, hp⟩ := hp
        rcases List.mem_or_eq_of_mem_set he with he | rfl
        · exact ⟨e, he, hp⟩
        · exact ⟨s, hmem, by rw [← h2]; exact hp⟩

theorem cleanComplete_msgs {P : Type} (q : Pending P) :
    ∀ p ∈ q.cleanComplete.packets.filterMap PStatus.msg?, p ∈ q.packets.filterMap PStatus.msg? := by
  intro p hp
  rw [List.mem_filterMap] at hp ⊢
  obtain ⟨e, he, hp⟩ := hp
  exact ⟨e, (List.dropWhile_sublist _).subset he, hp⟩

theorem step_congr {P : Type} {exp exp' : P → Option Nat} (s : Sender P) (op : SendOp P)
    (h : ∀ p ∈ s.msgs, exp p = exp' p) : s.step exp op = s.step exp' op := by
  cases op with
  | pass clk =>
    simp only [Sender.step, Pending.handlePendings]
    rw [sendLoop_congr clk _ _ 0 fun p hp => h p (cleanComplete_msgs _ p hp)]
  | _ => rfl

theorem trace_congr {P : Type} {exp exp' : P → Option Nat} (s : Sender P) (ops : List (SendOp P))
    (h : ∀ p ∈ s.msgs ++ delivered ops, exp p = exp' p) : s.trace exp ops = s.trace exp' ops := by
  induction ops generalizing s with
  | nil => rfl
  | cons op ops ih =>
    have h0 := step_congr s op fun p hp => h p (List.mem_append.2 (.inl hp))
    rw [Sender.trace, Sender.trace, h0, ih]
    intro p hp
    refine h p ?_
    have hd : ∀ q, q ∈ delivered [op] ∨ q ∈ delivered ops → q ∈ delivered (op :: ops) := by
      intro q hq
      cases op <;> simp_all [delivered]
    rcases List.mem_append.1 hp with hp | hp
    · rw [← h0] at hp
      rcases List.mem_append.1 ((step_msgs exp s op).subset hp) with hp | hp
      · exact List.mem_append.2 (.inl hp)
      · exact List.mem_append.2 (.inr (hd _ (.inl hp)))
    · exact List.mem_append.2 (.inr (hd _ (.inr hp)))

/-- The receive maximum after an input. -/
def Input.window (m : Nat) : Input → Nat
  | .reconnect (some m') => m'
  | _ => m

theorem receiveMax_inputs (ops : List OutOp) (m : Nat) :
    receiveMax m (queueOps ops) = (ops.filterMap OutOp.input).foldl Input.window m := by
  induction ops generalizing m with
  | nil => rfl
  | cons op ops ih =>
    cases op with
    | direct p => exact ih m
    | queue o =>
      cases o with
      | reconnect m' => cases m' <;> exact ih _
      | _ => exact ih m

theorem window_step {r : Rec} {ops : List OutOp} (h : WorksOff cfg .v5 r ops) (m : Nat) :
    receiveMax m (queueOps ops) = match r.ev with | .resume c => c.receiveMax | _ => m := by
  rw [receiveMax_inputs, h.inputs]
  have quiet : ∀ (l : List Input), (∀ i ∈ l, ∀ k, i ≠ .reconnect k) → l.foldl Input.window m = m := by
    intro l
    induction l with
    | nil => intros; rfl
    | cons i l ih =>
      intro h
      have := h i List.mem_cons_self
      have hi : i.window m = m := by
        cases i with
        | reconnect k => exact absurd rfl (this k)
        | _ => rfl
      rw [List.foldl_cons, hi]
      exact ih fun i hi => h i (List.mem_cons_of_mem _ hi)
  unfold Rec.inputs
  cases r.ev with
  | packet after n p =>
    refine quiet _ fun i hi k => ?_
    rintro rfl
    simp only at hi
    split at hi
    · cases p with
      | subscribe pid ts id =>
        simp only [InPkt.inputs] at hi
        split at hi
        · cases hi
        · rw [List.mem_map] at hi
          obtain ⟨_, _, h⟩ := hi
          cases h
      | _ => simp [InPkt.inputs] at hi
    · cases hi
  | normal n =>
    refine quiet _ fun i hi k => ?_
    rintro rfl
    simp only at hi
    split at hi
    · rw [Option.mem_toList, Option.map_eq_some_iff] at hi
      obtain ⟨_, _, h⟩ := hi
      cases h
    · cases hi
  | offline n =>
    refine quiet _ fun i hi k => ?_
    rintro rfl
    simp only at hi
    split at hi
    · cases hi
    · rw [Option.mem_toList, Option.map_eq_some_iff] at hi
      obtain ⟨_, _, h⟩ := hi
      cases h
  | resume c => rfl
  | _ => rfl

theorem log_receiveMax_v5 {recs : List Rec} {ops : List OutOp} (h : Log cfg .v5 recs ops)
    (c : ConnParams) : receiveMax c.receiveMax (queueOps ops) = (paramsOf c recs).receiveMax := by
  unfold paramsOf
  induction h generalizing c with
  | nil => rfl
  | @cons r recs ops rest hw _ ih =>
    rw [queueOps_append, receiveMax_append, window_step hw, List.foldl_cons, ← ih]
    cases r.ev <;> rfl

theorem log_messages {recs : List Rec} {ops : List OutOp} (h : Log cfg pr recs ops) {p : PubPacket}
    (hp : p ∈ delivered (queueOps ops)) : ∃ r ∈ recs, p ∈ r.messages cfg pr := by
  replace hp := mem_messagesOf (mem_delivered_queue hp)
  induction h with
  | nil => cases hp
  | @cons r recs ops rest hw _ ih =>
    rw [List.filterMap_append, List.filterMap_append, List.mem_append, hw.inputs] at hp
    rcases hp with hp | hp
    · exact ⟨r, List.mem_cons_self, hp⟩
    · obtain ⟨r', h1, h2⟩ := ih hp
      exact ⟨r', List.mem_cons_of_mem _ h1, h2⟩

/-- If no message expires, the receive maximum of the connection is kept. -/
theorem window_v5 {i : Str} {id : ClientId} {c : ConnParams} {evs : List (Env × Global × SessEv)}
    {recs : List Rec}
    (hrun : ({ session := Session.start cfg .v5 i id c } : Peer).run cfg ext .v5 evs = some recs)
    (hexp : ∀ r ∈ recs, ∀ p ∈ r.messages cfg .v5, p.props.messageExpiry = none) :
    (unanswered recs).length ≤ (paramsOf c recs).receiveMax := by
  have h := isRun_of_run hrun
  obtain ⟨ops, hl, _⟩ := log_of_isRun h
  have h2 := unanswered_run h hl (l := []) (l' := []) (fun _ h => h) List.nodup_nil
  refine Nat.le_trans (nodup_subset_length h2.2 h2.1) ?_
  show (outstanding [] ((Session.start cfg .v5 i id c).sender.trace _ _)).length ≤ _
  rw [start_sender, trace_congr (exp' := fun _ => none)]
  · refine Nat.le_trans (C10_receive_maximum_v3 _ _ _ _ _ (fun _ => rfl)) ?_
    rw [← log_receiveMax_v5 hl]
    exact Nat.le_refl _
  · intro p hp
    rcases List.mem_append.1 hp with hp | hp
    · cases hp
    · obtain ⟨r, h3, h4⟩ := log_messages hl hp
      exact hexp r h3 p h4

/-! ## The connection a session has now -/

variable {w : World} {evs : List Event}

theorem connIn_snoc (l : List Obs) (o : Obs) : connIn (l ++ [o]) = o.conn (connIn l) := by
  unfold connIn
  rw [List.foldl_append]
  rfl

theorem connIn_append (l m : List Obs) (hm : ∀ o ∈ m, ∀ b c, o ≠ .connected b c) :
    connIn (l ++ m) = connIn l := by
  unfold connIn
  rw [List.foldl_append, conn_quiet _ _ hm]

theorem connIn_sinceNew (l : List Obs) : connIn (sinceNew l) = connIn l := by
  induction l using snoc_induction with
  | nil => rfl
  | snoc l o ih =>
    have : sinceNew (l ++ [o]) = Obs.since (sinceNew l) o := by
      unfold sinceNew
      rw [List.foldl_append]
      rfl
    rw [this, connIn_snoc, ← ih]
    cases o with
    | connected b c => cases b <;> first | rfl | exact connIn_snoc ..
    | _ => exact connIn_snoc ..

theorem connIn_obsOf (chain : Chain) (evs : List Event) :
    connIn (obsOf chain evs) = (acceptedIn chain evs).getLast?.bind chain.get := by
  induction evs using snoc_induction with
  | nil => rfl
  | snoc evs e ih =>
    rw [obsOf_append, acceptedIn_append]
    have h1 : obsOf chain [e] = e.obs chain := by simp [obsOf]
    cases hc : e.isAccept with
    | false =>
      rw [h1, connIn_append _ _ (obs_not_accept hc), ih, acceptedIn_none (e := [e]), List.append_nil]
      intro t p hp
      rw [List.mem_singleton] at hp
      subst hp
      cases hc
    | true =>
      cases e with
      | accepted t p =>
        cases hg : chain.get t with
        | none =>
          have h2 : Event.obs chain (.accepted t p) = [] := by
            unfold Event.obs
            rw [show chain.get (Event.accepted t p).task = none from hg]
          have h3 : acceptedIn chain [.accepted t p] = [] := by simp [acceptedIn, hg]
          rw [h1, h2, h3, List.append_nil, List.append_nil, ih]
        | some c =>
          have h2 : Event.obs chain (.accepted t p) = [.connected p c] := by
            unfold Event.obs
            rw [show chain.get (Event.accepted t p).task = some c from hg]
          have h3 : acceptedIn chain [.accepted t p] = [t] := by simp [acceptedIn, hg]
          rw [h1, h2, h3, connIn_snoc, List.getLast?_concat, Option.bind_some, hg]
          rfl
      | _ => cases hc

theorem life_conn {acts : List Act} (h : Reaches cfg ext acts w evs) {t : TaskId} {x : Task}
    {s : Session} (hx : w.tasks.get t = some x) (hs : x.stage.owner? = some s)
    (hl : x.stage.lvl? = none) : connIn (lifeOf w x.req.identifier evs) = some x.req.params := by
  obtain ⟨u, y, h1, _, h2⟩ := LastInv.run h t x s hx hs
  rw [hl] at h2
  simp only at h2
  subst h2
  unfold lifeOf
  rw [connIn_sinceNew, connIn_obsOf, ← lastConn_eq, h1]
  exact under_self hx

end Akasa
