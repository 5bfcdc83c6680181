import Verif.Proof.WorldPend
/-! # Invariants of the whole broker: subscriptions in sessions and in the routing table -/
namespace Akasa

/-- The session of client and the table (`σ`) agree; with `full` false the table may have more. -/
def Agree (full : Bool) (σ : SubState) (s : Session) : Prop :=
  ∀ F, (∀ d, s.subs F = some d → σ F s.clientId = some d.opts.maxQos) ∧
    (full = true → s.subs F = none → σ F s.clientId = none)

/-- The routing table is the result of calls that agree with the sessions. -/
structure SubsOps (full : Bool) (w : World) (ops : List RouteOp) : Prop where
  run : RouteTable.empty.run ops = some w.route
  fresh : ∀ F id, w.registry.nextId ≤ id → subscribed ops F id = none
  agree : ∀ t x s, w.tasks.get t = some x → x.stage.owner? = some s → Agree full (subscribed ops) s
  owned : full = true → ∀ F id q, subscribed ops F id = some q →
    ∃ t, Tasks.owner w.tasks t = some id
  wf : ∀ t x s, w.tasks.get t = some x → x.stage.owner? = some s → FMap.WF s.subscribes

def SubsInv (full : Bool) (w : World) : Prop := ∃ ops, SubsOps full w ops

variable {cfg : Config} {ext : Ext} {w w' : World} {evs : List Event} {full : Bool}

/-- The same client with the same subscriptions. -/
structure SameSubs (s s' : Session) : Prop where
  client : s'.clientId = s.clientId
  subs : s'.subscribes = s.subscribes

theorem SameSubs.refl (s : Session) : SameSubs s s := ⟨rfl, rfl⟩

theorem SameSubs.of_core {s s' : Session} (h : s'.core = s.core) : SameSubs s s' :=
  ⟨(SameEnd.of_core h).client, core_subs h⟩

theorem SameSubs.trans {a b c : Session} (h : SameSubs a b) (h' : SameSubs b c) : SameSubs a c :=
  ⟨h'.1.trans h.1, h'.2.trans h.2⟩

theorem Agree.same {σ : SubState} {s s' : Session} (h : Agree full σ s) (hs : SameSubs s s') :
    Agree full σ s' := by
  intro F
  have := h F
  have e : s'.subs F = s.subs F := by unfold Session.subs; rw [hs.subs]
  rw [hs.client, e]
  exact this

theorem subscribed_other {ops l : List RouteOp} {id id' : ClientId} (hl : ∀ op ∈ l, op.client = id)
    (hne : id' ≠ id) (F : Str) : subscribed (ops ++ l) F id' = subscribed ops F id' := by
  induction l generalizing ops with
  | nil => rw [List.append_nil]
  | cons op l ih =>
    rw [List.append_cons, ih fun op' h => hl op' (List.mem_cons_of_mem _ h), subscribed_snoc]
    have := hl op List.mem_cons_self
    cases op with
    | sub f c q => simp only [RouteOp.client] at this; subst this; simp [SubState.step, hne]
    | unsub f c => simp only [RouteOp.client] at this; subst this; simp [SubState.step, hne]

theorem Agree.changes {ops : List RouteOp} {s s' : Session} {cs : List SubChange}
    (h : Agree full (subscribed ops) s) (hs : s'.subs = s.subs.after cs)
    (hc : s'.clientId = s.clientId) :
    Agree full (subscribed (ops ++ cs.map (·.op s.clientId))) s' := by
  have key : ∀ (cs : List SubChange) (ops : List RouteOp) (σ : Subs),
      (∀ F, (∀ d, σ F = some d → subscribed ops F s.clientId = some d.opts.maxQos) ∧
        (full = true → σ F = none → subscribed ops F s.clientId = none)) →
      ∀ F, (∀ d, σ.after cs F = some d →
          subscribed (ops ++ cs.map (·.op s.clientId)) F s.clientId = some d.opts.maxQos) ∧
        (full = true → σ.after cs F = none →
          subscribed (ops ++ cs.map (·.op s.clientId)) F s.clientId = none) := by
    intro cs
    induction cs with
    | nil => intro ops σ h F; simpa [Subs.after] using h F
    | cons c cs ih =>
      intro ops σ h F
      rw [List.map_cons, List.append_cons]
      refine ih (ops ++ [c.op s.clientId]) (σ.step c) ?_ F
      intro F'
      rw [subscribed_snoc]
      cases c with
      | set G d =>
        by_cases hF : F' = G
        · subst hF
          simp [Subs.step, SubChange.op, SubState.step]
        · simpa [Subs.step, SubChange.op, SubState.step, hF] using h F'
      | drop G =>
        by_cases hF : F' = G
        · subst hF
          simp [Subs.step, SubChange.op, SubState.step]
        · simpa [Subs.step, SubChange.op, SubState.step, hF] using h F'
  intro F
  rw [hs, hc]
  exact key cs ops s.subs h F

theorem owner_task {m : Tasks} {t : TaskId} {id : ClientId} (h : Tasks.owner m t = some id) :
    ∃ x s, FMap.get m t = some x ∧ x.stage.owner? = some s ∧ s.clientId = id := by
  unfold Tasks.owner at h
  cases hx : FMap.get m t with
  | none => rw [hx] at h; cases h
  | some x =>
    rw [hx] at h
    simp only [Option.bind_some, Option.map_eq_some_iff] at h
    obtain ⟨s, h1, h2⟩ := h
    exact ⟨x, s, rfl, h1, h2⟩

theorem owner_of {m : Tasks} {t : TaskId} {x : Task} {s : Session} (h : FMap.get m t = some x)
    (hs : x.stage.owner? = some s) : Tasks.owner m t = some s.clientId := by
  rw [(Tasks.views h).2.1, hs]; rfl

/-- A step without a call on the table. -/
theorem SubsOps.quiet {ops : List RouteOp} (h : SubsOps full w ops) (hr : w'.route = w.route)
    (hn : w.registry.nextId ≤ w'.registry.nextId)
    (ht : ∀ u y s', w'.tasks.get u = some y → y.stage.owner? = some s' →
      (∃ v z s, w.tasks.get v = some z ∧ z.stage.owner? = some s ∧
        (SameSubs s s' ∨ s'.clientId = s.clientId ∧ s'.subscribes = [] ∧
          (full = true → s.subscribes = []))) ∨
      (w.registry.nextId ≤ s'.clientId ∧ s'.subscribes = []))
    (hk : ∀ v z s, w.tasks.get v = some z → z.stage.owner? = some s →
      (∃ u, Tasks.owner w'.tasks u = some s.clientId) ∨ (full = true → s.subscribes = [])) :
    SubsOps full w' ops := by
  refine ⟨by rw [hr]; exact h.run, fun F id hid => h.fresh F id (Nat.le_trans hn hid), ?_, ?_, ?_⟩
  rotate_left
  · intro hf F id q hq
    obtain ⟨v, hv⟩ := h.owned hf F id q hq
    obtain ⟨z, s, hz, hs, rfl⟩ := owner_task hv
    rcases hk v z s hz hs with h1 | h1
    · exact h1
    · exfalso
      have := (h.agree v z s hz hs F).2 hf (by unfold Session.subs; rw [h1 hf]; rfl)
      rw [hq] at this; cases this
  · intro u y s' hy hs'
    rcases ht u y s' hy hs' with ⟨v, z, s, h1, h2, h3 | ⟨h3, h4, h5⟩⟩ | ⟨h3, h4⟩
    · rw [h3.subs]; exact h.wf v z s h1 h2
    · rw [h4]; exact FMap.wf_nil
    · rw [h4]; exact FMap.wf_nil
  intro u y s' hy hs'
  rcases ht u y s' hy hs' with ⟨v, z, s, h1, h2, h3 | ⟨h3, h4, h5⟩⟩ | ⟨h3, h4⟩
  · exact (h.agree v z s h1 h2).same h3
  · intro F
    have e : s'.subs F = none := by unfold Session.subs; rw [h4]; rfl
    rw [e]
    refine ⟨fun d hd => (by cases hd), fun hf _ => ?_⟩
    rw [h3]
    refine (h.agree v z s h1 h2 F).2 hf ?_
    unfold Session.subs; rw [h5 hf]; rfl
  · intro F
    have e : s'.subs F = none := by unfold Session.subs; rw [h4]; rfl
    rw [e]
    exact ⟨fun d hd => (by cases hd), fun _ _ => h.fresh F _ h3⟩

/-- A step of one task without a call on the table. -/
theorem SubsOps.one {ops : List RouteOp} (h : SubsOps full w ops) {t : TaskId} {x' : Task}
    (htask : w'.tasks = w.tasks.insert t x') (hr : w'.route = w.route)
    (hn : w.registry.nextId ≤ w'.registry.nextId)
    (ht : ∀ s', x'.stage.owner? = some s' →
      (∃ v z s, w.tasks.get v = some z ∧ z.stage.owner? = some s ∧
        (SameSubs s s' ∨ s'.clientId = s.clientId ∧ s'.subscribes = [] ∧
          (full = true → s.subscribes = []))) ∨
      (w.registry.nextId ≤ s'.clientId ∧ s'.subscribes = []))
    (hk : ∀ z s, w.tasks.get t = some z → z.stage.owner? = some s →
      (∃ s', x'.stage.owner? = some s' ∧ s'.clientId = s.clientId) ∨
        (full = true → s.subscribes = [])) :
    SubsOps full w' ops := by
  refine h.quiet hr hn ?_ ?_
  rotate_left
  · intro v z s hz hs
    by_cases hv : t = v
    · subst hv
      rcases hk z s hz hs with ⟨s', h1, h2⟩ | h1
      · left
        refine ⟨t, ?_⟩
        rw [htask, Tasks.owner_insert, if_pos rfl, h1, ← h2]
        rfl
      · exact .inr h1
    · left
      refine ⟨v, ?_⟩
      rw [htask, Tasks.owner_insert, if_neg hv]
      exact owner_of hz hs
  intro u y s' hy hs'
  rw [htask, FMap.get_insert] at hy
  split at hy
  · cases hy; exact ht s' hs'
  · exact .inl ⟨u, y, s', hy, hs', .inl (.refl _)⟩

/-- A step of one task with calls on the table for its client. -/
theorem SubsOps.acts {ops l : List RouteOp} (h : SubsOps full w ops) (ho : OInv w) {t : TaskId}
    {x x' : Task} {s : Session} (hx : w.tasks.get t = some x) (hs : x.stage.session? = some s)
    (htask : w'.tasks = w.tasks.insert t x')
    (hl : ∀ op ∈ l, op.client = s.clientId) (hr : w.route.run l = some w'.route)
    (hn : w'.registry.nextId = w.registry.nextId)
    (ht : ∀ s', x'.stage.owner? = some s' → Agree full (subscribed (ops ++ l)) s')
    (hk : (∃ s', x'.stage.owner? = some s' ∧ s'.clientId = s.clientId) ∨
      (full = true → ∀ F, subscribed (ops ++ l) F s.clientId = none))
    (hwf : ∀ s', x'.stage.owner? = some s' → FMap.WF s'.subscribes) :
    SubsOps full w' (ops ++ l) := by
  have hid : s.clientId < w.registry.nextId :=
    ho.below t s.clientId (by rw [(Tasks.views hx).1, hs]; rfl)
  refine ⟨by rw [run_append, h.run]; exact hr, ?_, ?_, ?_, ?_⟩
  rotate_left 3
  · intro u y s' hy hs'
    rw [htask, FMap.get_insert] at hy
    split at hy
    · cases hy; exact hwf s' hs'
    · exact h.wf u y s' hy hs'
  rotate_left 2
  · intro hf F id q hq
    by_cases he : id = s.clientId
    · subst he
      rcases hk with ⟨s', h1, h2⟩ | h1
      · refine ⟨t, ?_⟩
        rw [htask, Tasks.owner_insert, if_pos rfl, h1, ← h2]
        rfl
      · rw [h1 hf] at hq; cases hq
    · rw [subscribed_other hl he] at hq
      obtain ⟨v, hv⟩ := h.owned hf F id q hq
      refine ⟨v, ?_⟩
      rw [htask, Tasks.owner_insert, if_neg]
      · exact hv
      · rintro rfl
        obtain ⟨z, s', hz, hs', rfl⟩ := owner_task hv
        rw [hx] at hz; cases hz
        apply he
        cases hst : x.stage <;> rw [hst] at hs hs' <;>
          simp only [Stage.session?, Stage.owner?, Option.some.injEq, reduceCtorEq] at hs hs' <;>
          rw [← hs, ← hs']
  · intro F id hle
    rw [hn] at hle
    rw [subscribed_other hl (Nat.ne_of_gt (Nat.lt_of_lt_of_le hid hle))]
    exact h.fresh F id hle
  · intro u y s' hy hs'
    rw [htask, FMap.get_insert] at hy
    split at hy
    · cases hy; exact ht s' hs'
    · rename_i hne
      have := other_client ho hx hs hy hs' (Ne.symm hne)
      intro F
      rw [subscribed_other hl this]
      exact h.agree u y s' hy hs' F

theorem start_subs (cfg : Config) (pr : Proto) (name : Str) (id : ClientId) (c : ConnParams) :
    (Session.start cfg pr name id c).subscribes = [] := by cases pr <;> rfl

theorem pendings_same {pr : Proto} {clk : Clock} {s0 s : Session} {out : List OutPkt}
    (h : handlePendingsOf pr clk s0 = (s, out)) : SameSubs s0 s := by
  have := core_pendings pr clk s0
  rw [h] at this
  exact .of_core this

theorem setSession_same {st : Stage} {s s' s'' : Session} (hst : st.sending? = some s)
    (ho : (st.setSession s').owner? = some s'') (h : SameSubs s s') :
    ∃ s0, st.owner? = some s0 ∧ SameSubs s0 s'' := by
  cases st <;> simp only [Stage.sending?, Option.some.injEq, reduceCtorEq, Stage.setSession,
    Stage.owner?] at hst ho ⊢ <;> subst hst ho <;> exact ⟨_, rfl, h⟩

theorem setSession_none {st : Stage} {s s' : Session} (hst : st.sending? = some s)
    (ho : (st.setSession s').owner? = none) (s0 : Session) (h0 : st.owner? = some s0) :
    full = true → s0.subscribes = [] := by
  cases st <;> simp [Stage.sending?, Stage.setSession, Stage.owner?] at hst ho h0

/-- Either only subscriptions or only the opposite. -/
def OneWay (l : List RouteOp) : Prop :=
  (∀ op ∈ l, ∃ F id q, op = .sub F id q) ∨ ∀ op ∈ l, ∃ F id, op = .unsub F id

theorem oneWay_changes (cfg : Config) (pr : Proto) (n : Nat) (p : InPkt) (id : ClientId) :
    OneWay ((if n ≤ cfg.maxPacketSizeServer then p.changes cfg pr else []).map (·.op id)) := by
  split
  · cases p with
    | subscribe pid ts sid =>
      left
      intro op hop
      simp only [InPkt.changes, List.map_map, List.mem_map] at hop
      obtain ⟨x, _, rfl⟩ := hop
      exact ⟨_, _, _, rfl⟩
    | unsubscribe pid ts =>
      right
      intro op hop
      simp only [InPkt.changes, List.map_map, List.mem_map] at hop
      obtain ⟨x, _, rfl⟩ := hop
      exact ⟨_, _, rfl⟩
    | _ => exact .inl (fun op hop => by cases hop)
  · exact .inl (fun op hop => by cases hop)

/-- The calls of a step. -/
inductive StepCalls (cfg : Config) (w : World) (a : Act) (l : List RouteOp) : Prop where
  | quiet (hl : l = [])
  | packet (t : TaskId) (env : Env) (after : Clock) (size : Nat) (p : InPkt) (x : Task) (s : Session)
      (ha : a = .packet t env after size p) (hx : w.tasks.get t = some x)
      (hst : x.stage = .online s)
      (hl : l = (if size ≤ cfg.maxPacketSizeServer then p.changes cfg x.req.level.proto else []).map
        (·.op s.clientId))
  | leave (t : TaskId) (x : Task) (s : Session) (hx : w.tasks.get t = some x)
      (hst : x.stage.owner? = some s ∨ x.stage = .expired s)
      (hl : l = s.subscribes.keys.map fun f => .unsub f s.clientId)

theorem SubsOps.case {a : Act} {ops : List RouteOp} (h : SubsOps full w ops) (ho : OInv w)
    (hc : WCase cfg ext w a w' evs)
    (hf : full = true → ∀ t old, Event.discarded t old ∈ evs → old.subscribes = []) :
    ∃ l, SubsOps full w' (ops ++ l) ∧ OneWay l ∧ StepCalls cfg w a l := by
  have same : SubsOps full w' ops → ∃ l, SubsOps full w' (ops ++ l) ∧ OneWay l ∧ StepCalls cfg w a l :=
    fun h => ⟨[], by rw [List.append_nil]; exact h, .inl (fun op hop => by cases hop), .quiet rfl⟩
  have keep : ∀ {t : TaskId} {x x' : Task}, w.tasks.get t = some x →
      w'.tasks = w.tasks.insert t x' → w'.route = w.route →
      w.registry.nextId ≤ w'.registry.nextId →
      (∀ s', x'.stage.owner? = some s' → ∃ s, x.stage.owner? = some s ∧ SameSubs s s') →
      (x'.stage.owner? = none → ∀ s, x.stage.owner? = some s →
        full = true → s.subscribes = []) →
      ∃ l, SubsOps full w' (ops ++ l) ∧ OneWay l ∧ StepCalls cfg w a l := by
    intro t x x' hx h1 h2 h3 h4 h7
    refine same (h.one h1 h2 h3 (fun s' hs' => ?_) fun z s hz hs => ?_)
    · obtain ⟨s, h5, h6⟩ := h4 s' hs'
      exact .inl ⟨t, x, s, hx, h5, .inl h6⟩
    · rw [hx] at hz; cases hz
      cases hs' : x'.stage.owner? with
      | none => exact .inr (h7 hs' s hs)
      | some s' =>
        obtain ⟨s0, h5, h6⟩ := h4 s' hs'
        rw [hs] at h5; cases h5
        exact .inl ⟨s', rfl, h6.client⟩
  have leave : ∀ {t : TaskId} {x x' : Task} {s : Session} {r : Registry} {route : RouteTable},
      w.tasks.get t = some x → x.stage.session? = some s →
      x.stage.owner? = some s ∨ x.stage = .expired s →
      removeClient w.registry w.route s.clientId s.subscribes.keys = some (r, route) →
      w'.registry = r → w'.route = route → w'.tasks = w.tasks.insert t x' →
      x'.stage.owner? = none →
      ∃ l, SubsOps full w' (ops ++ l) ∧ OneWay l ∧ StepCalls cfg w a l := by
    intro t x x' s r route hx hs hso hrem h1 h2 h3 h4
    obtain ⟨h5, h6⟩ := removeClient_run hrem
    refine ⟨_, h.acts ho hx hs h3 ?_ (by rw [h2]; exact h6) ?_ ?_ ?_
      (fun s' hs' => by rw [h4] at hs'; cases hs'), .inr (fun op hop => by
      obtain ⟨f, _, rfl⟩ := List.mem_map.1 hop; exact ⟨f, _, rfl⟩), .leave t x s hx hso rfl⟩
    · intro op hop
      obtain ⟨f, _, rfl⟩ := List.mem_map.1 hop
      rfl
    · rw [h1]; exact (ho.reg.remove_get h5).1
    · intro s' hs'; rw [h4] at hs'; cases hs'
    · right
      intro hfull F
      rw [subscribed_unsubs]
      split
      · rfl
      · rename_i hF
        have hF : F ∉ s.subscribes.keys := fun h => hF ⟨rfl, h⟩
        have hid : Tasks.client w.tasks t = some s.clientId := by rw [(Tasks.views hx).1, hs]; rfl
        cases hq : subscribed ops F s.clientId with
        | none => rfl
        | some q =>
          obtain ⟨v, hv⟩ := h.owned hfull F _ q hq
          obtain ⟨z, s', hz, hs', he⟩ := owner_task hv
          have hvt : v = t := by
            apply Classical.byContradiction
            intro hne
            exact other_client ho hx hs hz hs' hne he
          subst hvt
          rw [hx] at hz; cases hz
          have hss : s' = s := by
            cases hst : x.stage <;> rw [hst] at hs hs' <;>
              simp only [Stage.session?, Stage.owner?, Option.some.injEq, reduceCtorEq] at hs hs' <;>
              rw [← hs, ← hs']
          subst hss
          have := (h.agree v x s' hx hs' F).2 hfull ((FMap.get_eq_none_iff _ _).2 hF)
          rw [hq] at this; cases this
  have noTask : ∀ z, w.tasks.get w.nextTask ≠ some z := by
    intro z hz
    exact Nat.lt_irrefl _ (ho.fresh w.nextTask (by rw [(Tasks.views hz).2.2.2.1]; simp))
  cases hc with
  | idle => exact same (h)
  | fresh req env r id hadd hw s out hs =>
    refine same (h.one rfl rfl ?_ ?_ fun z s hz => (noTask z hz).elim)
    · cases ho.reg.add_cases hadd
      exact Nat.le_succ _
    · intro s' hs'
      cases hs'
      right
      have h1 := pendings_same hs
      have h2 := start_ids cfg req.level.proto req.identifier id req.params
      rw [h1.client, h1.subs, start_subs, h2.1]
      cases ho.reg.add_cases hadd
      exact ⟨Nat.le_refl _, rfl⟩
  | stillborn req env wr r id hadd =>
    refine same (h.one rfl rfl ?_ (fun s' hs' => by cases hs') fun z s hz => (noTask z hz).elim)
    cases ho.reg.add_cases hadd
    exact Nat.le_succ _
  | wait req env wr r id q hadd hq =>
    refine same (h.one rfl rfl ?_ (fun s' hs' => by cases hs') fun z s hz => (noTask z hz).elim)
    cases ho.reg.add_cases hadd
    exact Nat.le_refl _
  | locked req env wr r id hadd hq =>
    refine same (h.one rfl rfl ?_ (fun s' hs' => by cases hs') fun z s hz => (noTask z hz).elim)
    cases ho.reg.add_cases hadd
    exact Nat.le_refl _
  | accept t env x old level hx hst hw s0 present h0 s out hs =>
    have hid : s.clientId = old.clientId := by
      have := (pendings_same hs).client
      rw [this, ← session_client cfg x.req old level, h0]
    refine same (h.one rfl rfl (Nat.le_refl _) ?_ ?_)
    rotate_left
    · intro z s1 hz hs1
      rw [hx] at hz; cases hz
      rw [hst] at hs1; cases hs1
      exact .inl ⟨s, rfl, hid⟩
    intro s' hs'
    cases hs'
    left
    refine ⟨t, x, old, hx, by rw [hst]; rfl, ?_⟩
    have h1 := pendings_same hs
    unfold Request.session at h0
    split at h0
    · cases h0
      left
      exact ⟨h1.client.trans (resume_client ..), h1.subs.trans (resume_subs ..)⟩
    · cases h0
      right
      refine ⟨h1.client.trans (start_ids ..).1, h1.subs.trans (start_subs ..), fun hfull => ?_⟩
      exact hf hfull t old (by simp)
  | refused t env wr x old level hx hst =>
    refine keep hx rfl rfl (Nat.le_refl _) (fun s' hs' => by cases hs') ?_
    intro _ s hs hfull
    rw [hst] at hs; cases hs
    exact hf hfull t old (by simp)
  | packet t env after size p x s hx hst hd r hr =>
    obtain ⟨r0, h0, hcore, _, hg, _, hcl⟩ := onPacket_handled hr
    have hm := (moves_packet h0).of_core hcore
    rw [← hg] at hm
    refine ⟨_, h.acts ho hx (s := s) (by rw [hst]; rfl) rfl ?_ hm.route rfl ?_ ?_
      ?_, oneWay_changes .., .packet t env after size p x s rfl hx hst rfl⟩
    · intro op hop
      obtain ⟨c, _, rfl⟩ := List.mem_map.1 hop
      cases c <;> rfl
    · intro s' hs'
      have he : s' = r.session := by
        simp only at hs'
        split at hs' <;> cases hs' <;> rfl
      subst he
      exact (h.agree t x s hx (by rw [hst]; rfl)).changes hm.subs hm.client
    · left
      refine ⟨r.session, ?_, hm.client⟩
      simp only
      split <;> rfl
    · intro s' hs'
      have he : s' = r.session := by
        simp only at hs'
        split at hs' <;> cases hs' <;> rfl
      subst he
      exact hm.wf (h.wf t x s hx (by rw [hst]; rfl))
  | normalOn t env x s hx hst hd src m rest hi =>
    exact keep hx rfl rfl (Nat.le_refl _) (fun s' hs' => by
      cases hs'
      exact ⟨s, by rw [hst]; rfl, .of_core (core_onNormal ..)⟩) fun h => by cases h
  | normalOff t env x s hx hst hd src m rest hi =>
    exact keep hx rfl rfl (Nat.le_refl _) (fun s' hs' => by
      cases hs'
      exact ⟨s, by rw [hst]; rfl, .of_core (core_normal ..)⟩) fun h => by cases h
  | handOn t env x s hx hst b y q hq hy =>
    have hyw := (ho.requester hq hy).1
    refine same (h.quiet rfl (Nat.le_refl _) ?_ ?_)
    rotate_left
    · intro v z s1 hz hs1
      left
      by_cases hv : v = t
      · subst hv
        rw [hx] at hz; cases hz
        rw [hst] at hs1; cases hs1
        refine ⟨b, ?_⟩
        simp only
        rw [Tasks.owner_insert, if_pos rfl]
        exact congrArg some rfl
      · refine ⟨v, ?_⟩
        simp only
        rw [Tasks.owner_insert, if_neg, Tasks.owner_insert, if_neg (Ne.symm hv)]
        · exact owner_of hz hs1
        · rintro rfl
          rw [hy] at hz; cases hz
          rw [hyw] at hs1; cases hs1
    intro u z s' hz hs'
    simp only [FMap.get_insert] at hz
    split at hz
    · cases hz; cases hs'
      exact .inl ⟨t, x, s, hx, by rw [hst]; rfl, .inl (.refl _)⟩
    · split at hz
      · cases hz; cases hs'
      · exact .inl ⟨u, z, s', hz, hs', .inl (.refl _)⟩
  | handOff t env x s hx hst hd b y q hq hy msgs inbox hm =>
    have hyw := (ho.requester hq hy).1
    refine same (h.quiet rfl (Nat.le_refl _) ?_ ?_)
    rotate_left
    · intro v z s1 hz hs1
      left
      by_cases hv : v = t
      · subst hv
        rw [hx] at hz; cases hz
        rw [hst] at hs1; cases hs1
        refine ⟨b, ?_⟩
        simp only
        rw [Tasks.owner_insert, if_pos rfl]
        exact congrArg some (SameSubs.of_core (core_drain ..)).client
      · refine ⟨v, ?_⟩
        simp only
        rw [Tasks.owner_insert, if_neg, Tasks.owner_insert, if_neg (Ne.symm hv)]
        · exact owner_of hz hs1
        · rintro rfl
          rw [hy] at hz; cases hz
          rw [hyw] at hs1; cases hs1
    intro u z s' hz hs'
    simp only [FMap.get_insert] at hz
    split at hz
    · cases hz; cases hs'
      exact .inl ⟨t, x, s, hx, by rw [hst]; rfl, .inl (.of_core (core_drain ..))⟩
    · split at hz
      · cases hz; cases hs'
      · exact .inl ⟨u, z, s', hz, hs', .inl (.refl _)⟩
  | deny t env x s hx hst pr b y q hq hpr hy =>
    refine keep hy rfl rfl (Nat.le_refl _) (fun s' hs' => by cases hs') ?_
    intro _ s1 hs1
    have hw := (ho.requester hq hy).1
    rw [hw] at hs1; cases hs1
  | ignored t env x s hx hst c q hq hc =>
    exact same (h.quiet rfl (Nat.le_refl _) (fun u y s' hy hs' =>
      .inl ⟨u, y, s', hy, hs', .inl (.refl _)⟩) fun v z s1 hz hs1 => .inl ⟨v, owner_of hz hs1⟩)
  | kicked t env x s hx hst q hq =>
    exact keep hx rfl rfl (Nat.le_refl _) (fun s' hs' => by
      cases hs'
      exact ⟨s, by rw [hst]; rfl, .refl _⟩) fun h => by cases h
  | expire t env x s hx hst hd time q hq hpr ht s' g m hw r route hrem =>
    rw [hw.route] at hrem
    exact leave hx (by rw [hst]; rfl) (.inl (by rw [hst]; rfl)) hrem rfl rfl rfl rfl
  | lateWill t env x s hx hst hd time q hq hpr ht s' g m hw =>
    exact keep hx rfl hw.route (Nat.le_refl _) (fun s'' hs'' => by
      cases hs''
      exact ⟨s, by rw [hst]; rfl, hw.client, hw.subs⟩) fun h => by cases h
  | lose t x s hx hst =>
    exact keep hx rfl rfl (Nat.le_refl _) (fun s' hs' => by
      cases hs'
      exact ⟨s, by rw [hst]; rfl, .refl _⟩) fun h => by cases h
  | closeQuiet t env lost x s hx hst hd =>
    exact keep hx rfl rfl (Nat.le_refl _) (fun s' hs' => by
      cases hs'
      exact ⟨s, by rw [hst]; rfl, .refl _⟩) fun h => by cases h
  | closeWill t env lost x s hx hst hd hp s' g m hw =>
    exact keep hx rfl hw.route (Nat.le_refl _) (fun s'' hs'' => by
      cases hs''
      exact ⟨s, by rw [hst]; rfl, hw.client, hw.subs⟩) fun h => by cases h
  | closeDelayed t env lost x s hx hst hd hp =>
    exact keep hx rfl rfl (Nat.le_refl _) (fun s' hs' => by
      cases hs'
      exact ⟨s, by rw [hst]; rfl, .refl _⟩) fun h => by cases h
  | push t d x s hx hst m rest hq hk =>
    exact keep hx rfl rfl (Nat.le_refl _) (fun s' hs' => setSession_same hst hs' ⟨rfl, rfl⟩) (setSession_none hst)
  | flush t d x hx m q hk hi hl =>
    exact keep (x' := { x with sinks := x.sinks.erase d }) hx rfl rfl (Nat.le_refl _)
      (fun s' hs' => ⟨s', hs', .refl _⟩) (fun h s hs => by rw [show x.stage.owner? = none from h] at hs; cases hs)
  | giveUp t d x s hx hst hi =>
    exact keep hx rfl rfl (Nat.le_refl _) (fun s' hs' => setSession_same hst hs' ⟨rfl, rfl⟩) (setSession_none hst)
  | remove t x s hx hst hd r route hrem =>
    exact leave hx (by rcases hst with ⟨hst, _⟩ | hst <;> rw [hst] <;> rfl)
      (hst.imp (fun h => by rw [h.1]; rfl) id) hrem rfl rfl rfl rfl
  | rest t x s hx hst hd he r hr timers htm =>
    refine keep hx rfl rfl (Nat.le_of_eq (Registry.Inv.offline_get hr).2.symm)
      (fun s' hs' => ?_) (fun h => by cases h)
    cases hs'
    exact ⟨s, by rw [hst]; rfl, .refl _⟩
  | fire i tm ht _ hw =>
    rcases hw with ⟨rfl, _⟩ | ⟨q, _, _, rfl⟩ <;>
      exact same (h.quiet rfl (Nat.le_refl _) (fun u y s' hy hs' =>
        .inl ⟨u, y, s', hy, hs', .inl (.refl _)⟩) fun v z s1 hz hs1 => .inl ⟨v, owner_of hz hs1⟩)
  | kick id q hr hq =>
    exact same (h.quiet rfl (Nat.le_refl _) (fun u y s' hy hs' =>
      .inl ⟨u, y, s', hy, hs', .inl (.refl _)⟩) fun v z s1 hz hs1 => .inl ⟨v, owner_of hz hs1⟩)

theorem SubsInv.case {a : Act} (h : SubsInv full w) (ho : OInv w) (hc : WCase cfg ext w a w' evs)
    (hf : full = true → ∀ t old, Event.discarded t old ∈ evs → old.subscribes = []) :
    SubsInv full w' := by
  obtain ⟨ops, h⟩ := h
  obtain ⟨l, h, _⟩ := h.case ho hc hf
  exact ⟨_, h⟩

theorem SubsInv.init : SubsInv full {} :=
  ⟨[], rfl, fun _ _ _ => rfl, (fun t x s hx => by cases hx), fun _ F id q hq => (by cases hq), fun t x s hx => by cases hx⟩

theorem subsInv_run {acts : List Act} (h : World.run cfg ext {} acts = some (w, evs))
    (hf : full = true → ∀ t old, Event.discarded t old ∈ evs → old.subscribes = []) :
    SubsInv full w := by
  have key := world_induction (P := fun w evs => BrokerInv w ∧
    ((full = true → ∀ t old, Event.discarded t old ∈ evs → old.subscribes = []) → SubsInv full w))
    ⟨.init, fun _ => .init⟩ ?_ h
  · exact key.2 hf
  · rintro w evs a w' e ⟨hi, h1⟩ hs
    refine ⟨hi.step hs, fun hf => ?_⟩
    refine (h1 fun hfull t old hm => hf hfull t old (List.mem_append_left _ hm)).case hi.own
      (step_cases hs) fun hfull t old hm => hf hfull t old (List.mem_append_right _ hm)

end Akasa
