import Verif.Spec.SharedOnce
import Verif.Proof.Selective
import Verif.Proof.WorldReach
import Verif.Props.Agree
/-! # Copies for shared subscriptions -/
namespace Akasa
open RouteNode

variable {cfg : Config} {ext : Ext} {pr : Proto} {env : Env} {w w' : World} {evs e : List Event}

/-! ## Groups in the table, whatever was called -/

theorem RouteContent.wf_add {c c' : RouteContent} {f : Str} {id : ClientId} {q : QoS}
    {g : Option Str} (h : FMap.WF c.groups) (ha : c.add f id q g = some c') :
    FMap.WF c'.groups := by
  unfold RouteContent.add at ha
  simp only at ha
  split at ha
  · split at ha
    · cases ha
    · cases ha
      exact FMap.wf_insert h _ _
  · cases ha
    exact h

theorem RouteContent.wf_del {c c' : RouteContent} {id : ClientId} {g : Option Str}
    (h : FMap.WF c.groups) (ha : c.del id g = some c') : FMap.WF c'.groups := by
  unfold RouteContent.del at ha
  simp only [Option.map_eq_some_iff] at ha
  obtain ⟨d, h1, h2⟩ := ha
  have hd : FMap.WF d.groups := by
    split at h1
    · split at h1
      · cases h1; exact h
      · split at h1
        · cases h1
        · split at h1
          · cases h1; exact FMap.wf_erase h _
          · cases h1; exact FMap.wf_insert h _ _
    · cases h1
      exact h
  subst h2
  split
  · exact hd
  · exact hd

/-- Each group is there once. -/
def RouteTable.GroupsOnce (t : RouteTable) : Prop := ∀ p, FMap.WF (t.root.contentAt p).groups

theorem groupsOnce_step {t t' : RouteTable} {op : RouteOp} (hc : t.root.Clean) (h : t.GroupsOnce)
    (hs : t.step op = some t') : t'.GroupsOnce := by
  cases op with
  | sub F id q =>
    rw [step_sub_eq] at hs
    generalize RouteOp.target F = tg at hs
    obtain ⟨f, g⟩ := tg
    simp only at hs
    cases ha : (t.root.contentAt (levels f)).add f id q g with
    | none => rw [RouteTable.subscribeShared_none ha] at hs; cases hs
    | some c' =>
      obtain ⟨t1, h1, h2⟩ := RouteTable.subscribeShared_some ha
      rw [hs] at h1; cases h1
      intro p
      rw [h2]
      split
      · exact RouteContent.wf_add (h _) ha
      · exact h p
  | unsub F id =>
    rw [step_unsub_eq] at hs
    generalize RouteOp.target F = tg at hs
    obtain ⟨f, g⟩ := tg
    simp only at hs
    cases ha : (t.root.contentAt (levels f)).del id g with
    | none => rw [RouteTable.unsubscribeShared_none ha] at hs; cases hs
    | some c' =>
      obtain ⟨t1, h1, h2⟩ := RouteTable.unsubscribeShared_some hc ha
      rw [hs] at h1; cases h1
      intro p
      rw [h2]
      split
      · exact RouteContent.wf_del (h _) ha
      · exact h p

theorem groupsOnce_run {ops : List RouteOp} {t : RouteTable}
    (h : RouteTable.empty.run ops = some t) : t.GroupsOnce := by
  suffices ∀ (ops : List RouteOp) (t0 t : RouteTable) (σ : SubState), RInv σ t0 → t0.GroupsOnce →
      t0.run ops = some t → t.GroupsOnce by
    refine this ops _ t _ RInv.empty (fun p => ?_) h
    have h0 : RouteTable.empty.root.contentAt p = RouteContent.empty := contentAt_new p
    rw [h0]
    exact FMap.wf_nil
  intro ops
  induction ops with
  | nil => intro t0 t σ _ h1 h2; cases h2; exact h1
  | cons op ops ih =>
    intro t0 t σ h0 h1 h2
    simp only [RouteTable.run] at h2
    cases hst : t0.step op with
    | none => rw [hst] at h2; cases h2
    | some t1 =>
      rw [hst] at h2
      exact ih t1 t _ (h0.step hst) (groupsOnce_step h0.clean h1 hst) h2

/-- The shared reasons, whatever was called. -/
theorem groupCause_any {ops : List RouteOp} {t : RouteTable} {topic : Str}
    (htab : RouteTable.empty.run ops = some t) (hv : ValidTopic topic)
    {pick : Str → Str → Nat} {id : ClientId} {F : Str} {q : QoS} :
    (∃ c ∈ t.getMatches topic, ∃ f, c.topicFilter = some f ∧
      ∃ g sc, (g, sc) ∈ c.groups ∧ F = fullFilter g f ∧
         sc.getByNumber (pick g f) = some (id, q)) ↔
    ∃ g f, '/' ∉ g ∧ F = shareFilter g f ∧ Matches f topic ∧
      selOf t pick g f = some (id, q) := by
  have hr := RInv.empty.run htab
  constructor
  · rintro ⟨c, hc, f, hf, g, sc, hm, rfl, hn⟩
    obtain ⟨f', h1, h2, h3, h4⟩ := (RouteTable.mem_getMatches hv hr.tf).mp hc
    rw [hf] at h3; cases h3
    rw [h2] at hm
    refine ⟨g, f, named_run htab _ _ hm, rfl, h1, ?_⟩
    unfold selOf; rw [FMap.get_of_mem (groupsOnce_run htab _) hm]; exact hn
  · rintro ⟨g, f, hg, rfl, hm, hsel⟩
    unfold selOf at hsel
    rw [Option.bind_eq_some_iff] at hsel
    obtain ⟨sc, hget, hsel⟩ := hsel
    have hmem := FMap.mem_of_get hget
    have he := isEmpty_of_group hmem
    obtain ⟨f', h1, h2⟩ := hr.tf _ he
    have := levels_injective h2; subst this
    exact ⟨_, (RouteTable.mem_getMatches hv hr.tf).mpr ⟨f', hm, rfl, h1, he⟩, f', h1, g, sc, hmem,
      rfl, hsel⟩

/-! ## One call of routing -/

theorem send_shared {g g' : Global} {s s' : Session} {m : SendPub} {n : Nat}
    (h : sendOf pr env g s m = some (s', g', n)) {ops : List RouteOp}
    (htab : RouteTable.empty.run ops = some g.route) (hv : ValidTopic m.topic) (id : ClientId) :
    ∃ l, s'.queue id = s.queue id ++ l ∧
      (∀ c ∈ l, ∀ G f, '/' ∉ G → c.names (shareFilter G f) →
        pr = .v5 ∧ l = [c] ∧ ∃ q, selOf g.route env.pick G f = some (id, q)) ∧
      (pr = .v5 → g.registered id = true → ∀ G f q, '/' ∉ G → Matches f m.topic →
        selOf g.route env.pick G f = some (id, q) →
        ∃ c ∈ l, IsCopyFor m (shareFilter G f) q c ∧ c.names (shareFilter G f)) := by
  have hri := RInv.empty.run htab
  by_cases hr : Reachable g.registered s id
  case neg =>
    refine ⟨[], ?_, (fun c hc => by cases hc), fun _ hreg => absurd (.inl hreg) hr⟩
    rw [List.append_nil]
    cases pr
    · simp only [sendOf, sendPublishV3] at h
      cases hl : collectV3 (g.route.getMatches m.topic) with
      | none => rw [hl] at h; cases h
      | some l =>
        rw [hl] at h
        simp only [Option.map_some, Option.some.injEq, Prod.mk.injEq] at h
        obtain ⟨rfl, _, _⟩ := h
        have hq := queued_pushCopies s g.registered (l.map fun e =>
          (e.1, NormalMsg.publishV3 m.retain m.qos m.topic m.payload e.2.1 e.2.2 m.encodeLen)) id
        unfold Session.queue
        rw [hq.2 hr]
    · simp only [sendOf, sendPublishV5, collectV5_eq] at h
      cases hl : causes s env.pick (g.route.getMatches m.topic) with
      | none => rw [hl] at h; cases h
      | some l =>
        rw [hl] at h
        simp only [Option.map_some, Option.some.injEq, Prod.mk.injEq] at h
        obtain ⟨rfl, rfl, _⟩ := h
        have hq := queued_pushCopies s g.registered ((addAll l []).map fun e =>
          (e.1, NormalMsg.publishV5 m.retain m.qos m.topic m.payload e.2.1 e.2.2 m.props
            m.encodeLen)) id
        unfold Session.queue
        rw [hq.2 hr]
  cases pr
  · simp only [sendOf, sendPublishV3] at h
    cases hl : collectV3 (g.route.getMatches m.topic) with
    | none => rw [hl] at h; cases h
    | some l =>
      rw [hl] at h
      simp only [Option.map_some, Option.some.injEq, Prod.mk.injEq] at h
      obtain ⟨rfl, _, _⟩ := h
      have hq := queued_pushCopies s g.registered (l.map fun e =>
        (e.1, NormalMsg.publishV3 m.retain m.qos m.topic m.payload e.2.1 e.2.2 m.encodeLen)) id
      refine ⟨_, hq.1 hr, ?_, fun h => by cases h⟩
      rw [filter_copies l (fun e => NormalMsg.publishV3 m.retain m.qos m.topic m.payload
          e.2.1 e.2.2 m.encodeLen) id]
      intro c hc G f hG hn
      obtain ⟨⟨k, F, q⟩, hm, rfl⟩ := List.mem_map.1 hc
      rw [List.mem_filter] at hm
      have hp := (collectV3_iff hri hv hl).1 hm.1
      exact absurd (show F = shareFilter G f from hn) fun he => share_not_plain hG f (he ▸ hp.1)
  · simp only [sendOf, sendPublishV5, collectV5_eq] at h
    cases hl : causes s env.pick (g.route.getMatches m.topic) with
    | none => rw [hl] at h; cases h
    | some l =>
      rw [hl] at h
      simp only [Option.map_some, Option.some.injEq, Prod.mk.injEq] at h
      obtain ⟨rfl, rfl, _⟩ := h
      have hq := queued_pushCopies s g.registered ((addAll l []).map fun e =>
        (e.1, NormalMsg.publishV5 m.retain m.qos m.topic m.payload e.2.1 e.2.2 m.props m.encodeLen))
        id
      refine ⟨_, hq.1 hr, ?_⟩
      rw [filter_copies (addAll l []) (fun e => NormalMsg.publishV5 m.retain m.qos m.topic m.payload
        e.2.1 e.2.2 m.props m.encodeLen) id, filter_of_get (wf_addAll l (by simp)) id]
      have hcause : ∀ G f q, '/' ∉ G → ((id, shareFilter G f, q) ∈ l ↔
          Matches f m.topic ∧ selOf g.route env.pick G f = some (id, q)) := by
        intro G f q hG
        rw [mem_causes hl]
        constructor
        · rintro ⟨c, hc, f', hf, h1 | h1⟩
          · have := (plainCause_iff (s := s) hri hv).1 ⟨c, hc, f', hf, h1⟩
            exact absurd this.1.1 (share_not_plain hG f)
          · obtain ⟨G', f'', h2, h3, h4, h5⟩ := (groupCause_any htab hv).1 ⟨c, hc, f', hf, h1⟩
            obtain ⟨rfl, rfl⟩ := shareFilter_inj hG h2 h3
            exact ⟨h4, h5⟩
        · rintro ⟨h1, h2⟩
          obtain ⟨c, hc, f', hf, h3⟩ := (groupCause_any htab hv).2 ⟨G, f, hG, rfl, h1, h2⟩
          exact ⟨c, hc, f', hf, .inr h3⟩
      rcases get_addAll l id with ⟨g1, g2⟩ | ⟨q', g1, _, g3⟩
      · rw [g2]
        refine ⟨(fun c hc => by cases hc), fun _ _ G f q hG hm hsel => ?_⟩
        have := mem_ofClient.mpr ⟨(hcause G f q hG).2 ⟨hm, hsel⟩, rfl⟩
        rw [g1] at this; cases this
      · rw [g1]
        constructor
        · intro c hc G f hG hn
          have he := List.mem_singleton.1 hc
          refine ⟨rfl, by rw [he]; rfl, ?_⟩
          subst he
          obtain ⟨⟨k, F, q⟩, hm, hF⟩ := List.mem_map.1 (show shareFilter G f ∈ _ from hn)
          obtain ⟨hm1, hm2⟩ := mem_ofClient.1 hm
          simp only at hF hm2
          subst hF hm2
          exact ⟨q, ((hcause G f q hG).1 hm1).2⟩
        · intro _ _ G f q hG hm hsel
          have hmem := mem_ofClient.mpr ⟨(hcause G f q hG).2 ⟨hm, hsel⟩, rfl⟩
          have hF : shareFilter G f ∈ (ofClient id l).map (·.2.1) := List.mem_map.mpr ⟨_, hmem, rfl⟩
          exact ⟨_, List.mem_singleton.2 rfl, .inr ⟨_, q', rfl, hF, g3 _ hmem⟩, hF⟩

/-! ## Which call of routing a publication is -/

theorem publishes_send {a : Act} (hs : w.step cfg ext a = some (w', e)) {t : TaskId} {m : SendPub}
    (hp : Publishes t m e) :
    ∃ x s s2 s' env g' n, w.tasks.get t = some x ∧ x.stage.owner? = some s ∧
      sendOf x.req.level.proto env w.global s2 m = some (s', g', n) ∧ s2.bcast = s.bcast ∧
      (∀ id l, s'.queue id = s2.queue id ++ l → queuedFor t id e = l) ∧
      ∀ g f, a.number g f = env.pick g f := by
  have new : ∀ {s s2 s' s3 : Session}, s2.bcast = s.bcast → s3.bcast = s'.bcast →
      ∀ id l, s'.queue id = s2.queue id ++ l → newCopies s s3 id = l := by
    intro s s2 s' s3 h2 h3 id l hl
    unfold newCopies
    rw [queue_congr h3, ← queue_congr h2, hl]
    simp
  have will : ∀ {t' : TaskId} {x : Task} {s s' : Session} {g : Global} {env : Env}
      {m' : Option SendPub}, w.tasks.get t' = some x → x.stage.owner? = some s →
      WillSent ext x.req.level.proto env w.global s s' g m' →
      Event.will t m ∈ willEvents t' s s' m' →
      ∃ y s1 s2 s3 g' n, w.tasks.get t = some y ∧ y.stage.owner? = some s1 ∧
      sendOf y.req.level.proto env w.global s2 m = some (s3, g', n) ∧ s2.bcast = s1.bcast ∧
      ∀ id l, s3.queue id = s2.queue id ++ l → queuedFor t id (willEvents t' s s' m') = l := by
    intro t' x s s' g env m' hx hso hw hev
    cases hsw : s.will with
    | none =>
      have := hw.msg
      rw [hsw] at this; subst this
      cases hev
    | some wl =>
      have hm' := hw.msg
      rw [hsw] at hm'; subst hm'
      simp only [Option.map_some, willEvents, List.mem_cons, Event.will.injEq, reduceCtorEq,
        List.not_mem_nil, or_false] at hev
      obtain ⟨rfl, rfl⟩ := hev
      obtain ⟨n, h5⟩ := hw.sent wl hsw
      refine ⟨x, s, _, s', g, n, hx, hso, h5, rfl, fun id l hl => ?_⟩
      have h6 := new (s := s) (s2 := { s with will := none }) (s3 := s') rfl rfl id l hl
      simp [queuedFor, willEvents, h6]
  have none : ∀ {es : List Event} {id : ClientId}, (∀ u f, Event.queued u f ∉ es) →
      queuedFor t id es = [] := by
    intro es id hes
    unfold queuedFor
    rw [List.flatMap_eq_nil_iff]
    intro ev hev
    split
    · rename_i u f
      exact absurd hev (hes u f)
    · rfl
  have app : ∀ {es es' : List Event} {id : ClientId},
      queuedFor t id (es ++ es') = queuedFor t id es ++ queuedFor t id es' := by
    intro es es' id
    simp [queuedFor]
  cases step_cases hs with
  | packet t' env after size p x s hx hst hd r hr =>
    rcases hp with ⟨ms, hp, hmm⟩ | hp
    · simp only [List.mem_cons, Event.routed.injEq, reduceCtorEq, List.not_mem_nil, or_false,
        false_or] at hp
      obtain ⟨rfl, rfl⟩ := hp
      obtain ⟨s2, s', g', k, h5, h6, h7, h8, h9⟩ := packet_send hr hmm
      refine ⟨x, s, s2, s', env, g', k, hx, by rw [hst]; rfl, h5, h6, fun id l hl => ?_,
        fun _ _ => rfl⟩
      have h10 := new h6 h9 id l hl
      simp [queuedFor, h10]
    · simp at hp
  | expire t' env x s hx hst hd time qq hq hpr ht s' g m' hw r route hrem =>
    rcases hp with ⟨ms, hp, hmm⟩ | hp
    · cases m' <;> simp [willEvents] at hp
    · rw [List.mem_append] at hp
      obtain ⟨y, s1, s2, s3, g', n, h1, h2, h3, h4, h5⟩ :=
        will hx (by rw [hst]; rfl) hw (hp.resolve_right (by simp))
      refine ⟨y, s1, s2, s3, env, g', n, h1, h2, h3, h4, fun id l hl => ?_, fun _ _ => rfl⟩
      rw [app, h5 id l hl, none (by simp), List.append_nil]
  | lateWill t' env x s hx hst hd time qq hq hpr ht s' g m' hw =>
    rcases hp with ⟨ms, hp, hmm⟩ | hp
    · cases m' <;> simp [willEvents] at hp
    · obtain ⟨y, s1, s2, s3, g', n, h1, h2, h3, h4, h5⟩ := will hx (by rw [hst]; rfl) hw hp
      exact ⟨y, s1, s2, s3, env, g', n, h1, h2, h3, h4, h5, fun _ _ => rfl⟩
  | closeWill t' env lost x s hx hst hd hpn s' g m' hw =>
    rcases hp with ⟨ms, hp, hmm⟩ | hp
    · cases m' <;> simp [willEvents] at hp
    · rw [List.mem_cons] at hp
      obtain ⟨y, s1, s2, s3, g', n, h1, h2, h3, h4, h5⟩ :=
        will hx (by rw [hst]; rfl) hw (hp.resolve_left (by simp))
      refine ⟨y, s1, s2, s3, env, g', n, h1, h2, h3, h4, fun id l hl => ?_, fun _ _ => rfl⟩
      rw [← List.singleton_append, app, h5 id l hl, none (by simp), List.nil_append]
  | accept t' env x old level hx hst hw s1 present h0 s out hs1 =>
    exfalso
    rcases hp with ⟨ms, hp, hmm⟩ | hp <;> cases present <;> simp at hp
  | handOff t' env x s hx hst hd b z qq hq hz msgs inbox hmsg =>
    exfalso
    rcases hp with ⟨ms, hp, hmm⟩ | hp <;> simp at hp
  | _ =>
    exfalso
    rcases hp with ⟨ms, hp, hmm⟩ | hp <;> simp at hp

/-! ## Calls and lists -/

theorem lists_of_ops {ops : List RouteOp} (h : SubsOps true w ops) {F : Str} {id : ClientId}
    {q : QoS} : subscribed ops F id = some q ↔ w.lists F id q := by
  constructor
  · intro hq
    obtain ⟨t, ht⟩ := h.owned rfl F id q hq
    obtain ⟨x, s, hx, hs, rfl⟩ := owner_task ht
    have ha := h.agree t x s hx hs F
    cases hg : s.subs F with
    | none =>
      have := ha.2 rfl hg
      rw [hq] at this; cases this
    | some d =>
      have := ha.1 d hg
      rw [hq] at this
      exact ⟨t, s, d, by rw [owned_of hx]; exact hs, rfl, hg, (Option.some.inj this).symm⟩
  · rintro ⟨t, s, d, h1, rfl, h2, rfl⟩
    obtain ⟨x, hx, hs⟩ := owned_stage h1
    exact (h.agree t x s hx hs F).1 d h2

end Akasa
