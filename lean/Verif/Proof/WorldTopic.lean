import Verif.Props.IncomingTopic
import Verif.Proof.WorldWill
/-!
# Topics of the published messages and the retained store, over the whole broker
-/
namespace Akasa

variable {cfg : Config} {ext : Ext} {w w' : World} {evs e : List Event}

theorem published_append (a b : List Event) : published (a ++ b) = published a ++ published b :=
  List.flatMap_append

theorem published_will (t : TaskId) (s s' : Session) (m : Option SendPub) :
    published (willEvents t s s' m) = m.toList.map fun m => (t, m) := by
  cases m <;> rfl

theorem published_took (t : TaskId) (id : ClientId) (ms : List (TaskId × NormalMsg)) :
    published (ms.map fun e => Event.took t id e.1 e.2) = [] := by
  unfold published
  rw [List.flatMap_map]
  induction ms with
  | nil => rfl
  | cons a ms ih => rw [List.flatMap_cons]; exact ih

/-- A packet and the retained store. -/
theorem handle_retain {pr : Proto} {env : Env} {g : Global} {s : Session} {n : Nat} {pkt : InPkt}
    {r : Res} (h : handlePacket cfg ext pr env g s n pkt = some r) :
    r.global.retain =
      g.retain.run ((r.routed.filter (·.retain)).map (·.toRetain pr s.identifier)) := by
  by_cases hpub : ∃ p, pkt = .publish p
  · obtain ⟨p, rfl⟩ := hpub
    cases handle_publish_cases h with
    | rejectV5 hpr s' hs' code => rfl
    | rejectV3 hpr => rfl
    | inUse hpr s1 topic pid prev hres hl hg hne => rfl
    | repeated s1 topic pid hres hl hd hg => rfl
    | lostFirst s1 topic pid hres hl hd hg hlen => rfl
    | route2 s1 topic pid s' g' n hres hl hd hg hlen hsend =>
      have := (sendOf_retain hsend).1
      have e : s1.identifier = s.identifier := by rw [resolved_ident hres]
      simp only [e] at this
      exact this
    | route01 s1 topic s' g' n hres hl hsend =>
      have := (sendOf_retain hsend).1
      have e : s1.identifier = s.identifier := by rw [resolved_ident hres]
      rw [e] at this
      exact this
  · obtain ⟨h1, h2, _⟩ := handle_other (fun p h => hpub ⟨p, h⟩) h
    rw [h1, h2]; rfl

/-- A packet and '$' topics. -/
theorem handle_not_dollar {pr : Proto} {env : Env} {g : Global} {s : Session} {n : Nat}
    {pkt : InPkt} {r : Res} (h : handlePacket cfg ext pr env g s n pkt = some r)
    (ha : AliasOk s) : AliasOk r.session ∧ ∀ m ∈ r.routed, m.topic.head? ≠ some '$' := by
  by_cases hpub : ∃ p, pkt = .publish p
  · obtain ⟨p, rfl⟩ := hpub
    cases handle_publish_cases h with
    | rejectV5 hpr s' hs' code =>
      refine ⟨?_, by simp [failV5]⟩
      rcases hs' with rfl | ⟨t, h⟩
      · exact ha
      · exact fun a t hx => aliasOk_resolved h ha a t hx
    | rejectV3 hpr => exact ⟨ha, by simp [failV3]⟩
    | inUse hpr s1 topic pid prev hres hl hg hne =>
      exact ⟨fun a t hx => aliasOk_resolved hres ha a t hx, by simp⟩
    | repeated s1 topic pid hres hl hd hg =>
      exact ⟨fun a t hx => aliasOk_resolved hres ha a t hx, by simp⟩
    | lostFirst s1 topic pid hres hl hd hg hlen =>
      exact ⟨fun a t hx => aliasOk_resolved hres ha a t hx, by simp⟩
    | route2 s1 topic pid s' g' n hres hl hd hg hlen hsend =>
      refine ⟨aliasOk_core (core_sendOf hsend)
        (fun a t hx => aliasOk_resolved hres ha a t hx), ?_⟩
      intro m hm; simp at hm; subst hm
      rw [toSend_topic]; exact resolved_not_dollar hres ha
    | route01 s1 topic s' g' n hres hl hsend =>
      refine ⟨aliasOk_core (core_sendOf hsend)
        (fun a t hx => aliasOk_resolved hres ha a t hx), ?_⟩
      intro m hm; simp at hm; subst hm
      rw [toSend_topic]; exact resolved_not_dollar hres ha
  · obtain ⟨h1, _, _, h4⟩ := handle_other (fun p h => hpub ⟨p, h⟩) h
    refine ⟨?_, by rw [h1]; simp⟩
    intro a t h
    rw [h4] at h
    exact ha a t h

theorem will_retain {pr : Proto} {env : Env} {g g' : Global} {s s' : Session}
    {m : Option SendPub} (h : WillSent ext pr env g s s' g' m) :
    g'.retain = g.retain.run ((m.toList.filter (·.retain)).map (·.toRetain pr s.identifier)) := by
  rw [h.msg]
  cases hw : s.will with
  | none => rw [(h.kept hw).2]; rfl
  | some wl =>
    obtain ⟨n, hs⟩ := h.sent wl hw
    exact (sendOf_retain hs).1

/-- What a step publishes and how the retained store changes. -/
theorem step_published {a : Act} (ho : OInv w) (hc : WCase cfg ext w a w' e) :
    (w'.retain = w.retain ∧ published e = []) ∨
    ∃ (t : TaskId) (x : Task) (ms : List SendPub), w.tasks.get t = some x ∧ published e = ms.map (fun m => (t, m)) ∧
      w'.retain = w.retain.run ((ms.filter (·.retain)).map
        (·.toRetain x.req.level.proto x.req.identifier)) := by
  cases hc with
  | packet t env after size p x s hx hst hd r hr =>
    right
    obtain ⟨r0, h0, _, _, hg, hrt, _⟩ := onPacket_handled hr
    refine ⟨t, x, r.routed, hx, ?_, ?_⟩
    · simp [published]
    · have h1 := handle_retain h0
      have h2 := ho.session t x s hx (by rw [hst]; rfl)
      rw [h2] at h1
      simp only
      rw [hg, hrt]
      exact h1
  | expire t env x s hx hst hd time q hq hpr ht s' g m hw r route hrem =>
    right
    refine ⟨t, x, m.toList, hx, ?_, ?_⟩
    · rw [published_append, published_will]; simp [published]
    · have h1 := will_retain hw
      rw [ho.session t x s hx (by rw [hst]; rfl)] at h1
      exact h1
  | lateWill t env x s hx hst hd time q hq hpr ht s' g m hw =>
    right
    refine ⟨t, x, m.toList, hx, published_will .., ?_⟩
    have h1 := will_retain hw
    rw [ho.session t x s hx (by rw [hst]; rfl)] at h1
    exact h1
  | closeWill t env lost x s hx hst hd hp s' g m hw =>
    right
    refine ⟨t, x, m.toList, hx, ?_, ?_⟩
    · rw [← List.singleton_append, published_append, published_will]; rfl
    · have h1 := will_retain hw
      rw [ho.session t x s hx (by rw [hst]; rfl)] at h1
      exact h1
  | accept =>
    left
    refine ⟨rfl, ?_⟩
    rw [published_append]
    split <;> rfl
  | handOff =>
    left
    refine ⟨rfl, ?_⟩
    rw [published_append, published_took]
    rfl
  | fire i tm ht w' hw =>
    rcases hw with ⟨rfl, _⟩ | ⟨q, _, _, rfl⟩ <;> exact .inl ⟨rfl, rfl⟩
  | _ => exact .inl ⟨rfl, rfl⟩

theorem filterMap_same {α β : Type} {f g : α → Option β} {l : List α} (h : ∀ a ∈ l, f a = g a) :
    l.filterMap f = l.filterMap g := by
  induction l with
  | nil => rfl
  | cons a l ih =>
    rw [List.filterMap_cons, List.filterMap_cons, h a (by simp), ih fun b hb => h b (by simp [hb])]

/-- The retained store is what the published messages make of it. -/
theorem retain_run {acts : List Act} (h : World.run cfg ext {} acts = some (w, evs)) :
    (∀ p ∈ published evs, ∃ req, w.request p.1 = some req) ∧
    w.retain = RetainTable.empty.run (w.retainWrites evs) := by
  have key := world_induction (P := fun w evs => BrokerInv w ∧
    (∀ p ∈ published evs, ∃ req, w.request p.1 = some req) ∧
    w.retain = RetainTable.empty.run (w.retainWrites evs))
    ⟨.init, (fun p hp => by cases hp), rfl⟩ ?_ h
  · exact key.2
  · rintro w evs a w' e ⟨hi, h1, h2⟩ hs
    have hc := step_cases hs
    have hkeep : ∀ u req, w.request u = some req → w'.request u = some req :=
      fun u => (seen_step hi.own hc u).keeps
    have hsame : w'.retainWrites evs = w.retainWrites evs := by
      unfold World.retainWrites
      refine filterMap_same fun p hp => ?_
      obtain ⟨req, hr⟩ := h1 p hp
      rw [hr, hkeep _ _ hr]
    have happ : w'.retainWrites (evs ++ e) = w.retainWrites evs ++ w'.retainWrites e := by
      rw [← hsame]
      unfold World.retainWrites
      rw [published_append, List.filterMap_append]
    refine ⟨hi.step hs, ?_⟩
    rw [published_append, happ]
    rcases step_published hi.own hc with ⟨h3, h4⟩ | ⟨t, x, ms, hx, h4, h3⟩
    · rw [h4, List.append_nil, h3]
      refine ⟨fun p hp => ?_, ?_⟩
      · obtain ⟨req, hr⟩ := h1 p hp
        exact ⟨req, hkeep _ _ hr⟩
      · rw [show w'.retainWrites e = [] by unfold World.retainWrites; rw [h4]; rfl,
          List.append_nil]
        exact h2
    · have hr : w'.request t = some x.req := hkeep _ _ (by unfold World.request; rw [hx]; rfl)
      refine ⟨fun p hp => ?_, ?_⟩
      · rcases List.mem_append.1 hp with hp | hp
        · obtain ⟨req, hr⟩ := h1 p hp
          exact ⟨req, hkeep _ _ hr⟩
        · rw [h4, List.mem_map] at hp
          obtain ⟨m, _, rfl⟩ := hp
          exact ⟨_, hr⟩
      · rw [h3, h2]
        have : w'.retainWrites e =
            (ms.filter (·.retain)).map (·.toRetain x.req.level.proto x.req.identifier) := by
          unfold World.retainWrites
          rw [h4]
          clear h4 h3
          induction ms with
          | nil => rfl
          | cons m ms ih =>
            rw [List.map_cons, List.filterMap_cons, ih, List.filter_cons, hr]
            cases m.retain <;> rfl
        rw [this]
        simp only [RetainTable.run, List.foldl_append]

/-- The sessions of established connections have no alias for a '$' topic. -/
theorem routed_run {acts : List Act} (h : World.run cfg ext {} acts = some (w, evs)) :
    (∀ t x s, w.tasks.get t = some x → x.stage = .online s → AliasOk s) ∧
    ∀ t ms, Event.routed t ms ∈ evs → ∀ m ∈ ms, m.topic.head? ≠ some '$' := by
  have key := world_induction (P := fun w evs =>
    (∀ t x s, w.tasks.get t = some x → x.stage = .online s → AliasOk s) ∧
    ∀ t ms, Event.routed t ms ∈ evs → ∀ m ∈ ms, m.topic.head? ≠ some '$')
    ⟨(fun t x s h => by cases h), (fun t ms h => by cases h)⟩ ?_ h
  · exact key
  · rintro w evs a w' e ⟨h1, h2⟩ hs
    have hevs : (∀ t ms, Event.routed t ms ∈ e → ∀ m ∈ ms, m.topic.head? ≠ some '$') →
        ∀ t ms, Event.routed t ms ∈ evs ++ e → ∀ m ∈ ms, m.topic.head? ≠ some '$' := by
      intro h t ms hm
      rcases List.mem_append.1 hm with hm | hm
      · exact h2 t ms hm
      · exact h t ms hm
    have hone : ∀ {t : TaskId} {x' : Task} {m : Tasks}, (∀ s, x'.stage = .online s → AliasOk s) →
        (∀ t x s, FMap.get m t = some x → x.stage = .online s → AliasOk s) →
        ∀ u x s, FMap.get (FMap.insert m t x') u = some x → x.stage = .online s → AliasOk s := by
      intro t x' m h hm u x s hx hst
      rw [FMap.get_insert] at hx
      split at hx
      · cases hx; exact h s hst
      · exact hm u x s hx hst
    have hno : ∀ {st : Stage}, (∀ s, st ≠ .online s) → ∀ s, st = .online s → AliasOk s :=
      fun h s hs => absurd hs (h s)
    have hwill : ∀ {t u : TaskId} {s s' : Session} {m : Option SendPub} {ms : List SendPub},
        Event.routed t ms ∈ willEvents u s s' m → False := by
      intro t u s s' m ms hm
      cases m <;> simp [willEvents] at hm
    cases step_cases hs with
    | idle => exact ⟨h1, hevs (by simp)⟩
    | fresh req env r id hadd hw s out hp =>
      refine ⟨hone ?_ h1, hevs (by simp)⟩
      intro s' hs'
      cases hs'
      have := core_pendings req.level.proto (env.clk 0)
        (Session.start cfg req.level.proto req.identifier id req.params)
      rw [hp] at this
      refine aliasOk_core this ?_
      intro a t h
      rw [start_aliases] at h
      cases h
    | stillborn => exact ⟨hone (hno (by simp)) h1, hevs (by simp)⟩
    | wait => exact ⟨hone (hno (by simp)) h1, hevs (by simp)⟩
    | locked => exact ⟨hone (hno (by simp)) h1, hevs (by simp)⟩
    | accept t env y old level hx hst hw s0 present h0 s out hp =>
      refine ⟨hone ?_ h1, hevs ?_⟩
      · intro s' hs'
        cases hs'
        have := core_pendings y.req.level.proto (env.clk 0) s0
        rw [hp] at this
        refine aliasOk_core this ?_
        unfold Request.session at h0
        intro a t h
        split at h0
        · cases h0; rw [resume_aliases] at h; cases h
        · cases h0; rw [start_aliases] at h; cases h
      · intro t ms hm
        split at hm <;> simp at hm
    | refused => exact ⟨hone (hno (by simp)) h1, hevs (by simp)⟩
    | packet t env after size p y s hx hst hd r hr =>
      obtain ⟨r0, h0, hcore, _, _, hrt, _⟩ := onPacket_handled hr
      obtain ⟨h3, h4⟩ := handle_not_dollar h0 (h1 t y s hx hst)
      refine ⟨hone ?_ h1, hevs ?_⟩
      · intro s' hs'
        simp only at hs'
        split at hs'
        · cases hs'
        · cases hs'; exact aliasOk_core hcore h3
      · intro t ms hm
        simp only [List.mem_cons, Event.routed.injEq, reduceCtorEq, List.not_mem_nil, or_false,
          false_or] at hm
        rw [hm.2, hrt]
        exact h4
    | normalOn t env y s hx hst hd src m rest hi =>
      refine ⟨hone ?_ h1, hevs (by simp)⟩
      intro s' hs'
      cases hs'
      exact aliasOk_core (core_onNormal ..) (h1 t y s hx hst)
    | normalOff => exact ⟨hone (hno (by simp)) h1, hevs (by simp)⟩
    | handOn => exact ⟨hone (hno (by simp)) (hone (hno (by simp)) h1), hevs (by simp)⟩
    | handOff => exact ⟨hone (hno (by simp)) (hone (hno (by simp)) h1), hevs (by simp)⟩
    | deny => exact ⟨hone (hno (by simp)) h1, hevs (by simp)⟩
    | ignored => exact ⟨h1, hevs (by simp)⟩
    | kicked => exact ⟨hone (hno (by simp)) h1, hevs (by simp)⟩
    | expire =>
      refine ⟨hone (hno (by simp)) h1, hevs ?_⟩
      intro t ms hm
      rcases List.mem_append.1 hm with hm | hm
      · exact (hwill hm).elim
      · simp at hm
    | lateWill => exact ⟨hone (hno (by simp)) h1, hevs fun t ms hm => (hwill hm).elim⟩
    | lose => exact ⟨hone (hno (by simp)) h1, hevs (by simp)⟩
    | closeQuiet => exact ⟨hone (hno (by simp)) h1, hevs (by simp)⟩
    | closeWill =>
      refine ⟨hone (hno (by simp)) h1, hevs ?_⟩
      intro t ms hm
      rcases List.mem_cons.1 hm with hm | hm
      · cases hm
      · exact (hwill hm).elim
    | closeDelayed => exact ⟨hone (hno (by simp)) h1, hevs (by simp)⟩
    | push t d y s hx hst m rest hq hk =>
      refine ⟨hone ?_ h1, hevs (by simp)⟩
      intro s' hs'
      cases hy : y.stage <;> rw [hy] at hs' hst <;> cases hs'
      cases hst
      exact h1 t y s hx hy
    | flush t d y hx => exact ⟨hone (fun s' hs' => h1 t y s' hx hs') h1, hevs (by simp)⟩
    | giveUp t d y s hx hst hi =>
      refine ⟨hone ?_ h1, hevs (by simp)⟩
      intro s' hs'
      cases hy : y.stage <;> rw [hy] at hs' hst <;> cases hs'
      cases hst
      exact h1 t y s hx hy
    | remove => exact ⟨hone (hno (by simp)) h1, hevs (by simp)⟩
    | rest => exact ⟨hone (hno (by simp)) h1, hevs (by simp)⟩
    | fire i tm ht w' hw =>
      rcases hw with ⟨rfl, _⟩ | ⟨q, _, _, rfl⟩ <;> exact ⟨h1, hevs (by simp)⟩
    | kick => exact ⟨h1, hevs (by simp)⟩

end Akasa
