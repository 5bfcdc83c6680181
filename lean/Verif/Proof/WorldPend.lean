import Verif.Proof.WorldWill
/-! # Invariants of the whole broker: timers that must be running -/
namespace Akasa

/-- The will delay timer of a connection that is over. -/
def Task.willDue (x : Task) (s : Session) : List (ClientId × Control) :=
  if s.clientDisconnected = false ∧ planOf x.req.level.proto s.ending = .delayed then
    x.connectedAt.toList.map fun τ => (s.clientId, .willDelayReached τ)
  else []

/-- The timers that must be running. -/
def Task.due (x : Task) : List (ClientId × Control) :=
  match x.stage with
  | .offline s =>
    (match x.req.level.proto with
      | .v3 => []
      | .v5 => x.connectedAt.toList.map fun τ => (s.clientId, .sessionExpired τ)) ++ x.willDue s
  | .ending s => x.willDue s
  | _ => []

/-- All of them are. -/
def Runs (w : World) : Prop :=
  ∀ t x, w.tasks.get t = some x → ∀ d ∈ x.due, Pend w d.1 d.2

variable {cfg : Config} {ext : Ext} {w w' : World} {evs : List Event}

theorem mem_willDue {x : Task} {s : Session} {d : ClientId × Control} (h : d ∈ x.willDue s) :
    d.1 = s.clientId ∧ ∃ τ, x.connectedAt = some τ ∧ d.2 = .willDelayReached τ := by
  unfold Task.willDue at h
  split at h
  · obtain ⟨τ, h1, rfl⟩ := List.mem_map.1 h
    exact ⟨rfl, τ, by simpa using h1, rfl⟩
  · cases h

theorem mem_due {x : Task} {d : ClientId × Control} (h : d ∈ x.due) :
    ∃ s, x.stage.owner? = some s ∧ d.1 = s.clientId ∧ ∃ τ, x.connectedAt = some τ ∧
      (d.2 = .sessionExpired τ ∨ d.2 = .willDelayReached τ) := by
  unfold Task.due at h
  split at h
  · rename_i s hst
    rcases List.mem_append.1 h with h | h
    · split at h
      · cases h
      · obtain ⟨τ, h1, rfl⟩ := List.mem_map.1 h
        exact ⟨s, by rw [hst]; rfl, rfl, τ, by simpa using h1, .inl rfl⟩
    · obtain ⟨h1, τ, h2, h3⟩ := mem_willDue h
      exact ⟨s, by rw [hst]; rfl, h1, τ, h2, .inr h3⟩
  · rename_i s hst
    obtain ⟨h1, τ, h2, h3⟩ := mem_willDue h
    exact ⟨s, by rw [hst]; rfl, h1, τ, h2, .inr h3⟩
  · cases h

theorem willDue_same {x x' : Task} {s s' : Session} (hr : x'.req = x.req)
    (hc : x'.connectedAt = x.connectedAt) (h : SameEnd s s') : x'.willDue s' = x.willDue s := by
  unfold Task.willDue
  rw [hr, hc, h.gone, h.ending, h.client]

theorem due_offline {x x' : Task} {s s' : Session} (hx : x.stage = .offline s)
    (hx' : x'.stage = .offline s') (hr : x'.req = x.req) (hc : x'.connectedAt = x.connectedAt)
    (h : SameEnd s s') : x'.due = x.due := by
  unfold Task.due
  rw [hx, hx']
  simp only [hr, hc, h.client, willDue_same hr hc h]

theorem due_ending {x x' : Task} {s s' : Session} (hx : x.stage = .ending s)
    (hx' : x'.stage = .ending s') (hr : x'.req = x.req) (hc : x'.connectedAt = x.connectedAt)
    (h : SameEnd s s') : x'.due = x.due := by
  unfold Task.due
  rw [hx, hx']
  simp only [willDue_same hr hc h]

theorem due_setSession {x x' : Task} {s s' : Session} (hx : x.stage.sending? = some s)
    (hx' : x'.stage = x.stage.setSession s') (hr : x'.req = x.req)
    (hc : x'.connectedAt = x.connectedAt) (h : SameEnd s s') : x'.due = x.due := by
  cases hst : x.stage <;> rw [hst] at hx hx' <;> simp only [Stage.sending?, Option.some.injEq,
    reduceCtorEq, Stage.setSession] at hx hx'
  · unfold Task.due; rw [hst, hx']
  · subst hx; exact due_ending hst hx' hr hc h
  · subst hx; exact due_offline hst hx' hr hc h
  · unfold Task.due; rw [hst, hx']

theorem due_none {x : Task} (h : x.stage.owner? = none ∨ (∃ s, x.stage = .online s) ∨
    (∃ s, x.stage = .closed s) ∨ ∃ s l, x.stage = .granted s l) : x.due = [] := by
  unfold Task.due
  cases hst : x.stage <;> rw [hst] at h <;> simp_all [Stage.owner?]

theorem Pend.pop {id id0 : ClientId} {c m : Control} {q : List Control}
    (h : Pend w id c) (hne : id ≠ id0 ∨ c ≠ m) (hq : w.control.get id0 = some (m :: q))
    (hc : w'.control = w.control.insert id0 q) (ht : w'.timers = w.timers) : Pend w' id c := by
  rcases h with ⟨q', h1, h2⟩ | h
  · left
    by_cases hid : id0 = id
    · subst hid
      rw [hq] at h1; cases h1
      refine ⟨q, by rw [hc]; exact FMap.get_insert_self _ _ _, ?_⟩
      rcases List.mem_cons.1 h2 with h2 | h2
      · exact absurd h2 (hne.resolve_left (fun h => h rfl))
      · exact h2
    · exact ⟨q', by rw [hc, FMap.get_insert, if_neg hid]; exact h1, h2⟩
  · right; rw [ht]; exact h

theorem Pend.more {id : ClientId} {c : Control} (h : Pend w id c)
    (hc : ∀ q, w.control.get id = some q → ∃ q', w'.control.get id = some (q ++ q'))
    (ht : ∀ tm ∈ w.timers, tm ∈ w'.timers) : Pend w' id c := by
  rcases h with ⟨q, h1, h2⟩ | h
  · obtain ⟨q', h3⟩ := hc q h1
    exact .inl ⟨_, h3, List.mem_append_left _ h2⟩
  · exact .inr (ht _ h)

/-- The client of another task is another client. -/
theorem other_client (ho : OInv w) {t u : TaskId} {x y : Task} {s s' : Session}
    (hx : w.tasks.get t = some x) (hs : x.stage.session? = some s) (hy : w.tasks.get u = some y)
    (hs' : y.stage.owner? = some s') (hne : u ≠ t) : s'.clientId ≠ s.clientId := by
  intro he
  refine hne (ho.uniq u t s.clientId ?_ ?_)
  · rw [(Tasks.views hy).1, ← he]
    cases hst : y.stage <;> rw [hst] at hs' <;> simp [Stage.owner?] at hs' <;> subst hs' <;> rfl
  · rw [(Tasks.views hx).1, hs]; rfl

/-- A step of one task. -/
theorem Runs.one (h : Runs w) {t : TaskId} {x' : Task} (htask : w'.tasks = w.tasks.insert t x')
    (hown : ∀ d ∈ x'.due, Pend w' d.1 d.2)
    (hoth : ∀ u y, u ≠ t → w.tasks.get u = some y → ∀ d ∈ y.due, Pend w d.1 d.2 → Pend w' d.1 d.2) :
    Runs w' := by
  intro u y hy d hd
  rw [htask, FMap.get_insert] at hy
  split at hy
  · cases hy; exact hown d hd
  · rename_i hne
    exact hoth u y (Ne.symm hne) hy d hd (h u y hy d hd)

/-- A step that leaves everything waiting. -/
theorem Runs.keep (h : Runs w) {t : TaskId} {x' : Task} (htask : w'.tasks = w.tasks.insert t x')
    (hown : x'.due = [] ∨ ∃ x, w.tasks.get t = some x ∧ x'.due = x.due)
    (hp : ∀ id c, Pend w id c → Pend w' id c) : Runs w' := by
  refine h.one htask ?_ fun _ _ _ _ d _ hd => hp _ _ hd
  intro d hd
  rcases hown with hown | ⟨x, hx, hown⟩
  · rw [hown] at hd; cases hd
  · rw [hown] at hd; exact hp _ _ (h t x hx d hd)

theorem Pend.of_eq {id : ClientId} {c : Control} (h : Pend w id c) (hc : w'.control = w.control)
    (ht : w'.timers = w.timers) : Pend w' id c := by
  unfold Pend; rw [hc, ht]; exact h

theorem Runs.case {a : Act} (h : Runs w) (ho : OInv w) (hc : WCase cfg ext w a w' evs) :
    Runs w' := by
  cases hc with
  | idle => exact h
  | fresh req env r id hadd hw s out hs =>
    refine h.keep rfl (.inl (due_none (.inr (.inl ⟨_, rfl⟩)))) fun id' c hp => hp.more ?_ ?_
    · intro q hq
      refine ⟨[], ?_⟩
      rw [List.append_nil, FMap.get_insert, if_neg]
      · exact hq
      · rintro rfl
        have hcon : w.control.contains id = true := by
          unfold FMap.contains; rw [hq]; rfl
        rw [ho.control] at hcon
        obtain ⟨t, ht⟩ := ho.inbox _ hcon
        have := ho.below _ _ ht
        cases ho.reg.add_cases hadd
        exact Nat.lt_irrefl _ this
    · exact fun _ h => h
  | stillborn req env wr r id hadd =>
    refine h.keep rfl (.inl (due_none (.inl rfl))) fun id' c hp => hp.more ?_ ?_
    · intro q hq
      refine ⟨[], ?_⟩
      have hne : id ≠ id' := by
        rintro rfl
        have hcon : w.control.contains id = true := by
          unfold FMap.contains; rw [hq]; rfl
        rw [ho.control] at hcon
        obtain ⟨t, ht⟩ := ho.inbox _ hcon
        have := ho.below _ _ ht
        cases ho.reg.add_cases hadd
        exact Nat.lt_irrefl _ this
      rw [List.append_nil, FMap.get_erase, if_neg hne, FMap.get_insert, if_neg hne]
      exact hq
    · exact fun _ h => h
  | wait req env wr r id q hadd hq =>
    refine h.keep rfl (.inl (due_none (.inl rfl))) fun id' c hp => hp.more ?_ (fun _ h => h)
    intro q' hq'
    by_cases hid : id = id'
    · subst hid
      rw [hq] at hq'; cases hq'
      exact ⟨_, FMap.get_insert_self _ _ _⟩
    · exact ⟨[], by rw [List.append_nil, FMap.get_insert, if_neg hid]; exact hq'⟩
  | locked req env wr r id hadd hq =>
    exact h.keep rfl (.inl (due_none (.inl rfl))) fun id' c hp => hp.of_eq rfl rfl
  | accept t env x old level hx hst hw s0 present h0 s out hs =>
    exact h.keep rfl (.inl (due_none (.inr (.inl ⟨_, rfl⟩)))) fun id' c hp => hp.of_eq rfl rfl
  | refused t env wr x old level hx hst =>
    refine h.one rfl (by rw [due_none (.inl rfl)]; intro d hd; cases hd) ?_
    intro u y hne hy d hd hp
    obtain ⟨s', h1, h2, _⟩ := mem_due hd
    have := other_client ho (s := old) hx (by rw [hst]; rfl) hy h1 hne
    refine hp.more (fun q hq => ⟨[], ?_⟩) (fun _ h => h)
    rw [List.append_nil, FMap.get_erase, if_neg]
    · exact hq
    · rw [h2]; exact this.symm
  | packet t env after size p x s hx hst hd r hr =>
    refine h.keep rfl (.inl (due_none ?_)) fun id' c hp => hp.of_eq rfl rfl
    simp only
    split
    · exact .inr (.inr (.inl ⟨_, rfl⟩))
    · exact .inr (.inl ⟨_, rfl⟩)
  | normalOn t env x s hx hst hd src m rest hi =>
    exact h.keep rfl (.inl (due_none (.inr (.inl ⟨_, rfl⟩)))) fun id' c hp => hp.of_eq rfl rfl
  | normalOff t env x s hx hst hd src m rest hi =>
    exact h.keep rfl (.inr ⟨x, hx, due_offline hst rfl rfl rfl sameEnd_normal⟩)
      fun id' c hp => hp.of_eq rfl rfl
  | handOn t env x s hx hst b y q hq hy =>
    intro u z hz d hd
    simp only at hz
    rw [FMap.get_insert] at hz
    split at hz
    · cases hz; rw [due_none (.inr (.inr (.inr ⟨_, _, rfl⟩)))] at hd; cases hd
    · rw [FMap.get_insert] at hz
      split at hz
      · cases hz; rw [due_none (.inl rfl)] at hd; cases hd
      · rename_i hne
        obtain ⟨s', h1, h2, _⟩ := mem_due hd
        have := other_client ho (s := s) hx (by rw [hst]; rfl) hz h1 (Ne.symm hne)
        exact (h u z hz d hd).pop (.inl (by rw [h2]; exact this)) hq rfl rfl
  | handOff t env x s hx hst hd b y q hq hy msgs inbox hm =>
    intro u z hz d hd
    simp only at hz
    rw [FMap.get_insert] at hz
    split at hz
    · cases hz; rw [due_none (.inr (.inr (.inr ⟨_, _, rfl⟩)))] at hd; cases hd
    · rw [FMap.get_insert] at hz
      split at hz
      · cases hz; rw [due_none (.inl rfl)] at hd; cases hd
      · rename_i hne
        obtain ⟨s', h1, h2, _⟩ := mem_due hd
        have := other_client ho (s := s) hx (by rw [hst]; rfl) hz h1 (Ne.symm hne)
        exact (h u z hz d hd).pop (.inl (by rw [h2]; exact this)) hq rfl rfl
  | deny t env x s hx hst pr b y q hq hpr hy =>
    refine h.one rfl (by rw [due_none (.inl rfl)]; intro d hd; cases hd) ?_
    intro u z hne hz d hd hp
    refine hp.pop (.inr ?_) hq rfl rfl
    obtain ⟨s', h1, h2, τ, _, h3 | h3⟩ := mem_due hd <;> rw [h3] <;> simp
  | ignored t env x s hx hst c q hq hc =>
    intro u z hz d hd
    have hp := h u z hz d hd
    obtain ⟨s', h1, h2, τ, h4, h3⟩ := mem_due hd
    by_cases hne : u = t
    · subst hne
      rw [hx] at hz; cases hz
      refine hp.pop (.inr ?_) hq rfl rfl
      rcases hc with ⟨pr, b, rfl, _⟩ | ⟨rfl, _⟩ | ⟨time, hc, _, hc'⟩
      · rcases h3 with h3 | h3 <;> rw [h3] <;> simp
      · rcases h3 with h3 | h3 <;> rw [h3] <;> simp
      · rcases hc' with hc' | hc'
        · rw [due_none (.inr (.inl ⟨_, hc'⟩))] at hd; cases hd
        · rw [h4] at hc'
          have hne : τ ≠ time := fun e => hc' (by rw [e])
          rcases h3 with h3 | h3 <;> rcases hc with rfl | rfl <;> rw [h3] <;> simp [hne]
    · have := other_client ho (s := s) hx
        (by rcases hst with hst | ⟨hst, _⟩ <;> rw [hst] <;> rfl) hz h1 hne
      exact hp.pop (.inl (by rw [h2]; exact this)) hq rfl rfl
  | kicked t env x s hx hst q hq =>
    refine h.one rfl (by rw [due_none (.inr (.inr (.inl ⟨_, rfl⟩)))]; intro d hd; cases hd) ?_
    intro u z hne hz d hd hp
    refine hp.pop (.inr ?_) hq rfl rfl
    obtain ⟨s', h1, h2, τ, _, h3 | h3⟩ := mem_due hd <;> rw [h3] <;> simp
  | expire t env x s hx hst hd time q hq hpr ht s' g m hw r route hrem =>
    refine h.one rfl (by rw [due_none (.inl rfl)]; intro d hd; cases hd) ?_
    intro u z hne hz d hd hp
    obtain ⟨s', h1, h2, _⟩ := mem_due hd
    have := other_client ho (s := s) hx (by rw [hst]; rfl) hz h1 hne
    exact hp.pop (.inl (by rw [h2]; exact this)) hq rfl rfl
  | lateWill t env x s hx hst hd time q hq hpr ht s' g m hw =>
    refine h.one rfl ?_ ?_
    · intro d hd
      have hpr' := hpr
      unfold Task.due Task.willDue at hd
      simp only [hpr, ht] at hd
      rw [if_neg (by
        rw [hw.ending]
        simp [planOf])] at hd
      simp only [Option.toList_some, List.map_cons, List.map_nil, List.append_nil,
        List.mem_singleton] at hd
      subst hd
      have hp : Pend w s.clientId (.sessionExpired time) :=
        h t x hx (s.clientId, .sessionExpired time) (by
          unfold Task.due; rw [hst]; simp [hpr, ht])
      rw [hw.client]
      exact hp.pop (.inr (by simp)) hq rfl rfl
    · intro u z hne hz d hd hp
      obtain ⟨s', h1, h2, _⟩ := mem_due hd
      have := other_client ho (s := s) hx (by rw [hst]; rfl) hz h1 hne
      exact hp.pop (.inl (by rw [h2]; exact this)) hq rfl rfl
  | lose t x s hx hst =>
    exact h.keep rfl (.inl (due_none (.inr (.inr (.inl ⟨_, rfl⟩)))))
      fun id' c hp => hp.of_eq rfl rfl
  | closeQuiet t env lost x s hx hst hd =>
    refine h.keep rfl (.inl ?_) fun id' c hp => hp.of_eq rfl rfl
    unfold Task.due Task.willDue
    simp only
    rw [if_neg]
    rintro ⟨h1, h2⟩
    rcases hd with hd | hd
    · rw [hd] at h1; cases h1
    · rw [willPlan_eq, h2] at hd; cases hd
  | closeWill t env lost x s hx hst hd hp s' g m hw =>
    refine h.keep rfl (.inl ?_) fun id' c hp => hp.of_eq rfl rfl
    unfold Task.due Task.willDue
    simp only
    rw [if_neg]
    rintro ⟨h1, h2⟩
    rw [hw.ending] at h2
    unfold planOf at h2
    split at h2 <;> cases h2
  | closeDelayed t env lost x s hx hst hd hp =>
    refine h.one rfl ?_ fun u y _ _ d _ hp => hp.more (fun q hq => ⟨[], by simpa using hq⟩)
      (fun tm htm => List.mem_append_left _ htm)
    intro d hdue
    unfold Task.due at hdue
    obtain ⟨h1, τ, h2, h3⟩ := mem_willDue hdue
    right
    refine List.mem_append_right _ (List.mem_map.2 ⟨τ, ?_, ?_⟩)
    · simpa using h2
    · rw [h1, h3]
  | push t d x s hx hst m rest hq hk =>
    exact h.keep rfl (.inr ⟨x, hx, due_setSession hst rfl rfl rfl ⟨⟨rfl, rfl⟩, rfl, rfl, rfl⟩⟩)
      fun id' c hp => hp.of_eq rfl rfl
  | flush t d x hx m q hk hi hl =>
    exact h.keep (x' := { x with sinks := x.sinks.erase d }) rfl (.inr ⟨x, hx, rfl⟩)
      fun id' c hp => hp.of_eq rfl rfl
  | giveUp t d x s hx hst hi =>
    exact h.keep rfl (.inr ⟨x, hx, due_setSession hst rfl rfl rfl ⟨⟨rfl, rfl⟩, rfl, rfl, rfl⟩⟩)
      fun id' c hp => hp.of_eq rfl rfl
  | remove t x s hx hst hd r route hrem =>
    refine h.one rfl (by rw [due_none (.inl rfl)]; intro d hd; cases hd) ?_
    intro u y hne hy d hd hp
    obtain ⟨s', h1, h2, _⟩ := mem_due hd
    have := other_client ho (s := s) hx
      (by rcases hst with ⟨hst, _⟩ | hst <;> rw [hst] <;> rfl) hy h1 hne
    refine hp.more (fun q hq => ⟨[], ?_⟩) (fun _ h => h)
    rw [List.append_nil, FMap.get_erase, if_neg]
    · exact hq
    · rw [h2]; exact this.symm
  | rest t x s hx hst hd he r hr timers htm =>
    have more : ∀ id c, Pend w id c → Pend { w with
          registry := r
          tasks := w.tasks.insert t { x with stage := .offline s }
          timers := w.timers ++ timers } id c := fun id c hp =>
      hp.more (fun q hq => ⟨[], by simpa using hq⟩) (fun tm htm => List.mem_append_left _ htm)
    refine h.one rfl ?_ fun u y _ _ d _ hp => more _ _ hp
    intro d hdue
    unfold Task.due at hdue
    rcases List.mem_append.1 hdue with h1 | h1
    · simp only at h1
      split at h1
      · cases h1
      · rename_i hpr
        obtain ⟨τ, h2, rfl⟩ := List.mem_map.1 h1
        right
        refine List.mem_append_right _ ?_
        rw [htm, hpr]
        exact List.mem_map.2 ⟨τ, h2, rfl⟩
    · refine more _ _ (h t x hx d ?_)
      unfold Task.due
      rw [hst]
      exact h1
  | fire i tm ht _ hw =>
    have hmem : ∀ tm' ∈ w.timers, tm' ≠ tm → tm' ∈ w.timers.eraseIdx i := by
      intro tm' h1 h2
      obtain ⟨j, hj, hj'⟩ := List.mem_iff_getElem.1 h1
      refine List.mem_eraseIdx_iff_getElem.2 ⟨j, hj, ?_, hj'⟩
      rintro rfl
      rw [List.getElem?_eq_getElem hj] at ht
      exact h2 (by rw [← hj']; exact Option.some.inj ht)
    intro u z hz d hd
    have htasks : w'.tasks = w.tasks := by rcases hw with ⟨rfl, _⟩ | ⟨q, _, _, rfl⟩ <;> rfl
    rw [htasks] at hz
    have hp := h u z hz d hd
    rcases hw with ⟨rfl, hno⟩ | ⟨q, hr, hq, rfl⟩
    · rcases hp with hp | hp
      · exact .inl hp
      · right
        by_cases heq : ({ id := d.1, msg := d.2 } : Timer) = tm
        · exfalso
          subst heq
          obtain ⟨s', h1, h2, _⟩ := mem_due hd
          have v := Tasks.views hz
          have hid : w.registry.identMap.get z.req.identifier = some d.1 :=
            ho.named u d.1 _ (by rw [v.2.1, h1, h2]; rfl) v.2.2.2.1
          have hcl : Tasks.client w.tasks u = some d.1 := by
            rw [v.1, h2]
            cases hst : z.stage <;> rw [hst] at h1 <;> simp [Stage.owner?] at h1 <;> subst h1 <;> rfl
          rcases hno with hno | hno
          · have h3 := (ho.reg.inverse d.1 z.req.identifier).2 hid
            rw [ho.reg.queue] at hno
            cases hg : w.registry.idMap.get d.1 with
            | none => rw [hg] at h3; cases h3
            | some e => simp [hg] at hno
          · have h3 := ho.control d.1
            rw [ho.held u d.1 hcl] at h3
            unfold FMap.contains at h3
            rw [hno] at h3
            cases h3
        · exact hmem _ hp heq
    · rcases hp with ⟨q', h1, h2⟩ | hp
      · left
        by_cases hid : tm.id = d.1
        · rw [← hid, hq] at h1; cases h1
          exact ⟨_, by rw [← hid]; exact FMap.get_insert_self _ _ _, List.mem_append_left _ h2⟩
        · exact ⟨q', by simp only; rw [FMap.get_insert, if_neg hid]; exact h1, h2⟩
      · by_cases heq : ({ id := d.1, msg := d.2 } : Timer) = tm
        · left
          subst heq
          exact ⟨_, FMap.get_insert_self _ _ _, by simp⟩
        · exact .inr (hmem _ hp heq)
  | kick id q hr hq =>
    intro u z hz d hd
    refine (h u z hz d hd).more (fun q' hq' => ?_) (fun _ h => h)
    by_cases hid : id = d.1
    · subst hid
      rw [hq] at hq'; cases hq'
      exact ⟨_, FMap.get_insert_self _ _ _⟩
    · exact ⟨[], by simp only; rw [List.append_nil, FMap.get_insert, if_neg hid]; exact hq'⟩

theorem runs_run {acts : List Act} (h : World.run cfg ext {} acts = some (w, evs)) : Runs w := by
  have key := world_induction (P := fun w _ => BrokerInv w ∧ Runs w)
    ⟨.init, fun t x hx => by cases hx⟩ ?_ h
  · exact key.2
  · rintro w evs a w' e ⟨hi, h1⟩ hs
    exact ⟨hi.step hs, h1.case hi.own (step_cases hs)⟩

end Akasa
