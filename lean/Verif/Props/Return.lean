import Verif.Proof.Return
/-!
# C81: whether a client identifier can be used again
# C82: whether every CONNECT is answered

In every reachable state of the whole broker.
-/
namespace Akasa

variable {cfg : Config} {ext : Ext} {w w' : World} {evs e : List Event}

/-- **C81, closed without answer.**  If a connection is closed at once after its CONNECT registered
the client (or found it registered), no connection with this client identifier is accepted any
more. -/
theorem C81_failed {acts : List Act} (hrun : Reaches cfg ext acts w evs) {req : Request} {env : Env}
    {written : Bool} (hs : w.step cfg ext (.connect req env written) = some (w', e))
    (hst : w'.stopped w.nextTask) : w'.LockedOut cfg ext req.identifier := by
  have hb := BrokerInv.run hrun
  have hb' := hb.step hs
  obtain ⟨x, hx, hst⟩ := hst
  have hnew := (life_new hb.own).2
  cases hc : step_cases hs with
  | idle => rw [hnew] at hx; cases hx
  | fresh req env r id hadd hw s out hs' =>
    simp only [FMap.get_insert_self] at hx
    cases hx
    cases hst
  | stillborn req env wr r id hadd =>
    cases hb.own.reg.add_cases hadd with
    | new hnone =>
      refine dead_lockedOut hb' (id := w.registry.nextId) ⟨?_, ?_⟩
      · exact FMap.get_insert_self ..
      · simp [FMap.contains, FMap.get_erase]
  | wait req env wr r id q hadd hq =>
    simp only [FMap.get_insert_self] at hx
    cases hx
    cases hst
  | locked req env wr r id hadd hq =>
    cases hb.own.reg.add_cases hadd with
    | present id on g1 g2 =>
      refine dead_lockedOut hb' (id := id) ⟨g1, ?_⟩
      rw [← hb.own.control id, FMap.contains, hq]; rfl

/-- **C81, failed take-over.**  The same if the connection was given the session of its client
identifier and ended before CONNACK was written. -/
theorem C81_failed_next {acts : List Act} (hrun : Reaches cfg ext acts w evs) {t : TaskId}
    {env : Env} {written : Bool} (hs : w.step cfg ext (.accept t env written) = some (w', e))
    {old : Session} (ho : w.owned t = some old) (hst : w'.stopped t) :
    w'.LockedOut cfg ext old.identifier := by
  have hb := BrokerInv.run hrun
  have hb' := hb.step hs
  obtain ⟨x, hx, hst⟩ := hst
  obtain ⟨y, hy, hyo⟩ := owned_stage ho
  have v := Tasks.views hy
  have hreg := hb.own.named t old.clientId y.req.identifier (by rw [v.2.1, hyo]; rfl) v.2.2.2.1
  rw [← hb.own.session t y old hy hyo] at hreg
  cases hc : step_cases hs with
  | idle => rw [hy] at hx; cases hx; rw [hst] at hyo; cases hyo
  | accept u env z old' level hz hst' hw s0 present h0 s out hs' =>
    simp only [FMap.get_insert_self] at hx
    cases hx
    cases hst
  | refused u env wr z old' level hz hst' =>
    rw [hz] at hy
    cases hy
    rw [hst'] at hyo
    cases hyo
    exact dead_lockedOut hb' (id := old.clientId) ⟨hreg, by simp [FMap.contains, FMap.get_erase]⟩

/-- **C81, waiting for each other.**  Sessions whose connections are over and which have copies to
pass on to each other while their inboxes are full stay so for ever, and none of their client
identifiers is accepted any more. -/
theorem C81_jam {acts : List Act} (hrun : Reaches cfg ext acts w evs) {ids : List ClientId}
    (h : w.Jammed ids) {t : TaskId} {s : Session} (ht : w.owned t = some s)
    (hid : s.clientId ∈ ids) : w.LockedOut cfg ext s.identifier :=
  jammed_lockedOut (BrokerInv.run hrun) h ht hid

theorem named_of_live (hi : OInv w) {name : Str} {id : ClientId}
    (h : w.registry.identMap.get name = some id) (hin : w.inbox.contains id = true) :
    ∃ t s, w.owned t = some s ∧ s.identifier = name ∧ s.clientId = id := by
  obtain ⟨t, ht⟩ := hi.inbox id hin
  cases ho : Tasks.owner w.tasks t with
  | none => exact absurd h (hi.expired t id name ho ht)
  | some id' =>
    unfold Tasks.owner at ho
    unfold Tasks.client at ht
    cases hx : w.tasks.get t with
    | none => rw [hx] at ht; cases ht
    | some x =>
      rw [hx] at ho ht
      cases hs : x.stage.owner? with
      | none => simp [hs] at ho
      | some s =>
        have hss : x.stage.session? = some s := by
          cases hst : x.stage <;> rw [hst] at hs <;> cases hs <;> rfl
        simp [hss] at ht
        refine ⟨t, s, by rw [owned_of hx]; exact hs, ?_, ht⟩
        rw [hi.session t x s hx hs]
        have hn := hi.named t id x.req.identifier (by
          unfold Tasks.owner; rw [hx]; simp [hs, ht]) (by unfold Tasks.name; rw [hx]; rfl)
        have h1 := (hi.reg.inverse id name).2 h
        have h2 := (hi.reg.inverse id x.req.identifier).2 hn
        rw [h1] at h2
        exact (Option.some.inj h2).symm

/-- **C81, first.**  If no connection failed before its CONNACK, a client identifier without a
session is accepted at once. -/
theorem C81_new {acts : List Act} (hrun : Reaches cfg ext acts w evs) (hf : NoneFailed cfg acts)
    {req : Request} (hn : ¬ w.hasNamed req.identifier) (hw : req.willRefused cfg = false)
    (env : Env) :
    ∃ w' e, w.step cfg ext (.connect req env true) = some (w', e) ∧
      .accepted w.nextTask false ∈ e := by
  have hb := BrokerInv.run hrun
  have hst := Steady.run hf hrun
  have hnone : w.registry.identMap.get req.identifier = none := by
    cases hg : w.registry.identMap.get req.identifier with
    | none => rfl
    | some id =>
      obtain ⟨t, s, h1, h2, _⟩ := named_of_live hb.own hg (hst.live _ _ hg)
      exact absurd ⟨t, s, h1, h2⟩ hn
  simp only [World.step, World.connect, Registry.add, hnone, World.setUp, hw]
  exact ⟨_, _, rfl, by simp⟩

/-- **C82, asked.**  A connection that waits for a session somebody owns has its request in the
queue of that session: requests are not lost. -/
theorem C82_asked {acts : List Act} (hrun : Reaches cfg ext acts w evs) {b : TaskId} {id : ClientId}
    (hb : w.waitsFor b id) (ho : w.hasSession id) :
    ∃ q pr, w.control.get id = some q ∧ .online pr b ∈ q := by
  have hi := (BrokerInv.run hrun).own
  obtain ⟨x, hx, hst⟩ := hb
  obtain ⟨t, s, hs, rfl⟩ := ho
  obtain ⟨y, hy, hyo⟩ := owned_stage hs
  have hc : w.control.contains s.clientId = true := by
    rw [hi.control]
    refine hi.held t _ ?_
    rw [(Tasks.views hy).1]
    cases hst : y.stage <;> rw [hst] at hyo <;> cases hyo <;> rfl
  unfold FMap.contains at hc
  obtain ⟨q, hq⟩ := Option.isSome_iff_exists.1 hc
  obtain ⟨pr, hm⟩ := asked_run hrun b s.clientId q
    (by unfold Tasks.waiting; rw [hx]; simp [hst, Stage.waiting?]) hq
  exact ⟨q, pr, hq, hm⟩

/-- **C82, forgotten.**  A connection that waits for a session nobody owns waits for ever: neither is
it accepted nor does it stop. -/
theorem C82_forgotten {acts : List Act} (hrun : Reaches cfg ext acts w evs) {b : TaskId}
    {id : ClientId} (hb : w.waitsFor b id) (ho : ¬ w.hasSession id) {acts' : List Act}
    {evs' : List Event} (hrun' : World.run cfg ext w acts' = some (w', evs')) :
    w'.waitsFor b id ∧ ∀ p, .accepted b p ∉ evs' := by
  have hB := BrokerInv.run hrun
  obtain ⟨x, hx, hst⟩ := hb
  have hw : Tasks.waiting w.tasks b = some id := by
    unfold Tasks.waiting; rw [hx]; simp [hst, Stage.waiting?]
  have hn : w.inbox.contains id = false ∨ ∀ n, w.registry.identMap.get n ≠ some id := by
    cases hc : w.inbox.contains id with
    | false => exact .inl rfl
    | true =>
      refine .inr fun n hn => ?_
      obtain ⟨t, s, h1, _, h2⟩ := named_of_live hB.own hn hc
      exact ho ⟨t, s, h1, h2⟩
  have key := world_induction (cfg := cfg) (ext := ext)
    (P := fun w evs => (BrokerInv w ∧ Tasks.waiting w.tasks b = some id ∧
      (w.inbox.contains id = false ∨ ∀ n, w.registry.identMap.get n ≠ some id)) ∧
      ∀ p, .accepted b p ∉ evs)
    ⟨⟨hB, hw, hn⟩, fun _ h => by cases h⟩ (by
      rintro w evs a w' e ⟨⟨h1, h2, h3⟩, h4⟩ hs
      obtain ⟨k1, k2⟩ := waits_step h1.own h2 h3 hs
      refine ⟨⟨h1.step hs, k1, k2⟩, fun p hm => ?_⟩
      rcases List.mem_append.1 hm with hm | hm
      · exact h4 p hm
      · unfold Tasks.waiting at k1
        cases accept_cases h1.own (step_cases hs) hm with
        | fresh req env wr id s ha hn hss ht hm he => rw [ht] at k1; cases k1
        | next env x old s0 s level p out ha hx hst h0 hs' ht he => rw [ht] at k1; cases k1) hrun'
  refine ⟨?_, key.2⟩
  have h := key.1.2.1
  unfold Tasks.waiting at h
  cases hx : w'.tasks.get b with
  | none => rw [hx] at h; cases h
  | some y =>
    rw [hx] at h
    refine ⟨y, hx, ?_⟩
    have h : y.stage.waiting? = some id := h
    cases hst : y.stage <;> rw [hst] at h <;> cases h
    rfl

/-- **C82, answered.**  If no connection failed before its CONNACK, and a connection waits for a
session whose owner attends to it, uses the same protocol family, and has nothing but such requests
in its queue, then serving that queue suffices for the connection to be accepted.  Missing: the same
whatever else waits in the queue and whatever the owner is doing, which is false (`C82_false`). -/
theorem C82_partial {acts : List Act} (hrun : Reaches cfg ext acts w evs) (hf : NoneFailed cfg acts)
    {t b : TaskId} {s : Session} (ha : w.attends t s) (hq : w.onlyAsked s.clientId)
    (hb : w.waitsFor b s.clientId) {req req' : Request} (hr : w.request b = some req)
    (hr' : w.request t = some req') (hp : req.level.proto = req'.level.proto) (env : Env) :
    ∃ acts' w' evs' p, World.run cfg ext w acts' = some (w', evs') ∧ .accepted b p ∈ evs' ∧
      ∀ a ∈ acts', a.serves = true := by
  have hB := BrokerInv.run hrun
  obtain ⟨x, hx, hatt, hown⟩ : ∃ x, w.tasks.get t = some x ∧ x.attending s ∧ w.owned t = some s := by
    rcases ha with h | ⟨h, h1, h2⟩
    · unfold World.onlineSession at h
      split at h
      · cases h
      · rename_i x hx
        split at h
        · rename_i s' hst
          cases h
          exact ⟨x, hx, .inl hst, by rw [owned_of hx, hst]; rfl⟩
        · cases h
    · unfold World.offlineSession at h
      split at h
      · cases h
      · rename_i x hx
        split at h
        · rename_i s' hst
          cases h
          refine ⟨x, hx, .inr ⟨hst, ?_⟩, by rw [owned_of hx, hst]; rfl⟩
          unfold Task.idle
          rw [h1, h2 x hx]; rfl
        · cases h
  obtain ⟨q, pr, hcq, hm⟩ := C82_asked hrun hb ⟨t, s, hown, rfl⟩
  have hpr : pr = x.req.level.proto := by
    have h1 := (hB.own.queue _ _ pr b hcq hm).2
    unfold Tasks.proto at h1
    unfold World.request at hr hr'
    rw [hx] at hr'
    cases hr'
    rw [← hp]
    cases hy : w.tasks.get b with
    | none => rw [hy] at hr; cases hr
    | some y =>
      rw [hy] at hr h1
      cases hr
      exact (Option.some.inj h1).symm
  subst hpr
  exact serve env q hB (Steady.run hf hrun).will hx hatt rfl rfl hcq (hq q hcq) hm

/-- **C81, again.**  If no connection failed before its CONNACK, a client identifier whose session is
attended to, with nothing but requests for it in its queue, is accepted again: serving that queue
suffices.  Missing: the same whatever else waits in the queue and whatever the owner is doing, which
is false (`C81_self_false`). -/
theorem C81_partial {acts : List Act} (hrun : Reaches cfg ext acts w evs) (hf : NoneFailed cfg acts)
    {t : TaskId} {s : Session} (ha : w.attends t s) (hq : w.onlyAsked s.clientId) {req req' : Request}
    (hname : req.identifier = s.identifier) (hw : req.willRefused cfg = false)
    (hr' : w.request t = some req') (hp : req.level.proto = req'.level.proto) (env : Env) :
    ∃ acts' w' evs' p, World.run cfg ext w (.connect req env true :: acts') = some (w', evs') ∧
      .accepted w.nextTask p ∈ evs' ∧ ∀ a ∈ acts', a.serves = true := by
  have hB := BrokerInv.run hrun
  obtain ⟨x, hx, hst⟩ : ∃ x, w.tasks.get t = some x ∧ x.stage.owner? = some s := by
    refine owned_stage ?_
    unfold World.owned
    rcases ha with h | ⟨h, _⟩
    · unfold World.onlineSession at h
      split at h
      · cases h
      · split at h
        · rename_i hh; rw [hh]; exact h
        · cases h
    · unfold World.offlineSession at h
      split at h
      · cases h
      · split at h
        · rename_i hh; rw [hh]; exact h
        · cases h
  have v := Tasks.views hx
  have hreg := hB.own.named t s.clientId x.req.identifier (by rw [v.2.1, hst]; rfl) v.2.2.2.1
  rw [← hB.own.session t x s hx hst, ← hname] at hreg
  have hcl : w.registry.clients.contains s.clientId = true := by
    rw [hB.own.reg.queue]
    have := (hB.own.reg.inverse _ _).2 hreg
    cases hg : w.registry.idMap.get s.clientId with
    | none => rw [hg] at this; cases this
    | some _ => rfl
  have hcc : w.control.contains s.clientId = true := by
    rw [hB.own.control]
    refine hB.own.held t _ ?_
    rw [v.1]
    cases hh : x.stage <;> rw [hh] at hst <;> cases hst <;> rfl
  unfold FMap.contains at hcc
  obtain ⟨q, hcq⟩ := Option.isSome_iff_exists.1 hcc
  have hne : w.nextTask ≠ t := by
    rintro rfl
    rw [(life_new hB.own).2] at hx
    cases hx
  obtain ⟨w1, hs, h1, h2, h3, h4⟩ : ∃ w1, w.step cfg ext (.connect req env true) = some (w1, []) ∧
      w1.tasks.get t = w.tasks.get t ∧
      w1.tasks.get w.nextTask = some { req, stage := .waiting s.clientId } ∧
      w1.control.get s.clientId = some (q ++ [.online req.level.proto w.nextTask]) ∧
      w1.nextTask = w.nextTask + 1 := by
    simp only [World.step, World.connect, Registry.add, hreg, hcl, if_true, hcq]
    exact ⟨_, rfl, by simp [FMap.get_insert, hne], FMap.get_insert_self ..,
      FMap.get_insert_self .., rfl⟩
  have hrun1 : Reaches cfg ext (acts ++ [.connect req env true]) w1 (evs ++ []) :=
    run_snoc_world.2 ⟨w, evs, [], hrun, hs, rfl⟩
  have hf1 : NoneFailed cfg (acts ++ [.connect req env true]) := by
    constructor
    · intro r e' wr hm
      rcases List.mem_append.1 hm with hm | hm
      · exact hf.1 r e' wr hm
      · simp at hm; obtain ⟨rfl, _, rfl⟩ := hm; exact ⟨rfl, hw⟩
    · intro r e' wr hm
      rcases List.mem_append.1 hm with hm | hm
      · exact hf.2 r e' wr hm
      · simp at hm
  have ha1 : w1.attends t s := by
    unfold World.attends World.onlineSession World.offlineSession
    rw [h1]
    exact ha
  obtain ⟨acts', w', evs', p, r1, r2, r3⟩ := C82_partial hrun1 hf1 ha1
    (by
      intro q' hq' c hc
      rw [h3] at hq'
      cases hq'
      rcases List.mem_append.1 hc with hc | hc
      · exact hq q hcq c hc
      · simp at hc; exact ⟨_, _, hc⟩)
    ⟨_, h2, rfl⟩ (req := req) (by unfold World.request; rw [h2]; rfl)
    (by unfold World.request; rw [h1]; exact hr') hp env
  exact ⟨acts', w', evs', p, by simp only [World.run, hs, r1, Option.map, List.nil_append], r2, r3⟩

/-! ## Examples and counterexamples -/

/-- The CONNECT of an MQTT 3.1.1 client without will. -/
def exPlain (clean : Bool) : Request := { level := .v311, identifier := str "c", clean }

/-- A message on a topic the client itself subscribes to, passed on to its inbox. -/
def exEcho : List Act :=
  [.packet 0 {} (Clock.const 0) 10 (.publish
    { dup := false, qosPid := .level0, retain := false, topic := str "a", payload := [1] }),
   .push 0 0, .flush 0 0]

/-- A client subscribes to "a" and publishes nine messages to it; before its session takes any of
them from its inbox the connection is lost. -/
def exSelf : List Act :=
  [.connect (exPlain false) {} true,
   .packet 0 {} (Clock.const 0) 10 (.subscribe 1 [(str "a", { maxQos := 1 })] none)] ++
  (List.replicate 9 exEcho).flatten ++ [.lose 0, .close 0 {} []]

/-- Two clients with a subscription to "a" and one to "b", each of which publishes nine messages to
the topic of the other before both connections are lost. -/
def exPair : List Act :=
  [.connect (exPlain false) {} true,
   .packet 0 {} (Clock.const 0) 10 (.subscribe 1 [(str "a", { maxQos := 1 })] none),
   .connect { exPlain false with identifier := str "d" } {} true,
   .packet 1 {} (Clock.const 0) 10 (.subscribe 1 [(str "b", { maxQos := 1 })] none)] ++
  (List.replicate 9 [Act.packet 0 {} (Clock.const 0) 10 (.publish
    { dup := false, qosPid := .level0, retain := false, topic := str "b", payload := [1] }),
    .push 0 1, .flush 0 1]).flatten ++
  (List.replicate 9 [Act.packet 1 {} (Clock.const 0) 10 (.publish
    { dup := false, qosPid := .level0, retain := false, topic := str "a", payload := [1] }),
    .push 1 0, .flush 1 0]).flatten ++
  [.lose 0, .close 0 {} [], .lose 1, .close 1 {} []]

/-- A task whose connection is over holds a copy for `d`, and the inbox of its client is full. -/
def stuckOn (w : World) (t : TaskId) (id d : ClientId) : Bool :=
  match w.tasks.get t with
  | none => false
  | some x =>
    match x.stage with
    | .ending s => decide (s.clientId = id) && x.sinks.contains d &&
        decide (inboxSize ≤ ((w.inbox.get id).getD []).length)
    | _ => false

theorem stuckOn_jam {w : World} {ids : List ClientId}
    (h : ∀ id ∈ ids, ∃ t, ∃ d ∈ ids, stuckOn w t id d = true) : w.Jammed ids := by
  intro id hid
  obtain ⟨t, d, hd, hs⟩ := h id hid
  unfold stuckOn at hs
  split at hs
  · cases hs
  · rename_i x hx
    split at hs
    · rename_i s hst
      simp only [Bool.and_eq_true, decide_eq_true_eq, FMap.contains] at hs
      obtain ⟨⟨h1, h2⟩, h3⟩ := hs
      cases hq : w.inbox.get id with
      | none => rw [hq] at h3; exact absurd h3 (by decide)
      | some q =>
        rw [hq] at h3
        exact ⟨t, x, s, d, q, hx, .inl hst, h1, hd,
          (by intro hn; rw [hn] at h2; cases h2), rfl, h3⟩
    · cases hs

/-- The run ends in a state with this property. -/
theorem ends_in {acts : List Act} {f : World → Bool}
    (h : (match World.run {} exExt {} acts with | some r => f r.1 | none => false) = true) :
    ∃ w evs, Reaches {} exExt acts w evs ∧ f w = true := by
  split at h
  · rename_i r hr; exact ⟨r.1, r.2, hr, h⟩
  · cases h

theorem exSelf_jam : ∃ w evs, Reaches {} exExt exSelf w evs ∧ w.Jammed [0] ∧
    (w.owned 0).map (·.identifier) = some (str "c") ∧ (w.owned 0).map (·.clientId) = some 0 := by
  obtain ⟨w, evs, h1, h2⟩ := ends_in (acts := exSelf) (f := fun w => stuckOn w 0 0 0 &&
    decide ((w.owned 0).map (·.identifier) = some (str "c")) &&
    decide ((w.owned 0).map (·.clientId) = some 0)) (by decide +kernel)
  simp only [Bool.and_eq_true, decide_eq_true_eq] at h2
  refine ⟨w, evs, h1, stuckOn_jam fun id hid => ?_, h2.1.2, h2.2⟩
  cases List.mem_singleton.1 hid
  exact ⟨0, 0, List.mem_singleton.2 rfl, h2.1.1⟩

/-- Two sessions can wait for each other, too. -/
example : ∃ w evs, Reaches {} exExt exPair w evs ∧ w.Jammed [0, 1] ∧
    (w.owned 1).map (·.identifier) = some (str "d") := by
  obtain ⟨w, evs, h1, h2⟩ := ends_in (acts := exPair) (f := fun w => stuckOn w 0 0 1 &&
    stuckOn w 1 1 0 && decide ((w.owned 1).map (·.identifier) = some (str "d"))) (by decide +kernel)
  simp only [Bool.and_eq_true, decide_eq_true_eq] at h2
  refine ⟨w, evs, h1, stuckOn_jam fun id hid => ?_, h2.2⟩
  simp at hid
  rcases hid with rfl | rfl
  · exact ⟨0, 1, by decide, h2.1.1⟩
  · exact ⟨1, 0, by decide, h2.1.2⟩

/-- **C81 is false of the code.**  A connection that is lost before its CONNACK could be written
locks its client identifier out. -/
theorem C81_false : ∃ acts w evs, Reaches {} exExt acts w evs ∧
    acts = [.connect (exPlain false) {} false] ∧ w.LockedOut {} exExt (str "c") :=
  ⟨[.connect (exPlain false) {} false], _, _, rfl, rfl,
    C81_failed (cfg := {}) (ext := exExt) (acts := []) (w := {}) (evs := []) (env := {})
      (req := exPlain false) (written := false) rfl rfl ⟨_, rfl, rfl⟩⟩

/-- **C81 is false of the code**, even if no connection fails before its CONNACK: a client that
subscribes to a topic it publishes to can lock itself out. -/
theorem C81_self_false : ∃ acts w evs, Reaches {} exExt acts w evs ∧ NoneFailed {} acts ∧
    w.LockedOut {} exExt (str "c") := by
  obtain ⟨w, evs, h1, h2, h3, h4⟩ := exSelf_jam
  refine ⟨_, w, evs, h1, ⟨?_, ?_⟩, ?_⟩
  · intro r e' wr hm
    simp [exSelf, exEcho, List.replicate] at hm
    obtain ⟨rfl, _, rfl⟩ := hm
    exact ⟨rfl, rfl⟩
  · intro r e' wr hm
    simp [exSelf, exEcho, List.replicate] at hm
  · cases ho : w.owned 0 with
    | none => rw [ho] at h3; cases h3
    | some s =>
      rw [ho] at h3 h4
      have := C81_jam h1 h2 ho (List.mem_singleton.2 (Option.some.inj h4))
      exact (Option.some.inj h3 : s.identifier = str "c") ▸ this

/-- **C82 is false of the code.**  A client with a clean session whose connection was lost connects
again while the broker has not removed the old session yet: the new connection is neither accepted
nor closed, ever. -/
theorem C82_false : ∃ acts w evs, Reaches {} exExt acts w evs ∧ NoneFailed {} acts ∧
    ∀ acts' w' evs', World.run {} exExt w acts' = some (w', evs') →
      w'.waitsFor 1 0 ∧ ∀ p, .accepted 1 p ∉ evs' := by
  refine ⟨[.connect (exPlain true) {} true, .lose 0, .close 0 {} [],
    .connect (exPlain true) {} true, .finish 0], _, _, rfl, ⟨?_, ?_⟩, ?_⟩
  · intro r e' wr hm
    simp at hm
    obtain ⟨rfl, _, rfl⟩ := hm
    exact ⟨rfl, rfl⟩
  · intro r e' wr hm
    simp at hm
  · intro acts' w' evs' hrun'
    refine C82_forgotten (acts := [.connect (exPlain true) {} true, .lose 0, .close 0 {} [],
      .connect (exPlain true) {} true, .finish 0]) rfl ⟨_, rfl, rfl⟩ ?_ hrun'
    rintro ⟨t, s, ho, _⟩
    rcases t with _ | _ | t
    · cases ho
    · cases ho
    · cases ho

/-- A case of `C81_failed_next`. -/
example : ∃ w evs w' e old, Reaches {} exExt (exTwice .v500 ++ [.control 0 {}]) w evs ∧
    w.step {} exExt (.accept 1 {} false) = some (w', e) ∧ w.owned 1 = some old ∧ w'.stopped 1 :=
  ⟨_, _, _, _, _, rfl, rfl, rfl, _, rfl, rfl⟩

/-- A case of `C81_failed` in which the identifier was locked out before. -/
example : ∃ w evs w' e, Reaches {} exExt [.connect (exPlain false) {} false] w evs ∧
    w.step {} exExt (.connect (exPlain true) {} true) = some (w', e) ∧ w'.stopped w.nextTask :=
  ⟨_, _, _, _, rfl, rfl, _, rfl, rfl⟩

/-- A case of `C81_new`. -/
example : ∃ w evs, Reaches {} exExt (exTwice .v500) w evs ∧ ¬ w.hasNamed (str "d") := by
  refine ⟨_, _, rfl, ?_⟩
  rintro ⟨t, s, ho, hi⟩
  rcases t with _ | _ | t
  · cases ho; cases hi
  · cases ho
  · cases ho

/-- A case of `C82_asked` and `C82_partial`. -/
example : ∃ w evs s, Reaches {} exExt (exTwice .v500) w evs ∧ NoneFailed {} (exTwice .v500) ∧
    w.attends 0 s ∧ w.onlyAsked s.clientId ∧ w.waitsFor 1 s.clientId := by
  refine ⟨_, _, _, rfl, ⟨?_, ?_⟩, .inl rfl, ?_, _, rfl, rfl⟩
  · intro r e' wr hm
    simp [exTwice] at hm
    obtain ⟨rfl, _, rfl⟩ := hm
    exact ⟨rfl, by decide⟩
  · intro r e' wr hm
    simp [exTwice] at hm
  · intro q hq c hc
    cases hq
    cases List.mem_singleton.1 hc
    exact ⟨_, _, rfl⟩

/-- A case of `C81_partial` with an offline session. -/
example : ∃ w evs s, Reaches {} exExt
    [.connect (exPlain false) {} true, .lose 0, .close 0 {} [], .finish 0] w evs ∧
    w.attends 0 s ∧ w.onlyAsked s.clientId := by
  refine ⟨_, _, _, rfl, .inr ⟨rfl, rfl, fun x hx => ?_⟩, fun q hq c hc => ?_⟩
  · cases hx; rfl
  · cases hq; cases hc

end Akasa
