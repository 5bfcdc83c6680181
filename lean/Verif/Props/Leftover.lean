import Verif.Proof.Leftover
import Verif.Props.Return
import Verif.Props.Announced
/-!
# C104: nothing is left of a client that is gone

The whole broker with any number of connections, any packets, any order of steps.
-/
namespace Akasa

variable {cfg : Config} {ext : Ext} {w w' : World} {evs e : List Event}

/-- **C104, queues.**  There are queues for exactly the clients whose session some task has. -/
theorem C104_queues {acts : List Act} (hrun : Reaches cfg ext acts w evs) (id : ClientId) :
    w.queues id ↔ w.serves id := by
  have hi := (BrokerInv.run hrun).own
  have hc := hi.control id
  have key : w.inbox.contains id = true ↔ w.serves id := by
    rw [serves_iff]
    exact ⟨hi.inbox id, fun ⟨t, ht⟩ => hi.held t id ht⟩
  rw [← key]
  unfold World.queues
  unfold FMap.contains at *
  cases h1 : w.inbox.get id <;> cases h2 : w.control.get id <;> simp_all

/-- **C104, registered, partial.**  If no connection failed before its CONNACK, the registry knows
exactly the clients that have a session.  Missing: without the condition, where it is false
(`C104_registered_false`). -/
theorem C104_registered_partial {acts : List Act} (hrun : Reaches cfg ext acts w evs)
    (hf : NoneFailed cfg acts) (id : ClientId) :
    w.knows id ↔ ∃ t s, w.owned t = some s ∧ s.clientId = id := by
  have hi := (BrokerInv.run hrun).own
  have hst := Steady.run hf hrun
  have hname : w.knows id ↔ ∃ name, w.registry.lookup name = some id := by
    unfold World.knows Registry.lookup Registry.nameOf Registry.hasQueue
    rw [hi.reg.queue]
    constructor
    · rintro (h | ⟨name, h⟩ | h)
      · exact h
      · exact ⟨name, (hi.reg.inverse id name).1 h⟩
      · cases hg : w.registry.idMap.get id with
        | none => rw [hg] at h; cases h
        | some e => exact ⟨e.1, (hi.reg.inverse id e.1).1 (by rw [hg]; rfl)⟩
    · exact .inl
  rw [hname]
  constructor
  · rintro ⟨name, h⟩
    obtain ⟨t, s, h1, _, h2⟩ := named_of_live hi h (hst.live name id h)
    exact ⟨t, s, h1, h2⟩
  · rintro ⟨t, s, h1, rfl⟩
    obtain ⟨x, hx, hs⟩ := owned_stage h1
    exact ⟨x.req.identifier, hi.named t s.clientId x.req.identifier (owner_of hx hs)
      (Tasks.views hx).2.2.2.1⟩

/-- **C104, subscriptions, partial.**  If no session with subscriptions was dropped by a new
connection of its client, a lookup in the routing table finds only clients that have a session.
Missing: without the condition, where it is false (`C104_false`). -/
theorem C104_subscribed_partial {acts : List Act} (hrun : Reaches cfg ext acts w evs)
    (hd : NoneDiscarded evs) {topic F : Str} (hv : ValidTopic topic) {id : ClientId} {q : QoS}
    (h : w.routes topic F id q) : ∃ t s, w.owned t = some s ∧ s.clientId = id := by
  obtain ⟨_, _, t, s, _, h1, h2, _⟩ := (C33_agree_partial hrun hd hv F id q).1 h
  exact ⟨t, s, h1, h2⟩

theorem plain_run {acts : List Act} (hrun : Reaches cfg ext acts w evs)
    (hv : ∀ a ∈ acts, a.validFilters) (hs : cfg.sharedAvailable = false ∨ ∀ a ∈ acts, a.noShared) :
    PlainRoute w.route := by
  have harm : ∀ a ∈ acts, a.harmless cfg := by
    intro a ha
    have h1 := hv a ha
    have h2 := hs.imp_right fun h => h a ha
    cases a with
    | packet t env after size p =>
      cases p with
      | subscribe pid ts id => exact fun e he => ⟨h1 e he, h2.imp_right fun h => h e he⟩
      | _ => trivial
    | _ => trivial
  clear hv hs
  induction acts using snoc_induction generalizing w evs with
  | nil => cases hrun; exact PlainRoute.empty
  | snoc acts a ih =>
    obtain ⟨w1, e1, e2, h1, h2, rfl⟩ := run_snoc_world.mp hrun
    obtain ⟨toks, ht⟩ := tokens_run h1
    obtain ⟨w', e, h3, h4⟩ := step_some (ext := ext) ht (BrokerInv.run h1)
      (ih h1 fun b hb => harm b (by simp [hb])) (harm a (by simp))
    rw [h2] at h3; cases h3
    exact h4

/-- **C104, everybody gone, partial.**  Without shared subscriptions, connections that failed before
their CONNACK, and sessions with subscriptions dropped by a new connection: when nobody has a session
any more, nothing is registered, queued or subscribed, and the routing table has no nodes.  Missing:
without the conditions, where it is false (`C104_false`, `C104_registered_false`; shared
subscriptions, C04, C05). -/
theorem C104_bare_partial {acts : List Act} (hrun : Reaches cfg ext acts w evs)
    (hv : ∀ a ∈ acts, a.validFilters) (hs : cfg.sharedAvailable = false ∨ ∀ a ∈ acts, a.noShared)
    (hf : NoneFailed cfg acts) (hd : NoneDiscarded evs) (hn : ∀ id, ¬ w.serves id) : w.Bare := by
  have ho : ∀ t s, w.owned t ≠ some s := by
    intro t s h
    obtain ⟨x, hx, h⟩ := owned_stage h
    refine hn s.clientId (serves_iff.2 ⟨t, ?_⟩)
    rw [(Tasks.views hx).1]
    cases hst : x.stage <;> rw [hst] at h <;> cases h <;> rfl
  have hk : ∀ id, ¬ w.knows id := fun id h => by
    obtain ⟨t, s, h1, _⟩ := (C104_registered_partial hrun hf id).1 h
    exact ho t s h1
  have hq : ∀ id, ¬ w.queues id := fun id h => hn id ((C104_queues hrun id).1 h)
  obtain ⟨ops, h1, h2⟩ := C33_calls_partial hrun hd
  refine ⟨bare_route h1 (plain_run hrun hv hs) ?_, ?_, ?_, ?_, ?_, ?_⟩
  · intro f id
    cases h : subscribed ops f id with
    | none => rfl
    | some q =>
      obtain ⟨t, s, _, h3, _⟩ := (h2 f id q).1 h
      exact absurd h3 (ho t s)
  · refine fmap_nil fun id => ?_
    cases h : w.registry.idMap.get id with
    | none => rfl
    | some v => exact absurd (.inr (.inl ⟨v.1, by unfold Registry.nameOf; rw [h]; rfl⟩)) (hk id)
  · refine fmap_nil fun name => ?_
    cases h : w.registry.identMap.get name with
    | none => rfl
    | some id => exact absurd (.inl ⟨name, h⟩) (hk id)
  · refine fmap_nil fun id => ?_
    cases h : w.registry.clients.get id with
    | none => rfl
    | some v =>
      exact absurd (.inr (.inr (by unfold Registry.hasQueue FMap.contains; rw [h]; rfl))) (hk id)
  · refine fmap_nil fun id => ?_
    cases h : w.inbox.get id with
    | none => rfl
    | some v => exact absurd (.inl ⟨v, h⟩) (hq id)
  · refine fmap_nil fun id => ?_
    cases h : w.control.get id with
    | none => rfl
    | some v => exact absurd (.inr ⟨v, h⟩) (hq id)

theorem subscribed_others {l : List RouteOp} {id : ClientId} (hl : ∀ op ∈ l, op.client ≠ id)
    (ops : List RouteOp) (F : Str) : subscribed (ops ++ l) F id = subscribed ops F id := by
  induction l generalizing ops with
  | nil => rw [List.append_nil]
  | cons op l ih =>
    rw [List.append_cons, ih fun op' h => hl op' (List.mem_cons_of_mem _ h), subscribed_snoc]
    have := hl op List.mem_cons_self
    cases op with
    | sub f c q => simp only [RouteOp.client] at this; simp [SubState.step, Ne.symm this]
    | unsub f c => simp only [RouteOp.client] at this; simp [SubState.step, Ne.symm this]

/-- **C104, leftovers stay.**  Once nobody has the session of a client any more, whatever is in the
routing table for it stays there whatever happens afterwards: nobody can take it away, and a new
session with the same client identifier does not bring the client back. -/
theorem C104_stays {acts acts' : List Act} (hrun : Reaches cfg ext acts w evs) {id : ClientId}
    (hg : w.gaveOut id) (hn : ¬ w.serves id) (hrun' : World.run cfg ext w acts' = some (w', e)) :
    ¬ w'.serves id ∧ ∀ (topic F : Str) (q : QoS), ValidTopic topic →
      (w'.routes topic F id q ↔ w.routes topic F id q) := by
  obtain ⟨h1, l, hl, ho⟩ := gone_run hrun hg hn hrun'
  refine ⟨h1, fun topic F q hv => ?_⟩
  obtain ⟨ops, h⟩ := subsInv_run (full := false) hrun (fun h => by cases h)
  have h2 : RouteTable.empty.run (ops ++ l) = some w'.route := by
    rw [run_append, h.run]; exact hl
  unfold World.routes
  rw [lookup_iff h2 hv, lookup_iff h.run hv, subscribed_others ho]

/-- The full claim: once nobody has a session any more, nothing is left. -/
def NothingLeft : Prop :=
  ∀ (cfg : Config) (ext : Ext) (acts : List Act) (w : World) (evs : List Event),
    Reaches cfg ext acts w evs → (∀ id, ¬ w.serves id) → w.Bare

/-- To check a concrete run. -/
theorem serves_none (h : w.tasks.all (fun e => e.2.stage.session?.isNone) = true) (id : ClientId) :
    ¬ w.serves id := by
  intro hs
  obtain ⟨t, ht⟩ := serves_iff.1 hs
  unfold Tasks.client at ht
  cases hx : w.tasks.get t with
  | none => rw [hx] at ht; cases ht
  | some x =>
    have := List.all_eq_true.1 h _ (FMap.mem_of_get hx)
    rw [hx] at ht
    simp only [Option.isNone_iff_eq_none] at this
    simp [this] at ht

/-- A client with a subscription whose session is kept connects again, and leaves. -/
def exLeaves (level : Level) (clean : Bool) (expiry : Nat) : List Act :=
  [.connect { level, identifier := str "c", clean := false, params := { expiryInterval := 100 } } {} true,
   .packet 0 {} (Clock.const 0) 10 (.subscribe 1 [(str "a", { maxQos := 1 })] none),
   .connect { level, identifier := str "c", clean, params := { expiryInterval := expiry } } {} true,
   .control 0 {}, .accept 1 {} true, .lose 1, .close 1 {} [], .finish 1]

/-- The client resumes its session and then lets it end: nothing is left, though the table had its
subscription before. -/
example : ∃ w evs, Reaches {} exExt (exLeaves .v500 false 0) w evs ∧ NoneFailed {} (exLeaves .v500 false 0) ∧
    NoneDiscarded evs ∧ (∀ id, ¬ w.serves id) ∧ w.Bare ∧
    ∃ w1 evs1, Reaches {} exExt ((exLeaves .v500 false 0).take 7) w1 evs1 ∧ w1.serves 0 ∧ w1.knows 0 ∧
      w1.queues 0 ∧ w1.routes (str "a") (str "a") 0 1 := by
  obtain ⟨w, evs, h1, h2⟩ := reaches_of (cfg := {}) (acts := exLeaves .v500 false 0)
    (P := fun (r : World × List Event) => r.1.tasks.all (fun e => e.2.stage.session?.isNone) &&
      r.2.all (fun e => match e with
        | .discarded _ old => old.subscribes.isEmpty
        | _ => true)) (by decide +kernel)
  simp only [Bool.and_eq_true] at h2
  have hf : NoneFailed {} (exLeaves .v500 false 0) := by
    constructor
    · intro req env wr h
      simp only [exLeaves, List.mem_cons, Act.connect.injEq, reduceCtorEq, List.not_mem_nil, false_or,
        or_false] at h
      rcases h with ⟨rfl, _, rfl⟩ | ⟨rfl, _, rfl⟩ <;> exact ⟨rfl, rfl⟩
    · intro t env wr h
      simp only [exLeaves, List.mem_cons, Act.accept.injEq, reduceCtorEq, List.not_mem_nil, false_or,
        or_false] at h
      exact h.2.2
  have hn := serves_none h2.1
  have hd := noneDiscarded_of h2.2
  obtain ⟨w1, evs1, g1, g2⟩ := reaches_of (cfg := {}) (acts := (exLeaves .v500 false 0).take 7)
    (P := fun (r : World × List Event) => decide ((r.1.owned 1).map (·.clientId) = some 0) &&
      decide (r.1.registry.hasQueue 0) &&
      (r.1.route.getMatches (str "a")).any (fun c => decide (c.topicFilter = some (str "a")) &&
        c.clients.any fun p => decide (p = (0, 1)))) (by decide +kernel)
  simp only [Bool.and_eq_true, decide_eq_true_eq, List.any_eq_true] at g2
  obtain ⟨⟨g2, g3⟩, c, hc, hcf, p, hp, rfl⟩ := g2
  have hs : w1.serves 0 := by
    rw [Option.map_eq_some_iff] at g2
    obtain ⟨s, g2, g4⟩ := g2
    obtain ⟨x, hx, g2⟩ := owned_stage g2
    refine serves_iff.2 ⟨1, ?_⟩
    rw [(Tasks.views hx).1, ← g4]
    cases hst : x.stage <;> rw [hst] at g2 <;> cases g2 <;> rfl
  exact ⟨w, evs, h1, hf, hd, hn,
    C104_bare_partial h1 (by decide) (.inr (by decide)) hf hd hn, w1, evs1, g1, hs,
    .inr (.inr g3), (C104_queues g1 0).2 hs, c, hc, hcf, hp⟩

/-- The full C104 is false of the code, for MQTT 3 and MQTT 5: a client with a kept session that comes
back with a clean start, and leaves, leaves its old subscriptions in the routing table.  Nobody has a
session any more, and whatever happens afterwards they stay. -/
theorem C104_false (level : Level) : ∃ acts w evs, Reaches {} exExt acts w evs ∧
    (∀ id, ¬ w.serves id) ∧ (∀ id, ¬ w.knows id) ∧
    ∀ acts' w' e, World.run {} exExt w acts' = some (w', e) →
      ¬ w'.serves 0 ∧ w'.routes (str "a") (str "a") 0 1 := by
  obtain ⟨w, evs, h1, h2⟩ := reaches_of (cfg := {}) (acts := exLeaves level true 0)
    (P := fun (r : World × List Event) => r.1.tasks.all (fun e => e.2.stage.session?.isNone) &&
      decide (r.1.registry.nextId = 1) && decide (r.1.registry.idMap = []) &&
      decide (r.1.registry.identMap = []) && decide (r.1.registry.clients = []) &&
      (r.1.route.getMatches (str "a")).any (fun c => decide (c.topicFilter = some (str "a")) &&
        c.clients.any fun p => decide (p = (0, 1)))) (by cases level <;> decide +kernel)
  simp only [Bool.and_eq_true, decide_eq_true_eq, List.any_eq_true] at h2
  obtain ⟨⟨⟨⟨⟨h2, h3⟩, h4⟩, h5⟩, h6⟩, c, hc, hcf, p, hp, rfl⟩ := h2
  have hn := serves_none h2
  refine ⟨_, w, evs, h1, hn, ?_, fun acts' w' e hr => ?_⟩
  · rintro id (⟨name, h⟩ | ⟨name, h⟩ | h)
    · unfold Registry.lookup at h; rw [h5] at h; cases h
    · unfold Registry.nameOf at h; rw [h4] at h; cases h
    · unfold Registry.hasQueue at h; rw [h6] at h; cases h
  · obtain ⟨g1, g2⟩ := C104_stays h1 (id := 0) (by unfold World.gaveOut; rw [h3]; exact Nat.one_pos)
      (hn 0) hr
    exact ⟨g1, (g2 _ _ _ (by unfold ValidTopic; decide)).2 ⟨c, hc, hcf, hp⟩⟩

/-- Nor does the registry forget a client whose first connection failed before its CONNACK. -/
theorem C104_registered_false : ∃ acts w evs, Reaches {} exExt acts w evs ∧ (∀ id, ¬ w.serves id) ∧
    ∀ acts' w' e, World.run {} exExt w acts' = some (w', e) → ¬ w'.serves 0 ∧ w'.knows 0 := by
  obtain ⟨w, evs, h1, h2⟩ := reaches_of (cfg := {})
    (acts := [.connect { level := .v500, identifier := str "c", clean := true } {} false])
    (P := fun (r : World × List Event) => r.1.tasks.all (fun e => e.2.stage.session?.isNone) &&
      decide (r.1.registry.identMap.get (str "c") = some 0) && decide (r.1.registry.nextId = 1) &&
      !(r.1.inbox.contains 0)) (by decide +kernel)
  simp only [Bool.and_eq_true, decide_eq_true_eq, Bool.not_eq_true'] at h2
  obtain ⟨⟨⟨h2, h3⟩, h4⟩, h5⟩ := h2
  have hn := serves_none h2
  refine ⟨_, w, evs, h1, hn, fun acts' w' e hr => ?_⟩
  refine ⟨(gone_run h1 (id := 0) (by unfold World.gaveOut; rw [h4]; exact Nat.one_pos) (hn 0) hr).1, ?_⟩
  suffices h : BrokerInv w' ∧ w'.dead (str "c") 0 from .inl ⟨str "c", h.2.1⟩
  induction acts' using snoc_induction generalizing w' e with
  | nil => cases hr; exact ⟨BrokerInv.run h1, h3, h5⟩
  | snoc acts' a ih =>
    obtain ⟨w1, e1, e2, g1, g2, rfl⟩ := run_snoc_world.mp hr
    obtain ⟨hb, hd⟩ := ih _ _ g1
    exact ⟨hb.step g2, dead_step hb.own hd g2⟩

/-- What is there after the first `n` clients have failed. -/
structure Leaves (w : World) (name : Nat → Str) (n : Nat) : Prop where
  next : w.registry.nextId = n
  known : ∀ i, i < n → w.dead (name i) i
  fresh : ∀ i, n ≤ i → w.registry.identMap.get (name i) = none
  gone : ∀ t x, w.tasks.get t = some x → x.stage = .gone

theorem leaves_run (cfg : Config) (ext : Ext) {name : Nat → Str}
    (hinj : ∀ i j, name i = name j → i = j) (level : Level) (n : Nat) :
    ∃ w evs, Reaches cfg ext ((List.range n).map fun i =>
      .connect { level, identifier := name i, clean := true } {} false) w evs ∧ Leaves w name n := by
  induction n with
  | zero => exact ⟨{}, [], rfl, rfl, fun _ h => absurd h (Nat.not_lt_zero _), fun _ _ => rfl,
      fun _ _ h => by cases h⟩
  | succ n ih =>
    obtain ⟨w, evs, hr, h⟩ := ih
    have hstep : ∃ w', w.step cfg ext
        (.connect { level, identifier := name n, clean := true } {} false) = some (w', []) ∧
        Leaves w' name (n + 1) := by
      apply Exists.intro
      apply And.intro
      · show World.connect _ _ _ _ _ = _
        unfold World.connect Registry.add World.setUp
        simp only [h.fresh n (Nat.le_refl n), (start_ids ..).1, Bool.false_and, Bool.false_eq_true,
          if_false]
        rfl
      refine ⟨?_, ?_, ?_, ?_⟩
      · show w.registry.nextId + 1 = _
        rw [h.next]
      · intro i hi
        refine ⟨?_, ?_⟩
        · show FMap.get (FMap.insert w.registry.identMap (name n) w.registry.nextId) (name i) = _
          rw [FMap.get_insert]
          split
          · next he => rw [h.next, hinj _ _ he]
          · next he => exact (h.known i (Nat.lt_of_le_of_ne (Nat.le_of_lt_succ hi)
              fun e => he (by rw [e]))).1
        · show FMap.contains (FMap.erase (FMap.insert w.inbox w.registry.nextId [])
            w.registry.nextId) i = false
          unfold FMap.contains
          rw [FMap.get_erase]
          split
          · rfl
          · next he =>
            rw [FMap.get_insert, if_neg he]
            exact (h.known i (Nat.lt_of_le_of_ne (Nat.le_of_lt_succ hi)
              fun e => he (by rw [h.next, e]))).2
      · intro i hi
        show FMap.get (FMap.insert w.registry.identMap (name n) w.registry.nextId) (name i) = _
        rw [FMap.get_insert, if_neg (fun e => by have := hinj _ _ e; omega)]
        exact h.fresh i (by omega)
      · intro t x hx
        have hx : FMap.get (FMap.insert w.tasks w.nextTask _) t = some x := hx
        rw [FMap.get_insert] at hx
        split at hx
        · cases hx; rfl
        · exact h.gone t x hx
    obtain ⟨w', hs, hl⟩ := hstep
    refine ⟨w', evs ++ [], ?_, hl⟩
    rw [List.range_succ, List.map_append]
    exact run_snoc_world.mpr ⟨_, _, _, hr, hs, rfl⟩

/-- There is no limit to it, whatever the configuration: when `n` clients with different identifiers
have failed before their CONNACK nobody has a session, and the registry has all `n` identifiers, for
ever. -/
theorem C104_grows_false (cfg : Config) (ext : Ext) {name : Nat → Str}
    (hinj : ∀ i j, name i = name j → i = j) (level : Level) (n : Nat) :
    ∃ w evs, Reaches cfg ext ((List.range n).map fun i =>
      .connect { level, identifier := name i, clean := true } {} false) w evs ∧
    (∀ id, ¬ w.serves id) ∧
    ∀ acts' w' e, World.run cfg ext w acts' = some (w', e) → ∀ i, i < n →
      ¬ w'.serves i ∧ w'.registry.lookup (name i) = some i := by
  obtain ⟨w, evs, hr, h⟩ := leaves_run cfg ext hinj level n
  have hn : ∀ id, ¬ w.serves id := by
    rintro id ⟨t, x, s, hx, _, hs⟩
    rw [h.gone t x hx] at hs
    rcases hs with hs | hs | hs | hs | hs | ⟨_, hs⟩ <;> cases hs
  refine ⟨w, evs, hr, hn, fun acts' w' e hr' i hi => ?_⟩
  refine ⟨(gone_run hr (id := i) (by unfold World.gaveOut; rw [h.next]; exact hi) (hn i) hr').1, ?_⟩
  suffices hd : BrokerInv w' ∧ w'.dead (name i) i from hd.2.1
  induction acts' using snoc_induction generalizing w' e with
  | nil => cases hr'; exact ⟨BrokerInv.run hr, h.known i hi⟩
  | snoc acts' a ih =>
    obtain ⟨w1, e1, e2, g1, g2, rfl⟩ := run_snoc_world.mp hr'
    obtain ⟨hb, hd⟩ := ih _ _ g1
    exact ⟨hb.step g2, dead_step hb.own hd g2⟩

/-- Identifiers of different lengths. -/
example (i j : Nat) (h : List.replicate (i + 1) 'c' = List.replicate (j + 1) 'c') : i = j := by
  have := congrArg List.length h
  simpa using this

/-- Both kinds of leftovers contradict the full claim. -/
theorem C104_left_false : ¬ NothingLeft := by
  intro h
  obtain ⟨acts, w, evs, h1, h2, _, h3⟩ := C104_false .v500
  obtain ⟨_, c, hc, _⟩ := h3 [] w [] rfl
  rw [(h {} exExt acts w evs h1 h2).route,
    show RouteTable.empty.getMatches (str "a") = [] by decide] at hc
  cases hc

end Akasa
