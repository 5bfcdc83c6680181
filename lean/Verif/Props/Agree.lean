import Verif.Proof.WorldSubs
import Verif.Props.Owner
/-!
# C33: a session's subscription list and the routing table agree

Over all runs of the whole broker.  UNSUBACK is in `Props/Subscribe.lean`.
-/
namespace Akasa

variable {cfg : Config} {ext : Ext} {w w' : World} {evs e : List Event}

/-- **C33, from the list to the table.**  Whatever happened before: a message whose topic matches a
plain filter in the list of a session finds the client in the routing table, with the granted
QoS. -/
theorem C33_listed {acts : List Act} (hrun : Reaches cfg ext acts w evs) {F : Str} {id : ClientId}
    {q : QoS} (hl : w.lists F id q) (hp : IsPlain F) {topic : Str} (hv : ValidTopic topic)
    (hm : Matches F topic) : w.routes topic F id q := by
  obtain ⟨ops, h⟩ := subsInv_run (full := false) hrun (fun h => by cases h)
  obtain ⟨t, s, d, h1, rfl, h2, rfl⟩ := hl
  obtain ⟨x, hx, hs⟩ := owned_stage h1
  exact (lookup_iff h.run hv _ _ _).2 ⟨hp, hm, (h.agree t x s hx hs F).1 d h2⟩

/-- Two clients with different filters. -/
def exSubs : List Act :=
  exTwice .v500 ++
  [.connect { level := .v311, identifier := str "d", clean := true } {} true,
   .packet 2 {} (Clock.const 0) 10
     (.subscribe 1 [(str "a", { maxQos := 2 }), (str "+", { maxQos := 0 })] none),
   .packet 2 {} (Clock.const 0) 10 (.unsubscribe 2 [str "a"])]

/-- To check a fact about all sessions of a concrete state. -/
theorem owned_all {P : Session → Bool}
    (h : w.tasks.all (fun e => e.2.stage.owner?.all P) = true) {t : TaskId} {s : Session}
    (hs : w.owned t = some s) : P s = true := by
  obtain ⟨x, hx, hs⟩ := owned_stage hs
  have := List.all_eq_true.1 h _ (FMap.mem_of_get hx)
  rw [hs] at this
  exact this

/-- To check a concrete run. -/
theorem noneDiscarded_of (h : evs.all (fun e => match e with
    | .discarded _ old => old.subscribes.isEmpty
    | _ => true) = true) : NoneDiscarded evs := by
  intro t old hm
  have := List.all_eq_true.1 h _ hm
  simpa using this

example : ∃ w evs, Reaches {} exExt exSubs w evs ∧ w.lists (str "a") 0 1 ∧ w.lists (str "+") 1 0 ∧
    ¬ w.lists (str "a") 1 2 := by
  refine ⟨_, _, rfl, ⟨0, _, _, rfl, rfl, rfl, rfl⟩, ⟨2, _, _, rfl, rfl, rfl, rfl⟩, ?_⟩
  rintro ⟨t, s, d, h1, h2, h3, h4⟩
  have := owned_all (P := fun s => s.clientId != 1 || s.subscribes.keys == [str "+"])
    (by decide +kernel) h1
  simp [h2] at this
  have hk := FMap.mem_keys_of_mem (FMap.mem_of_get h3)
  rw [this] at hk
  revert hk
  decide

/-- The history of the table, for all filters (with shared ones). -/
theorem C33_calls_partial {acts : List Act} (hrun : Reaches cfg ext acts w evs)
    (hd : NoneDiscarded evs) :
    ∃ ops, RouteTable.empty.run ops = some w.route ∧
      ∀ F id q, subscribed ops F id = some q ↔ w.lists F id q := by
  obtain ⟨ops, h⟩ := subsInv_run (full := true) hrun (fun _ => hd)
  refine ⟨ops, h.run, fun F id q => ⟨fun hq => ?_, ?_⟩⟩
  · obtain ⟨t, ht⟩ := h.owned rfl F id q hq
    obtain ⟨x, s, hx, hs, rfl⟩ := owner_task ht
    have ha := h.agree t x s hx hs F
    cases hg : s.subs F with
    | none =>
      have := ha.2 rfl hg
      rw [hq] at this; cases this
    | some d =>
      have := ha.1 d hg
      rw [hq] at this
      exact ⟨t, s, d, by rw [owned_of hx]; exact hs, rfl, hg, (Option.some.inj this).symm⟩
  · rintro ⟨t, s, d, h1, rfl, h2, rfl⟩
    obtain ⟨x, hx, hs⟩ := owned_stage h1
    exact (h.agree t x s hx hs F).1 d h2

/-- **C33, partial**: as long as no session with subscriptions was dropped by a new connection of its
client, a message finds exactly the clients whose sessions list a plain filter that matches, with
the QoS of the list.  Missing: runs in which that happened, where the subscriptions of the dropped
session stay in the table (`C33_false`). -/
theorem C33_agree_partial {acts : List Act} (hrun : Reaches cfg ext acts w evs)
    (hd : NoneDiscarded evs) {topic : Str} (hv : ValidTopic topic) (F : Str) (id : ClientId)
    (q : QoS) :
    w.routes topic F id q ↔ IsPlain F ∧ Matches F topic ∧ w.lists F id q := by
  obtain ⟨ops, h1, h2⟩ := C33_calls_partial hrun hd
  unfold World.routes
  rw [lookup_iff h1 hv, h2]

/-- Client 0 is found under the filter `a`; client 1 has unsubscribed from it and is found under `+`
only. -/
example : ∃ w evs, Reaches {} exExt exSubs w evs ∧ NoneDiscarded evs ∧
    (w.route.getMatches (str "a")).map (fun c => (c.topicFilter, c.clients)) =
      [(some (str "a"), [(0, 1)]), (some (str "+"), [(1, 0)])] := by
  exact ⟨_, _, rfl, noneDiscarded_of (by decide +kernel), by decide +kernel⟩

/-- The full claim: the table has a client exactly under the filters its session lists. -/
def AgreeAlways : Prop :=
  ∀ (cfg : Config) (ext : Ext) (acts : List Act) (w : World) (evs : List Event) (topic F : Str)
    (id : ClientId) (q : QoS), Reaches cfg ext acts w evs → ValidTopic topic → Matches F topic →
      w.routes topic F id q → w.lists F id q

/-- The client comes back and asks for a clean session. -/
def exClean : List Act :=
  exTwice .v500 ++ [.control 0 {}, .accept 1 {} true, .connect (exReq .v500 true 100 5) {} true,
    .control 1 {}, .accept 2 {} true]

/-- C33 is false of the code: a new connection that asks for a clean session starts with an empty
list, and the old subscriptions of the client stay in the routing table. -/
theorem C33_false : ¬ AgreeAlways := by
  intro h
  have key : ∃ w evs, Reaches {} exExt exClean w evs ∧
      (w.route.getMatches (str "a")).any (fun c => decide (c.topicFilter = some (str "a")) &&
        c.clients.any fun p => decide (p = (0, 1))) = true ∧
      ∀ t s, w.owned t = some s → s.subscribes = [] := by
    refine ⟨_, _, rfl, by decide +kernel, ?_⟩
    intro t s hs
    simpa using owned_all (P := fun s => s.subscribes.isEmpty) (by decide +kernel) hs
  obtain ⟨w, evs, h1, h2, h3⟩ := key
  have hr : w.routes (str "a") (str "a") 0 1 := by
    simp only [List.any_eq_true, Bool.and_eq_true, decide_eq_true_eq] at h2
    obtain ⟨c, hc, hf, p, hp, rfl⟩ := h2
    exact ⟨c, hc, hf, hp⟩
  obtain ⟨t, s, d, h4, h5, h6, h7⟩ := h {} exExt exClean w evs (str "a") (str "a") 0 1 h1
    (by unfold ValidTopic; decide) ⟨.same _ .done, by decide⟩ hr
  rw [h3 t s h4] at h6
  cases h6

end Akasa
