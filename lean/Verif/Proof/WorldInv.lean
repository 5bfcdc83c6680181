import Verif.Proof.WorldCases
import Verif.Props.Registry
/-! # Invariants of the whole broker: who owns a session -/
namespace Akasa

/-- The session a task has in its hands. -/
def Stage.session? : Stage → Option Session
  | .granted s _ => some s
  | .online s => some s
  | .closed s => some s
  | .ending s => some s
  | .offline s => some s
  | .expired s => some s
  | _ => none

/-- The session a task owns (an expired session is not registered any more). -/
def Stage.owner? : Stage → Option Session
  | .granted s _ => some s
  | .online s => some s
  | .closed s => some s
  | .ending s => some s
  | .offline s => some s
  | _ => none

/-- The connection of a task is over. -/
def Stage.past : Stage → Bool
  | .ending _ => true
  | .offline _ => true
  | .expired _ => true
  | .gone => true
  | _ => false

/-- The client a task waits for. -/
def Stage.waiting? : Stage → Option ClientId
  | .waiting id => some id
  | _ => none

abbrev Tasks := FMap TaskId Task

namespace Tasks

/-- The client whose session a task has in its hands. -/
def client (m : Tasks) (t : TaskId) : Option ClientId :=
  (m.get t).bind fun x => x.stage.session?.map (·.clientId)

/-- The client whose session a task owns. -/
def owner (m : Tasks) (t : TaskId) : Option ClientId :=
  (m.get t).bind fun x => x.stage.owner?.map (·.clientId)

/-- The client a task waits for. -/
def waiting (m : Tasks) (t : TaskId) : Option ClientId :=
  (m.get t).bind fun x => x.stage.waiting?

def name (m : Tasks) (t : TaskId) : Option Str := (m.get t).map fun x => x.req.identifier

def proto (m : Tasks) (t : TaskId) : Option Proto := (m.get t).map fun x => x.req.level.proto

@[grind =] theorem client_insert (m : Tasks) (t u : TaskId) (x : Task) :
    client (FMap.insert m t x) u =
      if t = u then x.stage.session?.map (·.clientId) else client m u := by
  unfold client; rw [FMap.get_insert]; split <;> rfl
@[grind =] theorem owner_insert (m : Tasks) (t u : TaskId) (x : Task) :
    owner (FMap.insert m t x) u =
      if t = u then x.stage.owner?.map (·.clientId) else owner m u := by
  unfold owner; rw [FMap.get_insert]; split <;> rfl
@[grind =] theorem waiting_insert (m : Tasks) (t u : TaskId) (x : Task) :
    waiting (FMap.insert m t x) u =
      if t = u then x.stage.waiting? else waiting m u := by
  unfold waiting; rw [FMap.get_insert]; split <;> rfl
@[grind =] theorem name_insert (m : Tasks) (t u : TaskId) (x : Task) :
    name (FMap.insert m t x) u = if t = u then some x.req.identifier else name m u := by
  unfold name; rw [FMap.get_insert]; split <;> rfl
@[grind =] theorem proto_insert (m : Tasks) (t u : TaskId) (x : Task) :
    proto (FMap.insert m t x) u = if t = u then some x.req.level.proto else proto m u := by
  unfold proto; rw [FMap.get_insert]; split <;> rfl

end Tasks

def Control.from? : Control → Option TaskId
  | .online _ b => some b
  | _ => none

/-- Who owns what. -/
structure OInv (w : World) : Prop where
  reg : w.registry.Inv
  fresh : ∀ t, Tasks.name w.tasks t ≠ none → t < w.nextTask
  named : ∀ t id name, Tasks.owner w.tasks t = some id → Tasks.name w.tasks t = some name →
    w.registry.identMap.get name = some id
  expired : ∀ t id name, Tasks.owner w.tasks t = none → Tasks.client w.tasks t = some id →
    w.registry.identMap.get name ≠ some id
  uniq : ∀ t t' id, Tasks.client w.tasks t = some id → Tasks.client w.tasks t' = some id → t = t'
  below : ∀ t id, Tasks.client w.tasks t = some id → id < w.registry.nextId
  held : ∀ t id, Tasks.client w.tasks t = some id → w.inbox.contains id = true
  inbox : ∀ id, w.inbox.contains id = true → ∃ t, Tasks.client w.tasks t = some id
  control : ∀ id, w.control.contains id = w.inbox.contains id
  known : ∀ b id, Tasks.waiting w.tasks b = some id → id < w.registry.nextId
  wait : ∀ b id t, Tasks.waiting w.tasks b = some id → Tasks.client w.tasks t = some id →
    Tasks.name w.tasks b = Tasks.name w.tasks t
  queue : ∀ id q pr b, w.control.get id = some q → .online pr b ∈ q →
    Tasks.waiting w.tasks b = some id ∧ Tasks.proto w.tasks b = some pr
  nodup : ∀ id q, w.control.get id = some q → (q.filterMap Control.from?).Nodup
  session : ∀ t x s, w.tasks.get t = some x → x.stage.owner? = some s →
    s.identifier = x.req.identifier

attribute [grind =] FMap.get_insert FMap.get_erase Registry.contains_insert Registry.contains_erase

section views
variable (s : Session) (l : Level) (id : ClientId)
@[grind =] theorem session_waiting : (Stage.waiting id).session? = none := rfl
@[grind =] theorem session_granted : (Stage.granted s l).session? = some s := rfl
@[grind =] theorem session_online : (Stage.online s).session? = some s := rfl
@[grind =] theorem session_closed : (Stage.closed s).session? = some s := rfl
@[grind =] theorem session_ending : (Stage.ending s).session? = some s := rfl
@[grind =] theorem session_offline : (Stage.offline s).session? = some s := rfl
@[grind =] theorem session_expired : (Stage.expired s).session? = some s := rfl
@[grind =] theorem session_gone : Stage.gone.session? = none := rfl
@[grind =] theorem owner_waiting : (Stage.waiting id).owner? = none := rfl
@[grind =] theorem owner_granted : (Stage.granted s l).owner? = some s := rfl
@[grind =] theorem owner_online : (Stage.online s).owner? = some s := rfl
@[grind =] theorem owner_closed : (Stage.closed s).owner? = some s := rfl
@[grind =] theorem owner_ending : (Stage.ending s).owner? = some s := rfl
@[grind =] theorem owner_offline : (Stage.offline s).owner? = some s := rfl
@[grind =] theorem owner_expired : (Stage.expired s).owner? = none := rfl
@[grind =] theorem owner_gone : Stage.gone.owner? = none := rfl
@[grind =] theorem waiting_waiting : (Stage.waiting id).waiting? = some id := rfl
@[grind =] theorem waiting_granted : (Stage.granted s l).waiting? = none := rfl
@[grind =] theorem waiting_online : (Stage.online s).waiting? = none := rfl
@[grind =] theorem waiting_closed : (Stage.closed s).waiting? = none := rfl
@[grind =] theorem waiting_ending : (Stage.ending s).waiting? = none := rfl
@[grind =] theorem waiting_offline : (Stage.offline s).waiting? = none := rfl
@[grind =] theorem waiting_expired : (Stage.expired s).waiting? = none := rfl
@[grind =] theorem waiting_gone : Stage.gone.waiting? = none := rfl
end views

variable {cfg : Config} {ext : Ext} {w w' : World} {evs : List Event}

theorem Tasks.views {m : Tasks} {t : TaskId} {x : Task} (hx : FMap.get m t = some x) :
    client m t = x.stage.session?.map (·.clientId) ∧ owner m t = x.stage.owner?.map (·.clientId) ∧
      waiting m t = x.stage.waiting? ∧ name m t = some x.req.identifier ∧
      proto m t = some x.req.level.proto := by
  unfold client owner waiting name proto
  rw [hx]
  exact ⟨rfl, rfl, rfl, rfl, rfl⟩

theorem Tasks.no_views {m : Tasks} {t : TaskId} (hx : FMap.get m t = none) :
    client m t = none ∧ owner m t = none ∧ waiting m t = none ∧ name m t = none ∧
      proto m t = none := by
  unfold client owner waiting name proto
  rw [hx]
  exact ⟨rfl, rfl, rfl, rfl, rfl⟩

theorem Tasks.no_name {m : Tasks} {t : TaskId} (hx : name m t = none) :
    client m t = none ∧ owner m t = none ∧ waiting m t = none ∧ proto m t = none := by
  cases h : FMap.get m t with
  | none => have := no_views h; exact ⟨this.1, this.2.1, this.2.2.1, this.2.2.2.2⟩
  | some x => unfold name at hx; rw [h] at hx; cases hx

/-- The task a request waits as has no session. -/
theorem Tasks.waiting_client {m : Tasks} {t : TaskId} {id : ClientId}
    (h : waiting m t = some id) : client m t = none ∧ owner m t = none := by
  unfold waiting at h
  unfold client owner
  cases hx : FMap.get m t with
  | none => exact ⟨rfl, rfl⟩
  | some x =>
    rw [hx] at h
    simp only [Option.bind_some] at h ⊢
    cases hst : x.stage <;> rw [hst] at h <;> first | exact ⟨rfl, rfl⟩ | cases h

/-- The same tasks with the same clients. -/
structure SameViews (m m' : Tasks) : Prop where
  client : ∀ t, Tasks.client m' t = Tasks.client m t
  owner : ∀ t, Tasks.owner m' t = Tasks.owner m t
  waiting : ∀ t, Tasks.waiting m' t = Tasks.waiting m t
  name : ∀ t, Tasks.name m' t = Tasks.name m t
  proto : ∀ t, Tasks.proto m' t = Tasks.proto m t

theorem SameViews.refl (m : Tasks) : SameViews m m :=
  ⟨fun _ => rfl, fun _ => rfl, fun _ => rfl, fun _ => rfl, fun _ => rfl⟩

theorem SameViews.insert {m : Tasks} {t : TaskId} {x x' : Task} (hx : FMap.get m t = some x)
    (hr : x'.req = x.req)
    (hc : x'.stage.session?.map (·.clientId) = x.stage.session?.map (·.clientId))
    (ho : x'.stage.owner?.map (·.clientId) = x.stage.owner?.map (·.clientId))
    (hw : x'.stage.waiting? = x.stage.waiting?) : SameViews m (FMap.insert m t x') := by
  have := Tasks.views hx
  constructor <;> grind

/-- No new requests in the control queues. -/
def SameQueues (c c' : FMap ClientId (List Control)) : Prop :=
  (∀ id, c'.contains id = c.contains id) ∧
  ∀ id q', c'.get id = some q' → ∃ q, c.get id = some q ∧
    (q'.filterMap Control.from?).Sublist (q.filterMap Control.from?) ∧
    ∀ pr b, Control.online pr b ∈ q' → Control.online pr b ∈ q

theorem SameQueues.refl (c : FMap ClientId (List Control)) : SameQueues c c :=
  ⟨fun _ => rfl, fun _ q' h => ⟨q', h, .refl _, fun _ _ h => h⟩⟩

theorem SameQueues.pop {c : FMap ClientId (List Control)} {id : ClientId} {m : Control}
    {q : List Control} (h : c.get id = some (m :: q)) : SameQueues c (c.insert id q) := by
  constructor
  · intro id'
    rw [Registry.contains_insert]
    by_cases hid : id' = id
    · subst hid; simp [FMap.contains, h]
    · simp [hid]
  · intro id' q' hq'
    rw [FMap.get_insert] at hq'
    by_cases hid : id = id'
    · subst hid
      rw [if_pos rfl] at hq'
      cases hq'
      exact ⟨_, h, (List.sublist_cons_self ..).filterMap _, fun _ _ h => List.mem_cons_of_mem _ h⟩
    · rw [if_neg hid] at hq'
      exact ⟨q', hq', .refl _, fun _ _ h => h⟩

theorem SameQueues.add {c : FMap ClientId (List Control)} {id : ClientId} {m : Control}
    {q : List Control} (h : c.get id = some q) (hm : m.from? = none) :
    SameQueues c (c.insert id (q ++ [m])) := by
  constructor
  · intro id'
    rw [Registry.contains_insert]
    by_cases hid : id' = id
    · subst hid; simp [FMap.contains, h]
    · simp [hid]
  · intro id' q' hq'
    rw [FMap.get_insert] at hq'
    by_cases hid : id = id'
    · subst hid
      rw [if_pos rfl] at hq'
      cases hq'
      refine ⟨_, h, ?_, ?_⟩
      · rw [List.filterMap_append]; simp [hm]
      · intro pr b hb
        rw [List.mem_append] at hb
        rcases hb with hb | hb
        · exact hb
        · rw [List.mem_singleton] at hb
          subst hb; cases hm
    · rw [if_neg hid] at hq'
      exact ⟨q', hq', .refl _, fun _ _ h => h⟩

theorem OInv.same (h : OInv w) (hv : SameViews w.tasks w'.tasks) (hn : w'.nextTask = w.nextTask)
    (hr : w'.registry.Inv)
    (hid : ∀ n, w'.registry.identMap.get n = w.registry.identMap.get n)
    (hnext : w'.registry.nextId = w.registry.nextId)
    (hin : ∀ id, w'.inbox.contains id = w.inbox.contains id)
    (hq : SameQueues w.control w'.control)
    (hs : ∀ t x s, w'.tasks.get t = some x → x.stage.owner? = some s →
      s.identifier = x.req.identifier) : OInv w' := by
  obtain ⟨v1, v2, v3, v4, v5⟩ := hv
  obtain ⟨q1, q2⟩ := hq
  constructor
  case reg => exact hr
  case fresh => have := h.fresh; grind
  case named => have := h.named; grind
  case expired => have := h.expired; grind
  case uniq => have := h.uniq; grind
  case below => have := h.below; grind
  case held => have := h.held; grind
  case inbox =>
    intro id hid
    obtain ⟨t', ht⟩ := h.inbox id (by grind)
    exact ⟨t', by grind⟩
  case control => have := h.control; have := h.held; grind
  case known => have := h.known; grind
  case wait => have := h.wait; grind
  case queue =>
    intro id q pr b h1 h2
    obtain ⟨q0, h3, h4, h5⟩ := q2 id q h1
    have := h.queue id q0 pr b h3 (h5 _ _ h2)
    grind
  case nodup =>
    intro id q h1
    obtain ⟨q0, h3, h4, h5⟩ := q2 id q h1
    exact (h.nodup id q0 h3).sublist h4
  case session => exact hs

theorem session_keep (h : ∀ t x s, w.tasks.get t = some x → x.stage.owner? = some s →
      s.identifier = x.req.identifier) {t : TaskId} {x' : Task}
    (hx : ∀ s, x'.stage.owner? = some s → s.identifier = x'.req.identifier) :
    ∀ u x s, (w.tasks.insert t x').get u = some x → x.stage.owner? = some s →
      s.identifier = x.req.identifier := by
  intro u x s
  rw [FMap.get_insert]
  split
  · intro e; cases e; exact hx s
  · exact h u x s

/-- A step within one session. -/
theorem OInv.keep (h : OInv w) {t : TaskId} {x x' : Task} {s s' : Session}
    (hx : w.tasks.get t = some x) (ht : w'.tasks = w.tasks.insert t x') (hreq : x'.req = x.req)
    (hs : x.stage.session? = some s) (hs' : x'.stage.session? = some s') (hid : SameId s s')
    (ho : x.stage.owner? = some s ∧ x'.stage.owner? = some s' ∨
      x.stage.owner? = none ∧ x'.stage.owner? = none)
    (hn : w'.nextTask = w.nextTask) (hr : w'.registry.Inv)
    (him : ∀ n, w'.registry.identMap.get n = w.registry.identMap.get n)
    (hnext : w'.registry.nextId = w.registry.nextId)
    (hin : ∀ id, w'.inbox.contains id = w.inbox.contains id)
    (hq : SameQueues w.control w'.control) : OInv w' := by
  have hw : ∀ st : Stage, st.session? = some s ∨ st.session? = some s' → st.waiting? = none := by
    intro st h; cases st <;> simp [Stage.session?, Stage.waiting?] at h ⊢
  refine h.same (ht ▸ SameViews.insert hx hreq ?_ ?_ ?_) hn hr him hnext hin hq ?_
  · rw [hs, hs']; simp [hid.client]
  · rcases ho with ⟨h1, h2⟩ | ⟨h1, h2⟩
    · rw [h1, h2]; simp [hid.client]
    · rw [h1, h2]
  · rw [hw _ (.inl hs), hw _ (.inr hs')]
  · rw [ht]
    refine session_keep h.session ?_
    intro s'' h''
    rcases ho with ⟨h1, h2⟩ | ⟨h1, h2⟩
    · rw [h2] at h''; cases h''
      rw [hid.name, hreq]; exact h.session _ _ _ hx h1
    · rw [h2] at h''; cases h''

theorem OInv.deny (h : OInv w) {b : TaskId} {y : Task} {id : ClientId} {pr : Proto}
    {q : List Control}
    (hq : w.control.get id = some (.online pr b :: q)) (hy : w.tasks.get b = some y) :
    OInv { w with
          control := w.control.insert id q
          tasks := w.tasks.insert b { y with stage := .gone } } := by
  have hv := Tasks.views hy
  have hbc := h.queue _ _ _ _ hq List.mem_cons_self
  have hbn := Tasks.waiting_client hbc.1
  have hpos : w.inbox.contains id = true := by rw [← h.control]; simp [FMap.contains, hq]
  constructor
  case reg => exact h.reg
  case fresh => have := h.fresh; grind
  case named => have := h.named; grind
  case expired => have := h.expired; grind
  case uniq => have := h.uniq; grind
  case below => have := h.below; grind
  case held => have := h.held; grind
  case inbox =>
    intro id hid
    obtain ⟨t', ht⟩ := h.inbox id (by grind)
    exact ⟨t', by grind⟩
  case control => have := h.control; have := h.held; grind
  case known => have := h.known; grind
  case wait => have := h.wait; grind
  case queue => have := h.queue;  have := h.nodup; grind [Control.from?]
  case nodup => have := h.nodup; grind [Control.from?]
  case session => have := h.session; grind

theorem OInv.handOver (h : OInv w) {t b : TaskId} {x y : Task} {s s' : Session} {pr : Proto}
    {q : List Control} {level : Level} (hx : w.tasks.get t = some x)
    (hs : x.stage.owner? = some s) (hs2 : x.stage.session? = some s) (hid : SameId s s')
    (hq : w.control.get s.clientId = some (.online pr b :: q)) (hy : w.tasks.get b = some y)
    {inbox : FMap ClientId (List (TaskId × NormalMsg))}
    (hin : ∀ id, inbox.contains id = w.inbox.contains id) :
    OInv { w with
          control := w.control.insert s.clientId q
          tasks := (w.tasks.insert t { x with stage := .gone, sinks := [] }).insert b
            { y with stage := .granted s' level }
          inbox } := by
  have hv := Tasks.views hy
  have hvx := Tasks.views hx
  rw [hs, hs2] at hvx
  simp only [Option.map_some] at hvx
  have hc := hid.client
  have hbc := h.queue _ _ _ _ hq List.mem_cons_self
  have hbn := Tasks.waiting_client hbc.1
  have hbt : b ≠ t := by grind
  have hpos := h.held t _ hvx.1
  have hnb : ∀ pr, Control.online pr b ∉ q := by
    intro pr' hmem
    have := h.nodup _ _ hq
    rw [List.filterMap_cons] at this
    simp only [Control.from?, List.nodup_cons, List.mem_filterMap, not_exists, not_and] at this
    exact this.1 _ hmem rfl
  have hxw : Tasks.waiting w.tasks t = none := by
    cases hw : Tasks.waiting w.tasks t with
    | none => rfl
    | some id => have := Tasks.waiting_client hw; grind
  constructor
  case reg => exact h.reg
  case fresh => have := h.fresh; grind
  case named => have := h.named; have := h.wait; grind
  case expired => have := h.expired; grind
  case uniq => have := h.uniq; grind
  case below => have := h.below; grind
  case held => have := h.held; grind
  case inbox =>
    intro id hid
    obtain ⟨t', ht⟩ := h.inbox id (by grind)
    by_cases hid : id = s.clientId
    · exact ⟨b, by grind⟩
    · exact ⟨t', by grind⟩
  case control => have := h.control; have := h.held; grind
  case known => have := h.known; grind
  case wait => have := h.wait; grind
  case queue => have := h.queue; grind
  case nodup => have := h.nodup; grind [Control.from?]
  case session =>
    have h1 := h.session; have h2 := h.wait b _ t hbc.1; have h3 := hid.name
    have := h1 t x s hx hs
    grind

/-- A client that is not registered yet connects. -/
theorem OInv.newClient (h : OInv w) {req : Request} {r : Registry} {id : ClientId}
    (hadd : w.registry.add req.identifier = some (r, .new id)) {x : Task} (hreq : x.req = req)
    {s : Session} (hs : x.stage.owner? = some s) (hs2 : x.stage.session? = some s)
    (hw : x.stage.waiting? = none)
    (hid : s.clientId = id) (hname : s.identifier = req.identifier)
    (ht : w'.tasks = w.tasks.insert w.nextTask x)
    (hn : w'.nextTask = w.nextTask + 1) (hr : w'.registry = r)
    (hin : w'.inbox = w.inbox.insert id []) (hc : w'.control = w.control.insert id []) :
    OInv w' := by
  have hno : Tasks.name w.tasks w.nextTask = none := by
    have := h.fresh w.nextTask
    grind
  have hno := Tasks.no_name hno
  have hinv := h.reg.add hadd
  have hfresh : w.inbox.contains id = false := by
    have := h.inbox id; have := h.below
    cases h.reg.add_cases hadd
    grind
  constructor
  case reg => rw [hr]; exact hinv
  case fresh => have := h.fresh; grind
  case named =>
    have := h.named; have := h.below
    cases h.reg.add_cases hadd with | new hnone => grind
  case expired =>
    have := h.expired; have := h.below
    cases h.reg.add_cases hadd with | new hnone => grind
  case uniq =>
    have := h.uniq; have := h.below
    cases h.reg.add_cases hadd with | new hnone => grind
  case below =>
    have := h.below
    cases h.reg.add_cases hadd with | new hnone => grind
  case held => have := h.held; grind
  case inbox =>
    intro id' hid'
    by_cases hi : id' = id
    · exact ⟨w.nextTask, by grind⟩
    · obtain ⟨t', ht'⟩ := h.inbox id' (by grind)
      exact ⟨t', by grind⟩
  case control => have := h.control; grind
  case known =>
    have := h.known
    cases h.reg.add_cases hadd with | new hnone => grind
  case wait =>
    have := h.wait; have := h.known
    cases h.reg.add_cases hadd with | new hnone => grind
  case queue => have := h.queue; grind
  case nodup => have := h.nodup; grind
  case session =>
    rw [ht]
    exact session_keep h.session (by grind)

/-- A task that never gets a session. -/
theorem OInv.newGone (h : OInv w) {req : Request} {r : Registry} {a : Added}
    (hadd : w.registry.add req.identifier = some (r, a)) {x : Task} (hreq : x.req = req)
    (hst : x.stage = .gone)
    (ht : w'.tasks = w.tasks.insert w.nextTask x)
    (hn : w'.nextTask = w.nextTask + 1) (hr : w'.registry = r)
    (hin : ∀ id, w'.inbox.contains id = w.inbox.contains id)
    (hc : ∀ id, w'.control.get id = w.control.get id) :
    OInv w' := by
  have hno : Tasks.name w.tasks w.nextTask = none := by
    have := h.fresh w.nextTask
    grind
  have hno := Tasks.no_name hno
  have hinv := h.reg.add hadd
  constructor
  case reg => rw [hr]; exact hinv
  case fresh => have := h.fresh; grind
  case named =>
    have := h.named; have := h.below
    cases h.reg.add_cases hadd <;> grind
  case expired =>
    have := h.expired; have := h.below
    cases h.reg.add_cases hadd <;> grind
  case uniq => have := h.uniq; grind
  case below =>
    have := h.below
    cases h.reg.add_cases hadd <;> grind
  case held => have := h.held; grind
  case inbox =>
    intro id' hid'
    obtain ⟨t', ht'⟩ := h.inbox id' (by grind)
    exact ⟨t', by grind⟩
  case control => have := h.control; grind [FMap.contains]
  case known =>
    have := h.known
    cases h.reg.add_cases hadd <;> grind
  case wait => have := h.wait; grind
  case queue => have := h.queue; grind
  case nodup => have := h.nodup; grind
  case session =>
    rw [ht]
    exact session_keep h.session (by grind)

/-- A connection asks for the session of a registered client. -/
theorem OInv.request (h : OInv w) {req : Request} {r : Registry} {id : ClientId}
    (hadd : w.registry.add req.identifier = some (r, .present id)) {x : Task} (hreq : x.req = req)
    (hst : x.stage = .waiting id) {q : List Control} (hq : w.control.get id = some q)
    (ht : w'.tasks = w.tasks.insert w.nextTask x)
    (hn : w'.nextTask = w.nextTask + 1) (hr : w'.registry = r)
    (hin : w'.inbox = w.inbox)
    (hc : w'.control = w.control.insert id (q ++ [.online req.level.proto w.nextTask])) :
    OInv w' := by
  have hno : Tasks.name w.tasks w.nextTask = none := by
    have := h.fresh w.nextTask
    grind
  have hno' := Tasks.no_name hno
  have hinv := h.reg.add hadd
  have hpos : w.inbox.contains id = true := by rw [← h.control]; simp [FMap.contains, hq]
  have hlt : id < w.registry.nextId := by
    obtain ⟨t', ht'⟩ := h.inbox id hpos
    exact h.below _ _ ht'
  have hreg : w.registry.identMap.get req.identifier = some id := by
    cases h.reg.add_cases hadd with | present id on h1 h2 => exact h1
  have hinj : ∀ n, w.registry.identMap.get n = some id → n = req.identifier := by
    intro n hn
    rw [← h.reg.inverse] at hn hreg
    rw [hn] at hreg
    exact Option.some.inj hreg
  constructor
  case reg => rw [hr]; exact hinv
  case fresh => have := h.fresh; grind
  case named =>
    have := h.named
    cases h.reg.add_cases hadd; grind
  case expired =>
    have := h.expired
    cases h.reg.add_cases hadd; grind
  case uniq => have := h.uniq; grind
  case below =>
    have := h.below
    cases h.reg.add_cases hadd; grind
  case held => have := h.held; grind
  case inbox =>
    intro id' hid'
    obtain ⟨t', ht'⟩ := h.inbox id' (by grind)
    exact ⟨t', by grind⟩
  case control => have := h.control; grind
  case known =>
    have := h.known
    cases h.reg.add_cases hadd; grind
  case wait =>
    have := h.wait
    have h1 : ∀ t, Tasks.client w.tasks t = some id → Tasks.name w.tasks t = some req.identifier := by
      intro t ht
      have := h.expired t id req.identifier
      have := h.named t id
      cases ho : Tasks.owner w.tasks t with
      | none => grind
      | some id' =>
        cases hn : Tasks.name w.tasks t with
        | none => have := Tasks.no_name hn; grind
        | some n =>
          have : id' = id := by
            unfold Tasks.owner Tasks.client at *
            cases hx : FMap.get w.tasks t with
            | none => rw [hx] at ht; cases ht
            | some y =>
              rw [hx] at ht ho
              simp only [Option.bind_some] at ht ho
              cases hst : y.stage <;> rw [hst] at ht ho <;>
                simp [Stage.session?, Stage.owner?] at ht ho <;> grind
          grind
    grind
  case queue => have := h.queue; grind
  case nodup =>
    intro id' q' hq'
    rw [hc, FMap.get_insert] at hq'
    split at hq'
    · cases hq'
      rw [List.filterMap_append, List.nodup_append]
      refine ⟨h.nodup _ _ hq, by simp [Control.from?], ?_⟩
      intro a ha b hb
      simp only [List.filterMap_cons, Control.from?, List.filterMap_nil, List.mem_singleton] at hb
      subst hb
      rw [List.mem_filterMap] at ha
      obtain ⟨c, hc1, hc2⟩ := ha
      cases c with
      | online pr b' =>
        simp [Control.from?] at hc2
        subst hc2
        have := h.queue _ _ _ _ hq hc1
        grind
      | _ => cases hc2
    · exact h.nodup _ _ hq'
  case session =>
    rw [ht]
    exact session_keep h.session (by grind)

/-- The task with the session ends; its receivers are dropped. -/
theorem OInv.drop (h : OInv w) {t : TaskId} {x x' : Task} {s : Session} (hx : w.tasks.get t = some x)
    (hs : x.stage.session? = some s) (hreq : x'.req = x.req) (hst : x'.stage = .gone)
    (ht : w'.tasks = w.tasks.insert t x') (hn : w'.nextTask = w.nextTask) (hr : w'.registry.Inv)
    (hid : ∀ n id, id ≠ s.clientId →
      (w'.registry.identMap.get n = some id ↔ w.registry.identMap.get n = some id))
    (hnext : w'.registry.nextId = w.registry.nextId)
    (hin : w'.inbox = w.inbox.erase s.clientId) (hc : w'.control = w.control.erase s.clientId) :
    OInv w' := by
  have hvx := Tasks.views hx
  rw [hs] at hvx
  simp only [Option.map_some] at hvx
  have hw : Tasks.waiting w.tasks t = none := by
    cases hw : Tasks.waiting w.tasks t with
    | none => rfl
    | some id => have := Tasks.waiting_client hw; grind
  have ho : ∀ t' id, Tasks.owner w.tasks t' = some id → Tasks.client w.tasks t' = some id := by
    intro t' id ho
    unfold Tasks.owner Tasks.client at *
    cases hx : FMap.get w.tasks t' with
    | none => rw [hx] at ho; cases ho
    | some y =>
      rw [hx] at ho
      simp only [Option.bind_some] at ho ⊢
      cases hst : y.stage <;> rw [hst] at ho <;> first | exact ho | cases ho
  constructor
  case reg => exact hr
  case fresh => have := h.fresh; grind
  case named => have := h.named; have := h.uniq; grind
  case expired => have := h.expired; have := h.uniq; grind
  case uniq => have := h.uniq; grind
  case below => have := h.below; grind
  case held => have := h.held; have := h.uniq; grind
  case inbox =>
    intro id' hid'
    obtain ⟨t', ht'⟩ := h.inbox id' (by grind)
    exact ⟨t', by grind⟩
  case control => have := h.control; grind
  case known => have := h.known; grind
  case wait => have := h.wait; grind
  case queue => have := h.queue; grind
  case nodup => have := h.nodup; grind
  case session =>
    rw [ht]
    exact session_keep h.session (by grind)

/-- The session expires: it is not registered any more. -/
theorem OInv.expire (h : OInv w) {t : TaskId} {x x' : Task} {s s' : Session}
    (hx : w.tasks.get t = some x)
    (hs : x.stage.session? = some s) (hreq : x'.req = x.req) (hst : x'.stage = .expired s')
    (hsid : SameId s s')
    (ht : w'.tasks = w.tasks.insert t x') (hn : w'.nextTask = w.nextTask) (hr : w'.registry.Inv)
    (hid : ∀ n id, id ≠ s.clientId →
      (w'.registry.identMap.get n = some id ↔ w.registry.identMap.get n = some id))
    (hgone : ∀ n, w'.registry.identMap.get n ≠ some s.clientId)
    (hnext : w'.registry.nextId = w.registry.nextId)
    (hin : w'.inbox = w.inbox) (hq : SameQueues w.control w'.control) :
    OInv w' := by
  have hvx := Tasks.views hx
  rw [hs] at hvx
  simp only [Option.map_some] at hvx
  have hcl := hsid.client
  have hw : Tasks.waiting w.tasks t = none := by
    cases hw : Tasks.waiting w.tasks t with
    | none => rfl
    | some id => have := Tasks.waiting_client hw; grind
  have ho : ∀ t' id, Tasks.owner w.tasks t' = some id → Tasks.client w.tasks t' = some id := by
    intro t' id ho
    unfold Tasks.owner Tasks.client at *
    cases hx : FMap.get w.tasks t' with
    | none => rw [hx] at ho; cases ho
    | some y =>
      rw [hx] at ho
      simp only [Option.bind_some] at ho ⊢
      cases hst : y.stage <;> rw [hst] at ho <;> first | exact ho | cases ho
  obtain ⟨q1, q2⟩ := hq
  constructor
  case reg => exact hr
  case fresh => have := h.fresh; grind
  case named => have := h.named; have := h.uniq; grind
  case expired => have := h.expired; have := h.uniq; grind
  case uniq => have := h.uniq; grind
  case below => have := h.below; grind
  case held => have := h.held; have := h.uniq; grind
  case inbox =>
    intro id' hid'
    obtain ⟨t', ht'⟩ := h.inbox id' (by grind)
    exact ⟨t', by grind⟩
  case control => have := h.control; grind
  case known => have := h.known; grind
  case wait => have := h.wait; grind
  case queue =>
    intro id q pr b h1 h2
    obtain ⟨q0, h3, h4, h5⟩ := q2 id q h1
    have := h.queue id q0 pr b h3 (h5 _ _ h2)
    grind
  case nodup =>
    intro id q h1
    obtain ⟨q0, h3, h4, h5⟩ := q2 id q h1
    exact (h.nodup id q0 h3).sublist h4
  case session =>
    rw [ht]
    exact session_keep h.session (by grind)

theorem start_ids (cfg : Config) (pr : Proto) (name : Str) (id : ClientId) (c : ConnParams) :
    (Session.start cfg pr name id c).clientId = id ∧
      (Session.start cfg pr name id c).identifier = name := by
  cases pr <;> exact ⟨rfl, rfl⟩

theorem sameId_session (cfg : Config) {req : Request} {old : Session} {level : Level}
    (h : old.identifier = req.identifier) : SameId old (req.session cfg old level).1 := by
  refine ⟨session_client .., ?_⟩
  unfold Request.session
  split
  · cases req.level.proto <;> rfl
  · rw [h]; exact (start_ids ..).2

theorem sameId_pendings {pr : Proto} {clk : Clock} {s0 s : Session} {out : List OutPkt}
    (h : handlePendingsOf pr clk s0 = (s, out)) : SameId s0 s := by
  have := core_pendings pr clk s0
  rw [h] at this
  exact (SameEnd.of_core this).1

theorem contains_rest {α : Type} {m : FMap ClientId α} {id : ClientId} {a b : α}
    (h : m.get id = some a) (id' : ClientId) : (m.insert id b).contains id' = m.contains id' := by
  rw [Registry.contains_insert]
  by_cases hid : id' = id
  · subst hid; simp [FMap.contains, h]
  · simp [hid]

theorem sending_session {st : Stage} {s : Session} (h : st.sending? = some s) (s' : Session) :
    st.session? = some s ∧ (st.setSession s').session? = some s' ∧
      (st.owner? = some s ∧ (st.setSession s').owner? = some s' ∨
        st.owner? = none ∧ (st.setSession s').owner? = none) := by
  cases st <;> simp [Stage.sending?] at h <;> subst h <;>
    simp [Stage.session?, Stage.setSession, Stage.owner?]

theorem Registry.Inv.offline_get {r r' : Registry} {id : ClientId} (h : r.offline id = some r') :
    r'.identMap = r.identMap ∧ r'.nextId = r.nextId := by
  unfold Registry.offline at h
  split at h
  · cases h
  · cases h; exact ⟨rfl, rfl⟩

theorem Registry.Inv.removed {r r' : Registry} (h : r.Inv) {t t' : RouteTable} {id : ClientId}
    {fs : List Str} (hr : removeClient r t id fs = some (r', t')) :
    r'.Inv ∧ r'.nextId = r.nextId ∧ (∀ n, r'.identMap.get n ≠ some id) ∧
      ∀ n id', id' ≠ id → (r'.identMap.get n = some id' ↔ r.identMap.get n = some id') := by
  have hr := (removeClient_run hr).1
  obtain ⟨h1, h2, h3, h4⟩ := h.remove_get hr
  refine ⟨h.remove hr, h1, ?_, ?_⟩
  · intro n hn
    rw [h3] at hn
    split at hn
    · cases hn
    · rename_i hne; exact hne hn
  · intro n id' hid
    rw [h3]
    split
    · rename_i he; rw [he]; simp [Ne.symm hid]
    · rfl

theorem mem_of_eraseIdx {α : Type} {l : List α} {i : Nat} {a : α} (h : a ∈ l.eraseIdx i) : a ∈ l :=
  (List.eraseIdx_sublist l i).subset h

/-- Timers do not ask for sessions. -/
def PlainTimers (w : World) : Prop := ∀ tm ∈ w.timers, tm.msg.from? = none

theorem PlainTimers.case {a : Act} (h : PlainTimers w) (hc : WCase cfg ext w a w' evs) :
    PlainTimers w' := by
  cases hc with
  | closeDelayed t env lost x s hx hst hd hp =>
    intro tm htm
    rcases List.mem_append.1 htm with h1 | h1
    · exact h tm h1
    · obtain ⟨_, _, rfl⟩ := List.mem_map.1 h1; rfl
  | rest t x s hx hst hd he r hr timers htm =>
    intro tm hm
    rcases List.mem_append.1 hm with h1 | h1
    · exact h tm h1
    · rw [htm] at h1
      split at h1
      · cases h1
      · obtain ⟨_, _, rfl⟩ := List.mem_map.1 h1; rfl
  | fire i tm ht _ hw =>
    rcases hw with ⟨rfl, _⟩ | ⟨q, _, _, rfl⟩ <;> exact fun tm htm => h tm (mem_of_eraseIdx htm)
  | _ => exact h

theorem OInv.case {a : Act} (h : OInv w) (hp : PlainTimers w) (hc : WCase cfg ext w a w' evs) : OInv w' := by
  cases hc with
  | idle => exact h
  | fresh req env r id hadd hw s out hs =>
    have h1 := sameId_pendings hs
    have h2 := start_ids cfg req.level.proto req.identifier id req.params
    exact h.newClient hadd rfl rfl rfl rfl (h1.client.trans h2.1) (h1.name.trans h2.2) rfl rfl rfl
      rfl rfl
  | stillborn req env wr r id hadd =>
    have hno : w.control.get id = none := by
      cases h.reg.add_cases hadd with
      | new hn =>
        cases hg : w.control.get w.registry.nextId with
        | none => rfl
        | some q =>
          have := h.control w.registry.nextId
          rw [show w.control.contains w.registry.nextId = true by simp [FMap.contains, hg]] at this
          obtain ⟨t, ht⟩ := h.inbox _ this.symm
          exact absurd (h.below _ _ ht) (Nat.lt_irrefl _)
    have hc := h.control id
    rw [show w.control.contains id = false by simp [FMap.contains, hno]] at hc
    refine h.newGone hadd rfl rfl rfl rfl rfl ?_ ?_
    · intro id'
      simp only [Registry.contains_erase, Registry.contains_insert]
      by_cases hi : id' = id
      · subst hi; simp [← hc]
      · simp [hi]
    · intro id'
      simp only [FMap.get_erase, FMap.get_insert]
      by_cases hi : id = id'
      · subst hi; simp [hno]
      · simp [hi]
  | wait req env wr r id q hadd hq =>
    exact h.request hadd rfl rfl hq rfl rfl rfl rfl rfl
  | locked req env wr r id hadd hq =>
    exact h.newGone hadd rfl rfl rfl rfl rfl (fun _ => rfl) (fun _ => rfl)
  | accept t env x old level hx hst hw s0 present h0 s out hs =>
    have hold := h.session t x old hx (by rw [hst]; rfl)
    have h1 := sameId_session cfg (level := level) hold
    rw [h0] at h1
    exact h.keep hx rfl rfl (s := old) (s' := s) (by rw [hst]; rfl) rfl
      (h1.trans (sameId_pendings hs)) (.inl ⟨by rw [hst]; rfl, rfl⟩) rfl h.reg (fun _ => rfl) rfl
      (fun _ => rfl) (.refl _)
  | refused t env wr x old level hx hst =>
    exact h.drop (x' := { req := x.req, stage := .gone }) hx (s := old) (by rw [hst]; rfl) rfl rfl rfl
      rfl h.reg (fun _ _ _ => Iff.rfl) rfl
      rfl rfl
  | packet t env after size p x s hx hst hd r hr =>
    refine h.keep hx rfl rfl (s := s) (s' := r.session) (by rw [hst]; rfl) ?_
      (ends_onPacket hr).1 (.inl ⟨by rw [hst]; rfl, ?_⟩) rfl h.reg (fun _ => rfl) rfl
      (fun _ => rfl) (.refl _)
    · simp only; split <;> rfl
    · simp only; split <;> rfl
  | normalOn t env x s hx hst hd src m rest hi =>
    exact h.keep hx rfl rfl (s := s) (by rw [hst]; rfl) rfl sameEnd_onNormal.1
      (.inl ⟨by rw [hst]; rfl, rfl⟩) rfl h.reg (fun _ => rfl) rfl (contains_rest hi) (.refl _)
  | normalOff t env x s hx hst hd src m rest hi =>
    exact h.keep hx rfl rfl (s := s) (by rw [hst]; rfl) rfl sameEnd_normal.1
      (.inl ⟨by rw [hst]; rfl, rfl⟩) rfl h.reg (fun _ => rfl) rfl (contains_rest hi) (.refl _)
  | handOn t env x s hx hst b y q hq hy =>
    exact h.handOver hx (by rw [hst]; rfl) (by rw [hst]; rfl) (.refl s) hq hy (fun _ => rfl)
  | handOff t env x s hx hst hd b y q hq hy msgs inbox hm =>
    refine h.handOver hx (s := s) (by rw [hst]; rfl) (by rw [hst]; rfl)
      (SameEnd.of_core (core_drain ..)).1 hq hy ?_
    rcases hm with ⟨_, _, rfl⟩ | ⟨_, _, rfl⟩
    · intro id
      have : w.inbox.contains s.clientId = true := h.held t _ (by
        rw [(Tasks.views hx).1, hst]; rfl)
      rw [Registry.contains_insert]
      by_cases hi : id = s.clientId
      · subst hi; simp [this]
      · simp [hi]
    · intro id; rfl
  | deny t env x s hx hst pr b y q hq hpr hy => exact h.deny hq hy
  | ignored t env x s hx hst c q hq hc =>
    exact h.same (.refl _) rfl h.reg (fun _ => rfl) rfl (fun _ => rfl) (.pop hq) h.session
  | kicked t env x s hx hst q hq =>
    exact h.keep hx rfl rfl (s := s) (by rw [hst]; rfl) rfl (.refl s)
      (.inl ⟨by rw [hst]; rfl, rfl⟩) rfl h.reg (fun _ => rfl) rfl (fun _ => rfl) (.pop hq)
  | expire t env x s hx hst hd time q hq hpr ht s' g m hw r route hrem =>
    obtain ⟨h1, h2, h3, h4⟩ := h.reg.removed hrem
    exact h.expire (x' := { x with stage := .expired s' }) hx (s := s) (by rw [hst]; rfl) rfl rfl hw.1 rfl rfl h1 h4 h3 h2 rfl (.pop hq)
  | lateWill t env x s hx hst hd time q hq hpr ht s' g m hw =>
    exact h.keep hx rfl rfl (s := s) (by rw [hst]; rfl) rfl hw.1
      (.inl ⟨by rw [hst]; rfl, rfl⟩) rfl h.reg (fun _ => rfl) rfl (fun _ => rfl) (.pop hq)
  | lose t x s hx hst =>
    exact h.keep hx rfl rfl (s := s) (by rw [hst]; rfl) rfl (.refl s)
      (.inl ⟨by rw [hst]; rfl, rfl⟩) rfl h.reg (fun _ => rfl) rfl (fun _ => rfl) (.refl _)
  | closeQuiet t env lost x s hx hst hd =>
    exact h.keep hx rfl rfl (s := s) (by rw [hst]; rfl) rfl (.refl s)
      (.inl ⟨by rw [hst]; rfl, rfl⟩) rfl h.reg (fun _ => rfl) rfl (fun _ => rfl) (.refl _)
  | closeWill t env lost x s hx hst hd hp s' g m hw =>
    exact h.keep hx rfl rfl (s := s) (by rw [hst]; rfl) rfl hw.1
      (.inl ⟨by rw [hst]; rfl, rfl⟩) rfl h.reg (fun _ => rfl) rfl (fun _ => rfl) (.refl _)
  | closeDelayed t env lost x s hx hst hd hp =>
    exact h.keep hx rfl rfl (s := s) (by rw [hst]; rfl) rfl (.refl s)
      (.inl ⟨by rw [hst]; rfl, rfl⟩) rfl h.reg (fun _ => rfl) rfl (fun _ => rfl) (.refl _)
  | push t d x s hx hst m rest hq hk =>
    have := sending_session hst
      { s with bcast := if rest.isEmpty then s.bcast.erase d else s.bcast.insert d rest
               bcastCnt := s.bcastCnt - 1 }
    exact h.keep hx rfl rfl this.1 this.2.1 ⟨rfl, rfl⟩ this.2.2 rfl h.reg (fun _ => rfl) rfl
      (fun _ => rfl) (.refl _)
  | flush t d x hx m q hk hi hl =>
    exact h.same (SameViews.insert hx rfl rfl rfl rfl) rfl h.reg (fun _ => rfl) rfl
      (contains_rest hi) (.refl _)
      (session_keep h.session fun s hs => h.session t x s hx hs)
  | giveUp t d x s hx hst hi =>
    have := sending_session hst
      { s with bcast := s.bcast.erase d, bcastCnt := s.bcastCnt - (s.queue d).length }
    exact h.keep hx rfl rfl this.1 this.2.1 ⟨rfl, rfl⟩ this.2.2 rfl h.reg (fun _ => rfl) rfl
      (fun _ => rfl) (.refl _)
  | remove t x s hx hst hd r route hrem =>
    obtain ⟨h1, h2, h3, h4⟩ := h.reg.removed hrem
    refine h.drop (x' := { x with stage := .gone }) hx (s := s) ?_ rfl rfl rfl rfl h1 h4 h2 rfl rfl
    rcases hst with ⟨hst, _⟩ | hst <;> rw [hst] <;> rfl
  | rest t x s hx hst hd he r hr timers htm =>
    obtain ⟨h1, h2⟩ := Registry.Inv.offline_get hr
    exact h.keep hx rfl rfl (s := s) (by rw [hst]; rfl) rfl (.refl s)
      (.inl ⟨by rw [hst]; rfl, rfl⟩) rfl (h.reg.offline hr) (fun _ => by rw [h1]) h2 (fun _ => rfl)
      (.refl _)
  | fire i tm ht _ hw =>
    rcases hw with ⟨rfl, _⟩ | ⟨q, hr, hq, rfl⟩
    · exact h.same (.refl _) rfl h.reg (fun _ => rfl) rfl (fun _ => rfl) (.refl _) h.session
    · exact h.same (.refl _) rfl h.reg (fun _ => rfl) rfl (fun _ => rfl)
        (.add hq (hp tm (List.mem_of_getElem? ht))) h.session
  | kick id q hr hq =>
    exact h.same (.refl _) rfl h.reg (fun _ => rfl) rfl (fun _ => rfl) (.add hq rfl) h.session

end Akasa
