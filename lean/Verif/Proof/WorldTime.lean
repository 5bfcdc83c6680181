import Verif.Proof.WorldInv
/-! # Invariants of the whole broker: connection times and timers -/
namespace Akasa

/-- The task has a connection, or keeps the session of one. -/
def Stage.live : Stage → Bool
  | .online _ => true
  | .closed _ => true
  | .ending _ => true
  | .offline _ => true
  | .expired _ => true
  | _ => false

namespace Tasks

def time (m : Tasks) (t : TaskId) : Option Nat := (m.get t).bind fun x => x.connectedAt

def past (m : Tasks) (t : TaskId) : Bool := ((m.get t).map fun x => x.stage.past).getD false

def live (m : Tasks) (t : TaskId) : Bool := ((m.get t).map fun x => x.stage.live).getD false

@[grind =] theorem time_insert (m : Tasks) (t u : TaskId) (x : Task) :
    time (FMap.insert m t x) u = if t = u then x.connectedAt else time m u := by
  unfold time; rw [FMap.get_insert]; split <;> rfl
@[grind =] theorem past_insert (m : Tasks) (t u : TaskId) (x : Task) :
    past (FMap.insert m t x) u = if t = u then x.stage.past else past m u := by
  unfold past; rw [FMap.get_insert]; split <;> rfl
@[grind =] theorem live_insert (m : Tasks) (t u : TaskId) (x : Task) :
    live (FMap.insert m t x) u = if t = u then x.stage.live else live m u := by
  unfold live; rw [FMap.get_insert]; split <;> rfl

theorem timeViews {m : Tasks} {t : TaskId} {x : Task} (hx : FMap.get m t = some x) :
    time m t = x.connectedAt ∧ past m t = x.stage.past ∧ live m t = x.stage.live := by
  unfold time past live
  rw [hx]
  exact ⟨rfl, rfl, rfl⟩

theorem no_time {m : Tasks} {t : TaskId} (hx : name m t = none) :
    time m t = none ∧ past m t = false ∧ live m t = false := by
  unfold time past live
  cases h : FMap.get m t with
  | none => exact ⟨rfl, rfl, rfl⟩
  | some x => unfold name at hx; rw [h] at hx; cases hx

end Tasks

section views
variable (s : Session) (l : Level) (id : ClientId)
@[grind =] theorem past_waiting : (Stage.waiting id).past = false := rfl
@[grind =] theorem past_granted : (Stage.granted s l).past = false := rfl
@[grind =] theorem past_online : (Stage.online s).past = false := rfl
@[grind =] theorem past_closed : (Stage.closed s).past = false := rfl
@[grind =] theorem past_ending : (Stage.ending s).past = true := rfl
@[grind =] theorem past_offline : (Stage.offline s).past = true := rfl
@[grind =] theorem past_expired : (Stage.expired s).past = true := rfl
@[grind =] theorem past_gone : Stage.gone.past = true := rfl
@[grind =] theorem live_waiting : (Stage.waiting id).live = false := rfl
@[grind =] theorem live_granted : (Stage.granted s l).live = false := rfl
@[grind =] theorem live_online : (Stage.online s).live = true := rfl
@[grind =] theorem live_closed : (Stage.closed s).live = true := rfl
@[grind =] theorem live_ending : (Stage.ending s).live = true := rfl
@[grind =] theorem live_offline : (Stage.offline s).live = true := rfl
@[grind =] theorem live_expired : (Stage.expired s).live = true := rfl
@[grind =] theorem live_gone : Stage.gone.live = false := rfl
end views

/-- The connection time a message is about. -/
def Control.time? : Control → Option Nat
  | .sessionExpired time => some time
  | .willDelayReached time => some time
  | _ => none

/-- A message on its way to a client: a timer that still runs, or in the control queue. -/
def Pend (w : World) (id : ClientId) (c : Control) : Prop :=
  (∃ q, w.control.get id = some q ∧ c ∈ q) ∨ { id := id, msg := c } ∈ w.timers

/-- A connection made at this time is over. -/
def Ended (w : World) (time : Nat) : Prop :=
  ∃ t, Tasks.time w.tasks t = some time ∧ Tasks.past w.tasks t = true

/-- Connection times and timers. -/
structure ClockInv (w : World) : Prop where
  clock : ∀ t time, Tasks.time w.tasks t = some time → time < w.clock
  inj : ∀ t t' time, Tasks.time w.tasks t = some time → Tasks.time w.tasks t' = some time → t = t'
  live : ∀ t, Tasks.live w.tasks t = true → Tasks.time w.tasks t ≠ none
  below : ∀ id c time, Pend w id c → c.time? = some time → id < w.registry.nextId
  ended : ∀ id c time, Pend w id c → c.time? = some time → Ended w time
  v5 : ∀ id c time t, Pend w id c → c.time? = some time → Tasks.client w.tasks t = some id →
    Tasks.proto w.tasks t = some .v5

variable {cfg : Config} {ext : Ext} {w w' : World} {evs : List Event}

/-- What a step does to connection times. -/
structure TimeStep (w w' : World) : Prop where
  next : w.registry.nextId ≤ w'.registry.nextId
  clock : w.clock ≤ w'.clock
  keeps : ∀ t time, Tasks.time w.tasks t = some time → Tasks.past w.tasks t = true →
    Tasks.time w'.tasks t = some time ∧ Tasks.past w'.tasks t = true
  time : ∀ t time, Tasks.time w'.tasks t = some time → Tasks.time w.tasks t = some time ∨
    (time = w.clock ∧ w.clock < w'.clock)
  once : ∀ t t', Tasks.time w'.tasks t = some w.clock → Tasks.time w'.tasks t' = some w.clock →
    t = t'
  live : ∀ t, Tasks.live w'.tasks t = true → Tasks.time w'.tasks t ≠ none
  holder : ∀ t id, Tasks.client w'.tasks t = some id → w.registry.nextId ≤ id ∨
    ∃ t', Tasks.client w.tasks t' = some id ∧ Tasks.proto w.tasks t' = Tasks.proto w'.tasks t

theorem ClockInv.frame (h : ClockInv w) (ho : OInv w') (hs : TimeStep w w')
    (hp : ∀ id c, Pend w' id c → c.time? ≠ none → Pend w id c ∨
      ∃ t, Tasks.time w'.tasks t = c.time? ∧ Tasks.past w'.tasks t = true ∧
        Tasks.client w'.tasks t = some id ∧ Tasks.proto w'.tasks t = some .v5) : ClockInv w' := by
  have hpend : ∀ id c time, Pend w' id c → c.time? = some time → Pend w id c ∨
      ∃ t, Tasks.time w'.tasks t = some time ∧ Tasks.past w'.tasks t = true ∧
        Tasks.client w'.tasks t = some id ∧ Tasks.proto w'.tasks t = some .v5 := by
    intro id c time h1 h2
    rw [← h2]
    exact hp id c h1 (by rw [h2]; simp)
  constructor
  case clock =>
    intro t time ht
    rcases hs.time t time ht with h1 | ⟨h1, h2⟩
    · exact Nat.lt_of_lt_of_le (h.clock _ _ h1) hs.clock
    · rw [h1]; exact h2
  case inj =>
    intro t t' time ht ht'
    rcases hs.time t time ht with h1 | ⟨h1, h2⟩
    · rcases hs.time t' time ht' with h3 | ⟨h3, h4⟩
      · exact h.inj _ _ _ h1 h3
      · have := h.clock _ _ h1; omega
    · subst h1; exact hs.once _ _ ht ht'
  case live => exact hs.live
  case below =>
    intro id c time h1 h2
    rcases hpend _ _ _ h1 h2 with h3 | ⟨t, _, _, h4, _⟩
    · exact Nat.lt_of_lt_of_le (h.below _ _ _ h3 h2) hs.next
    · exact ho.below _ _ h4
  case ended =>
    intro id c time h1 h2
    rcases hpend _ _ _ h1 h2 with h3 | ⟨t, h3, h4, _⟩
    · obtain ⟨t, h4, h5⟩ := h.ended _ _ _ h3 h2
      exact ⟨t, hs.keeps _ _ h4 h5⟩
    · exact ⟨t, h3, h4⟩
  case v5 =>
    intro id c time t h1 h2 h3
    rcases hpend _ _ _ h1 h2 with h4 | ⟨t', _, _, h5, h6⟩
    · rcases hs.holder t id h3 with h5 | ⟨t', h5, h6⟩
      · have := h.below _ _ _ h4 h2
        exact absurd h5 (Nat.not_le.2 this)
      · rw [← h6]; exact h.v5 _ _ _ _ h4 h2 h5
    · rw [ho.uniq _ _ _ h3 h5]; exact h6

theorem Pend.of_control {id : ClientId} {c : Control} (h : Pend w' id c)
    (hc : w'.control = w.control) (ht : w'.timers = w.timers) : Pend w id c := by
  unfold Pend at h ⊢
  rw [hc, ht] at h
  exact h

theorem Pend.of_sub {id : ClientId} {c : Control} (h : Pend w' id c)
    (hc : ∀ id q, w'.control.get id = some q → ∀ c ∈ q, c.time? ≠ none →
      ∃ q', w.control.get id = some q' ∧ c ∈ q')
    (ht : w'.timers = w.timers) (hn : c.time? ≠ none) : Pend w id c := by
  rcases h with ⟨q, h1, h2⟩ | h
  · exact .inl (hc id q h1 c h2 hn)
  · exact .inr (ht ▸ h)

theorem sub_pop {ctl : FMap ClientId (List Control)} {id : ClientId} {m : Control}
    {q : List Control} (h : ctl.get id = some (m :: q)) (id' : ClientId) (q' : List Control)
    (h' : (ctl.insert id q).get id' = some q') (c : Control) (hc : c ∈ q') :
    ∃ q0, ctl.get id' = some q0 ∧ c ∈ q0 := by
  rw [FMap.get_insert] at h'
  split at h'
  · rename_i e; subst e; cases h'; exact ⟨_, h, List.mem_cons_of_mem _ hc⟩
  · exact ⟨_, h', hc⟩

theorem sub_add {ctl : FMap ClientId (List Control)} {id : ClientId} {m : Control}
    {q : List Control} (h : ctl.get id = some q) (hm : m.time? = none) (id' : ClientId)
    (q' : List Control)
    (h' : (ctl.insert id (q ++ [m])).get id' = some q') (c : Control) (hc : c ∈ q')
    (hn : c.time? ≠ none) : ∃ q0, ctl.get id' = some q0 ∧ c ∈ q0 := by
  rw [FMap.get_insert] at h'
  split at h'
  · rename_i e; subst e; cases h'
    rcases List.mem_append.1 hc with hc | hc
    · exact ⟨_, h, hc⟩
    · rw [List.mem_singleton.1 hc] at hn; exact absurd hm hn
  · exact ⟨_, h', hc⟩

theorem sub_erase {ctl : FMap ClientId (List Control)} {id : ClientId} (id' : ClientId)
    (q' : List Control)
    (h' : (ctl.erase id).get id' = some q') (c : Control) (hc : c ∈ q') :
    ∃ q0, ctl.get id' = some q0 ∧ c ∈ q0 := by
  rw [FMap.get_erase] at h'
  split at h'
  · cases h'
  · exact ⟨_, h', hc⟩

theorem sub_fresh {ctl : FMap ClientId (List Control)} {id : ClientId} (id' : ClientId)
    (q' : List Control)
    (h' : (ctl.insert id []).get id' = some q') (c : Control) (hc : c ∈ q') :
    ∃ q0, ctl.get id' = some q0 ∧ c ∈ q0 := by
  rw [FMap.get_insert] at h'
  split at h'
  · cases h'; cases hc
  · exact ⟨_, h', hc⟩

/-- A step of one task within its connection. -/
theorem TimeStep.keep (h : ClockInv w) {t : TaskId} {x x' : Task} (hx : w.tasks.get t = some x)
    (ht : w'.tasks = w.tasks.insert t x') (hreq : x'.req = x.req)
    (hc : x'.connectedAt = x.connectedAt)
    (hs : x'.stage.session?.map (·.clientId) = x.stage.session?.map (·.clientId) ∨
      x'.stage.session? = none)
    (hp : x.stage.past = true → x'.stage.past = true)
    (hl : x'.stage.live = true → x.stage.live = true)
    (hn : w'.registry.nextId = w.registry.nextId) (hk : w'.clock = w.clock) : TimeStep w w' := by
  obtain ⟨v1, _, _, _, v5⟩ := Tasks.views hx
  obtain ⟨u1, u2, u3⟩ := Tasks.timeViews hx
  constructor
  case next => rw [hn]; exact Nat.le_refl _
  case clock => rw [hk]; exact Nat.le_refl _
  case keeps => grind
  case time => grind
  case once => have := h.inj; grind
  case live => have := h.live; grind
  case holder =>
    intro t' id h1
    right
    refine ⟨t', ?_, ?_⟩ <;> grind

theorem TimeStep.same (h : ClockInv w) (ht : w'.tasks = w.tasks)
    (hn : w'.registry.nextId = w.registry.nextId) (hk : w'.clock = w.clock) : TimeStep w w' := by
  constructor
  case next => rw [hn]; exact Nat.le_refl _
  case clock => rw [hk]; exact Nat.le_refl _
  case keeps => grind
  case time => grind
  case once => have := h.inj; grind
  case live => have := h.live; grind
  case holder =>
    intro t' id h1
    right
    refine ⟨t', ?_, ?_⟩ <;> grind

/-- A new task without connection. -/
theorem TimeStep.idleTask (h : ClockInv w) (ho : OInv w) {x : Task}
    (ht : w'.tasks = w.tasks.insert w.nextTask x)
    (hs : x.stage.session? = none) (hl : x.stage.live = false) (hc : x.connectedAt = none)
    (hn : w.registry.nextId ≤ w'.registry.nextId) (hk : w'.clock = w.clock) : TimeStep w w' := by
  have hname : Tasks.name w.tasks w.nextTask = none :=
    Classical.byContradiction fun hne => Nat.lt_irrefl _ (ho.fresh _ hne)
  obtain ⟨u1, u2, u3⟩ := Tasks.no_time hname
  constructor
  case next => exact hn
  case clock => rw [hk]; exact Nat.le_refl _
  case keeps => grind
  case time => grind
  case once => have := h.inj; grind
  case live => have := h.live; grind
  case holder =>
    intro t' id h1
    right
    refine ⟨t', ?_, ?_⟩ <;> grind

/-- A session is handed over to a waiting task of the same protocol version. -/
theorem TimeStep.handOver (h : ClockInv w) {t b : TaskId} {x y : Task} {s s' : Session} {level : Level}
    {x' y' : Task} (hx : w.tasks.get t = some x) (hy : w.tasks.get b = some y)
    (ht : w'.tasks = (w.tasks.insert t x').insert b y')
    (hx' : x'.stage = .gone) (hxc : x'.connectedAt = x.connectedAt) (hy' : y'.stage = .granted s' level)
    (hyr : y'.req = y.req) (hyc : y'.connectedAt = y.connectedAt)
    (hs : x.stage.session? = some s) (hid : SameId s s') (hpr : y.req.level.proto = x.req.level.proto)
    (hyw : y.stage.past = false)
    (hn : w'.registry.nextId = w.registry.nextId) (hk : w'.clock = w.clock) : TimeStep w w' := by
  obtain ⟨v1, _, _, _, v5⟩ := Tasks.views hx
  obtain ⟨u1, u2, u3⟩ := Tasks.timeViews hx
  obtain ⟨_, _, _, _, z5⟩ := Tasks.views hy
  obtain ⟨z1, z2, z3⟩ := Tasks.timeViews hy
  have hcl := hid.client
  constructor
  case next => rw [hn]; exact Nat.le_refl _
  case clock => rw [hk]; exact Nat.le_refl _
  case keeps => grind
  case time => grind
  case once => have := h.inj; grind
  case live => have := h.live; grind
  case holder =>
    intro t' id h1
    right
    by_cases hb : b = t'
    · exact ⟨t, by grind, by grind⟩
    · exact ⟨t', by grind, by grind⟩

/-- The request at the head of a control queue waits. -/
theorem OInv.requester (h : OInv w) {id : ClientId} {pr : Proto} {b : TaskId} {q : List Control}
    (hq : w.control.get id = some (.online pr b :: q)) {y : Task} (hy : w.tasks.get b = some y) :
    y.stage = .waiting id ∧ y.req.level.proto = pr := by
  obtain ⟨h1, h2⟩ := h.queue id _ pr b hq (.head _)
  have := Tasks.views hy
  rw [this.2.2.1] at h1
  rw [this.2.2.2.2] at h2
  refine ⟨?_, Option.some.inj h2⟩
  cases hst : y.stage <;> rw [hst] at h1 <;> cases h1
  rfl

theorem past_setSession (st : Stage) (s : Session) :
    (st.setSession s).past = st.past ∧ (st.setSession s).live = st.live := by
  cases st <;> exact ⟨rfl, rfl⟩

theorem ClockInv.case {a : Act} (h : ClockInv w) (ho : OInv w) (ho' : OInv w')
    (hc : WCase cfg ext w a w' evs) : ClockInv w' := by
  cases hc with
  | idle => exact h
  | fresh req env r id hadd hw s out hs =>
    have hname : Tasks.name w.tasks w.nextTask = none :=
      Classical.byContradiction fun hne => Nat.lt_irrefl _ (ho.fresh _ hne)
    have hcl := (sameId_pendings hs).client.trans (start_ids ..).1
    refine h.frame ho' ?_ fun id' c hp hn => .inl (hp.of_sub (fun i q hq c hc _ =>
      sub_fresh i q hq c hc) rfl hn)
    obtain ⟨u1, u2, u3⟩ := Tasks.no_time hname
    obtain ⟨e1, e2⟩ : id = w.registry.nextId ∧ r.nextId = w.registry.nextId + 1 := by
      cases ho.reg.add_cases hadd; exact ⟨rfl, rfl⟩
    constructor <;> simp only
    case next => rw [e2]; exact Nat.le_succ _
    case clock => omega
    case keeps => grind
    case time => grind
    case once => have := h.clock; grind
    case live => have := h.live; grind
    case holder =>
      intro t' id' h1
      by_cases ht : w.nextTask = t'
      · left
        rw [Tasks.client_insert, if_pos ht] at h1
        simp only [Stage.session?, Option.map_some, Option.some.injEq] at h1
        rw [← h1, hcl, e1]; exact Nat.le_refl _
      · right; exact ⟨t', by grind, by grind⟩
  | stillborn req env wr r id hadd =>
    refine h.frame ho' (.idleTask h ho rfl rfl rfl rfl ?_ rfl) fun id' c hp hn =>
      .inl (hp.of_sub (fun i q hq c hc _ => ?_) rfl hn)
    · cases ho.reg.add_cases hadd; exact Nat.le_succ _
    · obtain ⟨q0, h1, h2⟩ := sub_erase i q hq c hc
      exact sub_fresh i q0 h1 c h2
  | wait req env wr r id q hadd hq =>
    refine h.frame ho' (.idleTask h ho rfl rfl rfl rfl ?_ rfl) fun id' c hp hn =>
      .inl (hp.of_sub (sub_add hq rfl) rfl hn)
    cases ho.reg.add_cases hadd; exact Nat.le_refl _
  | locked req env wr r id hadd hq =>
    refine h.frame ho' (.idleTask h ho rfl rfl rfl rfl ?_ rfl) fun id' c hp hn =>
      .inl (hp.of_control rfl rfl)
    cases ho.reg.add_cases hadd; exact Nat.le_refl _
  | accept t env x old level hx hst hw s0 present h0 s out hs =>
    have hold := ho.session t x old hx (by rw [hst]; rfl)
    have h1 := sameId_session cfg (level := level) hold
    rw [h0] at h1
    have hcl := (h1.trans (sameId_pendings hs)).client
    refine h.frame ho' ?_ fun id' c hp hn => .inl (hp.of_control rfl rfl)
    obtain ⟨v1, _, _, _, v5⟩ := Tasks.views hx
    obtain ⟨u1, u2, u3⟩ := Tasks.timeViews hx
    rw [hst] at v1 u2 u3
    constructor <;> simp only
    case next => exact Nat.le_refl _
    case clock => omega
    case keeps => grind
    case time => grind
    case once => have := h.clock; grind
    case live => have := h.live; grind
    case holder =>
      intro t' id' h1
      right; exact ⟨t', by grind, by grind⟩
  | refused t env wr x old level hx hst =>
    refine h.frame ho' ?_ fun id' c hp hn => .inl (hp.of_sub (fun i q hq c hc _ =>
      sub_erase i q hq c hc) rfl hn)
    obtain ⟨v1, _, _, _, v5⟩ := Tasks.views hx
    obtain ⟨u1, u2, u3⟩ := Tasks.timeViews hx
    rw [hst] at v1 u2 u3
    constructor <;> simp only
    case next => exact Nat.le_refl _
    case clock => omega
    case keeps => grind
    case time => grind
    case once => have := h.clock; grind
    case live => have := h.live; grind
    case holder =>
      intro t' id' h1
      right; exact ⟨t', by grind, by grind⟩
  | packet t env after size p x s hx hst hd r hr =>
    have hcl := (ends_onPacket hr).1.client
    refine h.frame ho' (.keep h hx rfl rfl rfl (.inl ?_) ?_ ?_ rfl rfl) fun id' c hp hn =>
      .inl (hp.of_control rfl rfl)
    · rw [hst]; simp only; split <;> simp [Stage.session?, hcl]
    · rw [hst]; intro h; cases h
    · rw [hst]; intro _; rfl
  | normalOn t env x s hx hst hd src m rest hi =>
    refine h.frame ho' (.keep h hx rfl rfl rfl (.inl ?_) ?_ ?_ rfl rfl) fun id' c hp hn =>
      .inl (hp.of_control rfl rfl)
    · rw [hst]; simp [Stage.session?, sameEnd_onNormal.1.client]
    · rw [hst]; exact id
    · rw [hst]; exact id
  | normalOff t env x s hx hst hd src m rest hi =>
    refine h.frame ho' (.keep h hx rfl rfl rfl (.inl ?_) ?_ ?_ rfl rfl) fun id' c hp hn =>
      .inl (hp.of_control rfl rfl)
    · rw [hst]; simp [Stage.session?, sameEnd_normal.1.client]
    · rw [hst]; exact id
    · rw [hst]; exact id
  | handOn t env x s hx hst b y q hq hy =>
    obtain ⟨hyw, hpr⟩ := ho.requester hq hy
    exact h.frame ho' (.handOver h hx hy rfl rfl rfl rfl rfl rfl (by rw [hst]; rfl) (.refl s) hpr
      (by rw [hyw]; rfl) rfl rfl) fun id' c hp hn => .inl (hp.of_sub (fun i q' hq' c hc _ =>
      sub_pop hq i q' hq' c hc) rfl hn)
  | handOff t env x s hx hst hd b y q hq hy msgs inbox hm =>
    obtain ⟨hyw, hpr⟩ := ho.requester hq hy
    exact h.frame ho' (.handOver h hx hy rfl rfl rfl rfl rfl rfl (s := s) (by rw [hst]; rfl)
      (SameEnd.of_core (core_drain ..)).1 hpr (by rw [hyw]; rfl) rfl rfl)
      fun id' c hp hn => .inl (hp.of_sub (fun i q' hq' c hc _ => sub_pop hq i q' hq' c hc) rfl hn)
  | deny t env x s hx hst pr b y q hq hpr hy =>
    obtain ⟨hyw, _⟩ := ho.requester hq hy
    refine h.frame ho' (.keep h hy rfl rfl rfl (.inr rfl) ?_ ?_ rfl rfl) fun id' c hp hn =>
      .inl (hp.of_sub (fun i q' hq' c hc _ => sub_pop hq i q' hq' c hc) rfl hn)
    · intro _; rfl
    · intro h; cases h
  | ignored t env x s hx hst c q hq hc =>
    exact h.frame ho' (.same h rfl rfl rfl) fun id' c hp hn =>
      .inl (hp.of_sub (fun i q' hq' c hc _ => sub_pop hq i q' hq' c hc) rfl hn)
  | kicked t env x s hx hst q hq =>
    refine h.frame ho' (.keep h hx rfl rfl rfl (.inl ?_) ?_ ?_ rfl rfl) fun id' c hp hn =>
      .inl (hp.of_sub (fun i q' hq' c hc _ => sub_pop hq i q' hq' c hc) rfl hn)
    · rw [hst]; rfl
    · rw [hst]; exact id
    · rw [hst]; exact id
  | expire t env x s hx hst hd time q hq hpr ht s' g m hw r route hrem =>
    obtain ⟨h1, h2, h3, h4⟩ := ho.reg.removed hrem
    refine h.frame ho' (.keep h hx rfl rfl rfl (.inl ?_) ?_ ?_ h2 rfl) fun id' c hp hn =>
      .inl (hp.of_sub (fun i q' hq' c hc _ => sub_pop hq i q' hq' c hc) rfl hn)
    · rw [hst]; simp [Stage.session?, hw.1.client]
    · rw [hst]; exact id
    · rw [hst]; exact id
  | lateWill t env x s hx hst hd time q hq hpr ht s' g m hw =>
    refine h.frame ho' (.keep h hx rfl rfl rfl (.inl ?_) ?_ ?_ rfl rfl) fun id' c hp hn =>
      .inl (hp.of_sub (fun i q' hq' c hc _ => sub_pop hq i q' hq' c hc) rfl hn)
    · rw [hst]; simp [Stage.session?, hw.1.client]
    · rw [hst]; exact id
    · rw [hst]; exact id
  | lose t x s hx hst =>
    refine h.frame ho' (.keep h hx rfl rfl rfl (.inl ?_) ?_ ?_ rfl rfl) fun id' c hp hn =>
      .inl (hp.of_control rfl rfl)
    · rw [hst]; rfl
    · rw [hst]; exact id
    · rw [hst]; exact id
  | closeQuiet t env lost x s hx hst hd =>
    refine h.frame ho' (.keep h hx rfl rfl rfl (.inl ?_) ?_ ?_ rfl rfl) fun id' c hp hn =>
      .inl (hp.of_control rfl rfl)
    · rw [hst]; rfl
    · intro _; rfl
    · rw [hst]; exact id
  | closeWill t env lost x s hx hst hd hp s' g m hw =>
    refine h.frame ho' (.keep h hx rfl rfl rfl (.inl ?_) ?_ ?_ rfl rfl) fun id' c hp hn =>
      .inl (hp.of_control rfl rfl)
    · rw [hst]; simp [Stage.session?, hw.1.client]
    · intro _; rfl
    · rw [hst]; exact id
  | closeDelayed t env lost x s hx hst hd hp =>
    refine h.frame ho' (.keep h hx rfl rfl rfl (.inl ?_) ?_ ?_ rfl rfl) fun id' c hp' hn => ?_
    · rw [hst]; rfl
    · intro _; rfl
    · rw [hst]; exact id
    · rcases hp' with hp' | hp'
      · exact .inl (.inl hp')
      · rcases List.mem_append.1 hp' with h1 | h1
        · exact .inl (.inr h1)
        · obtain ⟨time, h2, h3⟩ := List.mem_map.1 h1
          simp only [Timer.mk.injEq] at h3
          obtain ⟨rfl, rfl⟩ := h3
          rw [Option.mem_toList] at h2
          right
          refine ⟨t, ?_, ?_, ?_, ?_⟩
          · simp [Tasks.time_insert, h2, Control.time?]
          · simp [Tasks.past_insert, Stage.past]
          · simp [Tasks.client_insert, Stage.session?]
          · simp only [Tasks.proto_insert, if_true, Option.some.injEq]
            unfold willPlan at hp
            split at hp
            · cases hp
            · assumption
  | push t d x s hx hst m rest hq hk =>
    have h1 := sending_session hst
      { s with bcast := if rest.isEmpty then s.bcast.erase d else s.bcast.insert d rest
               bcastCnt := s.bcastCnt - 1 }
    have h2 := past_setSession x.stage
      { s with bcast := if rest.isEmpty then s.bcast.erase d else s.bcast.insert d rest
               bcastCnt := s.bcastCnt - 1 }
    refine h.frame ho' (.keep h hx rfl rfl rfl (.inl ?_) ?_ ?_ rfl rfl) fun id' c hp hn =>
      .inl (hp.of_control rfl rfl)
    · rw [h1.1, h1.2.1]; rfl
    · rw [h2.1]; exact id
    · rw [h2.2]; exact id
  | flush t d x hx m q hk hi hl =>
    exact h.frame ho' (.keep h hx rfl rfl rfl (.inl rfl) id id rfl rfl) fun id' c hp hn =>
      .inl (hp.of_control rfl rfl)
  | giveUp t d x s hx hst hi =>
    have h1 := sending_session hst
      { s with bcast := s.bcast.erase d, bcastCnt := s.bcastCnt - (s.queue d).length }
    have h2 := past_setSession x.stage
      { s with bcast := s.bcast.erase d, bcastCnt := s.bcastCnt - (s.queue d).length }
    refine h.frame ho' (.keep h hx rfl rfl rfl (.inl ?_) ?_ ?_ rfl rfl) fun id' c hp hn =>
      .inl (hp.of_control rfl rfl)
    · rw [h1.1, h1.2.1]; rfl
    · rw [h2.1]; exact id
    · rw [h2.2]; exact id
  | remove t x s hx hst hd r route hrem =>
    obtain ⟨h1, h2, h3, h4⟩ := ho.reg.removed hrem
    refine h.frame ho' (.keep h hx rfl rfl rfl (.inr rfl) ?_ ?_ h2 rfl) fun id' c hp hn =>
      .inl (hp.of_sub (fun i q hq c hc _ => sub_erase i q hq c hc) rfl hn)
    · intro _; rfl
    · intro h; cases h
  | rest t x s hx hst hd he r hr timers htm =>
    obtain ⟨h1, h2⟩ := Registry.Inv.offline_get hr
    refine h.frame ho' (.keep h hx rfl rfl rfl (.inl ?_) ?_ ?_ h2 rfl) fun id' c hp' hn => ?_
    · rw [hst]; rfl
    · intro _; rfl
    · rw [hst]; exact id
    · rcases hp' with hp' | hp'
      · exact .inl (.inl hp')
      · rcases List.mem_append.1 hp' with h1 | h1
        · exact .inl (.inr h1)
        · rw [htm] at h1
          split at h1
          · cases h1
          · rename_i hpr
            obtain ⟨time, h2, h3⟩ := List.mem_map.1 h1
            simp only [Timer.mk.injEq] at h3
            obtain ⟨rfl, rfl⟩ := h3
            rw [Option.mem_toList] at h2
            right
            refine ⟨t, ?_, ?_, ?_, ?_⟩
            · simp [Tasks.time_insert, h2, Control.time?]
            · simp [Tasks.past_insert, Stage.past]
            · simp [Tasks.client_insert, Stage.session?]
            · simp [Tasks.proto_insert, hpr]
  | fire i tm ht _ hw =>
    rcases hw with ⟨rfl, _⟩ | ⟨q, hr, hq, rfl⟩
    · refine h.frame ho' (.same h rfl rfl rfl) fun id c hp hn => .inl ?_
      rcases hp with hp | hp
      · exact .inl hp
      · exact .inr (mem_of_eraseIdx hp)
    · refine h.frame ho' (.same h rfl rfl rfl) fun id c hp hn => .inl ?_
      rcases hp with ⟨q', hp, hc⟩ | hp
      · simp only [FMap.get_insert] at hp
        split at hp
        · rename_i e; subst e
          cases hp
          rcases List.mem_append.1 hc with hc | hc
          · exact .inl ⟨q, hq, hc⟩
          · rw [List.mem_singleton] at hc
            subst hc
            exact .inr (List.mem_of_getElem? ht)
        · exact .inl ⟨q', hp, hc⟩
      · exact .inr (mem_of_eraseIdx hp)
  | kick id q hr hq =>
    exact h.frame ho' (.same h rfl rfl rfl) fun id' c hp hn => .inl (hp.of_sub (sub_add hq rfl) rfl hn)

/-- The broker at the start. -/
theorem OInv.init : OInv {} := by
  have hn : ∀ t, (FMap.get ([] : Tasks) t) = none := fun _ => rfl
  constructor
  case reg => exact Registry.Inv.empty
  case session => intro t x s h; cases h
  case fresh => intro t h; exact absurd (Tasks.no_views (hn t)).2.2.2.1 h
  case named => intro t id n h; rw [(Tasks.no_views (hn t)).2.1] at h; cases h
  case expired => intro t id n _ h; rw [(Tasks.no_views (hn t)).1] at h; cases h
  case uniq => intro t t' id h; rw [(Tasks.no_views (hn t)).1] at h; cases h
  case below => intro t id h; rw [(Tasks.no_views (hn t)).1] at h; cases h
  case held => intro t id h; rw [(Tasks.no_views (hn t)).1] at h; cases h
  case inbox => intro id h; cases h
  case control => intro id; rfl
  case known => intro b id h; rw [(Tasks.no_views (hn b)).2.2.1] at h; cases h
  case wait => intro b id t h; rw [(Tasks.no_views (hn b)).2.2.1] at h; cases h
  case queue => intro id q pr b h; cases h
  case nodup => intro id q h; cases h

theorem ClockInv.init : ClockInv {} := by
  have hn : ∀ t, (FMap.get ([] : Tasks) t) = none := fun _ => rfl
  have hp : ∀ id c, ¬Pend {} id c := by
    rintro id c (⟨q, h, _⟩ | h)
    · cases h
    · cases h
  constructor
  case clock => intro t τ h; cases h
  case inj => intro t t' τ h; cases h
  case live => intro t h; cases h
  case below => intro id c τ h; exact absurd h (hp _ _)
  case ended => intro id c τ h; exact absurd h (hp _ _)
  case v5 => intro id c τ t h; exact absurd h (hp _ _)

/-- All invariants of ownership and time. -/
structure BrokerInv (w : World) : Prop where
  own : OInv w
  time : ClockInv w
  plain : PlainTimers w

theorem BrokerInv.init : BrokerInv {} := ⟨.init, .init, fun _ h => by cases h⟩

theorem BrokerInv.step {a : Act} (h : BrokerInv w) (hs : w.step cfg ext a = some (w', evs)) : BrokerInv w' := by
  have hc := step_cases hs
  have ho := h.own.case h.plain hc
  exact ⟨ho, h.time.case h.own ho hc, h.plain.case hc⟩

theorem BrokerInv.run {acts : List Act} (h : World.run cfg ext {} acts = some (w, evs)) : BrokerInv w :=
  world_induction (P := fun w _ => BrokerInv w) .init (fun _ _ _ _ _ h hs => h.step hs) h

end Akasa
