import Verif.Proof.Connect
/-! # Which CONNACK packets are sent -/
namespace Akasa

/-- How far a task is. -/
inductive AckPhase where
  /-- no CONNACK yet -/
  | asking
  /-- CONNACK with success was sent -/
  | settled
  | gone
deriving DecidableEq

def Stage.phase : Stage → AckPhase
  | .waiting _ => .asking
  | .granted _ _ => .asking
  | .gone => .gone
  | _ => .settled

def Tasks.phase (m : Tasks) (t : TaskId) : Option AckPhase := (m.get t).map (·.stage.phase)

theorem Tasks.phase_insert (m : Tasks) (t u : TaskId) (x : Task) :
    Tasks.phase (FMap.insert m t x) u = if t = u then some x.stage.phase else Tasks.phase m u := by
  unfold Tasks.phase; rw [FMap.get_insert]; split <;> rfl

variable {cfg : Config} {ext : Ext} {w w' : World} {evs : List Event}

/-- A step in which nobody gets CONNACK. -/
def NoAck (w w' : World) : Prop :=
  ∀ u, Tasks.phase w'.tasks u = Tasks.phase w.tasks u ∨ Tasks.phase w'.tasks u = some .gone ∨
    (Tasks.phase w'.tasks u = some .asking ∧
      (Tasks.phase w.tasks u = none ∨ Tasks.phase w.tasks u = some .asking))

/-- A step in which the task `t` gets CONNACK. -/
def OneAck (cfg : Config) (w w' : World) (t : TaskId) : Prop :=
  (Tasks.phase w.tasks t = some .asking ∨ Tasks.phase w.tasks t = none) ∧
  (∃ req, w'.request t = some req ∧
    Tasks.phase w'.tasks t = some (if req.willRefused cfg then .gone else .settled)) ∧
  ∀ u, u ≠ t → Tasks.phase w'.tasks u = Tasks.phase w.tasks u

theorem NoAck.insert {t : TaskId} {x x' : Task} (ht : w'.tasks = w.tasks.insert t x')
    (hx : w.tasks.get t = some x) (h : x'.stage.phase = x.stage.phase ∨ x'.stage.phase = .gone) :
    NoAck w w' := by
  intro u
  rw [ht, Tasks.phase_insert]
  by_cases e : t = u
  · subst e
    rw [if_pos rfl]
    rcases h with h | h
    · left; unfold Tasks.phase; rw [hx, h]; rfl
    · right; left; rw [h]
  · rw [if_neg e]; exact .inl rfl

theorem phase_none (hi : OInv w) : Tasks.phase w.tasks w.nextTask = none := by
  unfold Tasks.phase
  cases h : w.tasks.get w.nextTask with
  | none => rfl
  | some x =>
    exact absurd (hi.fresh w.nextTask (by unfold Tasks.name; rw [h]; simp)) (Nat.lt_irrefl _)

theorem refusing_other {a : Act} (h1 : ∀ req env wr, a ≠ .connect req env wr)
    (h2 : ∀ t env wr, a ≠ .accept t env wr) : w.refusing cfg a = none := by
  cases a with
  | connect req env wr => exact absurd rfl (h1 _ _ _)
  | accept t env wr => exact absurd rfl (h2 _ _ _)
  | _ => rfl

theorem acked_connect {req : Request} {env : Env} {wr : Bool} (hi : OInv w)
    (h : w.step cfg ext (.connect req env wr) = some (w', evs)) :
    (acked (w.refusing cfg (.connect req env wr)) evs = [] ∧ NoAck w w') ∨
    ∃ b, acked (w.refusing cfg (.connect req env wr)) evs = [(w.nextTask, b)] ∧
      OneAck cfg w w' w.nextTask := by
  have hreq := (request_connect h).2 w.nextTask
  rw [if_pos rfl] at hreq
  have hn := phase_none hi
  simp only [World.step, World.connect] at h
  split at h
  · cases h
  · rename_i r id hadd
    have hoth : ∀ (x' : Task), w'.tasks = w.tasks.insert w.nextTask x' → ∀ u, u ≠ w.nextTask →
        Tasks.phase w'.tasks u = Tasks.phase w.tasks u := by
      intro x' ht u hu
      rw [ht, Tasks.phase_insert, if_neg (Ne.symm hu)]
    simp only [Option.some.injEq] at h
    unfold World.setUp at h
    split at h
    · rename_i hc
      simp only [Bool.and_eq_true, Bool.not_eq_true'] at hc
      cases h
      refine .inr ⟨false, ?_, .inr hn, ⟨req, hreq, ?_⟩, hoth _ rfl⟩
      · unfold World.refusing
        rw [hc.1]
        simp [hc.2, acked]
      · rw [Tasks.phase_insert, if_pos rfl, hc.2]; rfl
    · rename_i hc
      cases h
      cases wr with
      | false =>
        refine .inl ⟨rfl, ?_⟩
        intro u
        by_cases e : u = w.nextTask
        · subst e
          right; left
          simp only [World.setTask, World.dropReceivers, Tasks.phase_insert, if_pos]; rfl
        · exact .inl (hoth _ rfl u e)
      | true =>
        simp only [Bool.true_and, Bool.not_eq_true, Bool.not_eq_false'] at hc
        refine .inr ⟨false, ?_, .inr hn, ⟨req, hreq, ?_⟩, hoth _ rfl⟩
        · simp [World.refusing, hc, hadd, acked]
        · simp only [World.setTask, World.dropReceivers, Tasks.phase_insert, if_pos, hc]; rfl
  · rename_i r id hadd
    have hr : w.refusing cfg (.connect req env wr) = none := by
      unfold World.refusing
      cases wr with
      | false => rfl
      | true => simp [hadd]
    rw [hr]
    split at h
    · cases h
      refine .inl ⟨rfl, ?_⟩
      intro u
      simp only [Tasks.phase_insert]
      by_cases e : w.nextTask = u
      · subst e
        rw [if_pos rfl]
        exact .inr (.inr ⟨rfl, .inl hn⟩)
      · rw [if_neg e]; exact .inl rfl
    · cases h
      refine .inl ⟨rfl, ?_⟩
      intro u
      simp only [World.setTask, Tasks.phase_insert]
      by_cases e : w.nextTask = u
      · subst e
        rw [if_pos rfl]
        exact .inr (.inl rfl)
      · rw [if_neg e]; exact .inl rfl

theorem acked_accept {t : TaskId} {env : Env} {wr : Bool}
    (h : w.step cfg ext (.accept t env wr) = some (w', evs)) :
    (acked (w.refusing cfg (.accept t env wr)) evs = [] ∧ NoAck w w') ∨
    ∃ b, acked (w.refusing cfg (.accept t env wr)) evs = [(t, b)] ∧ OneAck cfg w w' t := by
  simp only [World.step, World.accept, Option.some.injEq] at h
  have idle : w.refusing cfg (.accept t env wr) = none → (w, []) = (w', evs) →
      (acked (w.refusing cfg (.accept t env wr)) evs = [] ∧ NoAck w w') := by
    intro h1 h2
    cases h2
    rw [h1]
    exact ⟨rfl, fun _ => .inl rfl⟩
  cases hx : w.tasks.get t with
  | none =>
    rw [hx] at h
    exact .inl (idle (by cases wr <;> simp [World.refusing, hx]) h)
  | some y =>
    rw [hx] at h
    simp only at h
    cases hst : y.stage with
    | granted old level =>
      rw [hst] at h
      simp only at h
      have hph : Tasks.phase w.tasks t = some .asking := by
        unfold Tasks.phase; rw [hx]; simp [hst, Stage.phase]
      have hoth : ∀ (x' : Task), w'.tasks = w.tasks.insert t x' → ∀ u, u ≠ t →
          Tasks.phase w'.tasks u = Tasks.phase w.tasks u := by
        intro x' ht u hu
        rw [ht, Tasks.phase_insert, if_neg (Ne.symm hu)]
      have hreq : ∀ (x' : Task), w'.tasks = w.tasks.insert t x' → x'.req = y.req →
          w'.request t = some y.req := by
        intro x' ht hr
        unfold World.request
        rw [ht, FMap.get_insert_self]
        simp [hr]
      cases hr : y.req.willRefused cfg with
      | false =>
        cases wr with
        | true =>
          simp only [World.setUp, hr, Bool.not_false, Bool.and_self, if_true, Bool.and_true] at h
          refine .inr ⟨(y.req.session cfg old level).2, ?_, .inl hph, ⟨y.req, ?_, ?_⟩, ?_⟩
          · simp only [World.refusing, hx, hst, hr, Bool.false_eq_true, if_false]
            split at h <;> cases h <;> rfl
          · split at h <;> cases h <;> exact hreq _ rfl rfl
          · rw [hr]
            split at h <;> cases h <;> rw [Tasks.phase_insert, if_pos rfl] <;> rfl
          · split at h <;> cases h <;> exact hoth _ rfl
        | false =>
          simp only [World.setUp, Bool.false_and, Bool.false_eq_true, if_false, Bool.and_false] at h
          cases h
          refine .inl ⟨rfl, NoAck.insert (x' := { req := y.req, stage := .gone }) rfl hx (.inr rfl)⟩
      | true =>
        simp only [World.setUp, hr, Bool.not_true, Bool.and_false, Bool.false_eq_true,
          if_false] at h
        cases h
        cases wr with
        | true =>
          refine .inr ⟨(y.req.session cfg old level).2, ?_, .inl hph, ⟨y.req, hreq _ rfl rfl, ?_⟩,
            hoth _ rfl⟩
          · simp [World.refusing, hx, hst, hr, acked]
          · simp only [World.setTask, World.dropReceivers, Tasks.phase_insert, if_pos, hr]; rfl
        | false =>
          refine .inl ⟨rfl, NoAck.insert (x' := { req := y.req, stage := .gone }) rfl hx (.inr rfl)⟩
    | _ =>
      rw [hst] at h
      exact .inl (idle (by cases wr <;> simp [World.refusing, hx, hst]) h)

theorem NoAck.refl (w : World) : NoAck w w := fun _ => .inl rfl

/-- The old owner stops and the new one gets the session. -/
theorem NoAck.hand {t b : TaskId} {x' y y' : Task}
    (ht : w'.tasks = (w.tasks.insert t x').insert b y') (hy : w.tasks.get b = some y)
    (hx' : x'.stage.phase = .gone) (hyp : y.stage.phase = .asking)
    (hy' : y'.stage.phase = .asking) : NoAck w w' := by
  intro u
  rw [ht, Tasks.phase_insert, Tasks.phase_insert]
  by_cases e : b = u
  · subst e
    rw [if_pos rfl, hy']
    refine .inr (.inr ⟨rfl, .inr ?_⟩)
    unfold Tasks.phase; rw [hy]; simp [hyp]
  · rw [if_neg e]
    by_cases e' : t = u
    · rw [if_pos e', hx']; exact .inr (.inl rfl)
    · rw [if_neg e']; exact .inl rfl

theorem waiting_phase {b : TaskId} {y : Task} {id : ClientId} (hy : w.tasks.get b = some y)
    (h : Tasks.waiting w.tasks b = some id) : y.stage.phase = .asking := by
  unfold Tasks.waiting at h
  rw [hy] at h
  cases hs : y.stage <;> rw [Option.bind_some, hs] at h <;> first | rfl | cases h

theorem acked_other {a : Act} (hi : OInv w) (h1 : ∀ req env wr, a ≠ .connect req env wr)
    (h2 : ∀ t env wr, a ≠ .accept t env wr) (h : w.step cfg ext a = some (w', evs)) :
    acked (w.refusing cfg a) evs = [] ∧ NoAck w w' := by
  rw [refusing_other h1 h2]
  have hwill : ∀ (t : TaskId) (s s' : Session) (m : Option SendPub) (e : Event),
      e ∈ willEvents t s s' m → ∀ u b, e ≠ .accepted u b := by
    intro t s s' m e he u b
    cases m with
    | none => cases he
    | some m =>
      simp only [willEvents, List.mem_cons, List.not_mem_nil, or_false] at he
      rcases he with rfl | rfl <;> exact fun h => by cases h
  have none_of : ∀ {evs : List Event}, (∀ e ∈ evs, ∀ u b, e ≠ .accepted u b) →
      acked none evs = [] := by
    intro evs h
    simp only [acked, Option.toList_none, List.nil_append, List.filterMap_eq_nil_iff]
    intro e he
    split
    · exact absurd rfl (h _ he _ _)
    · rfl
  cases step_cases h with
  | idle => exact ⟨rfl, .refl _⟩
  | fresh req env => exact absurd rfl (h1 _ _ _)
  | stillborn req env => exact absurd rfl (h1 _ _ _)
  | wait req env => exact absurd rfl (h1 _ _ _)
  | locked req env => exact absurd rfl (h1 _ _ _)
  | accept t env x old level hx => exact absurd rfl (h2 _ _ _)
  | refused t env wr x old level hx => exact absurd rfl (h2 _ _ _)
  | packet t env after size p x s hx hst hd r hr =>
    refine ⟨rfl, NoAck.insert rfl hx (.inl ?_)⟩
    simp only [hst]
    split <;> rfl
  | normalOn t env x s hx hst => exact ⟨rfl, NoAck.insert rfl hx (.inl (by rw [hst]; rfl))⟩
  | normalOff t env x s hx hst => exact ⟨rfl, NoAck.insert rfl hx (.inl (by rw [hst]; rfl))⟩
  | handOn t env x s hx hst b y q hq hy =>
    exact ⟨rfl, NoAck.hand rfl hy rfl
      (waiting_phase hy (hi.queue _ _ _ _ hq List.mem_cons_self).1) rfl⟩
  | handOff t env x s hx hst hd b y q hq hy msgs =>
    refine ⟨none_of ?_, NoAck.hand rfl hy rfl
      (waiting_phase hy (hi.queue _ _ _ _ hq List.mem_cons_self).1) rfl⟩
    intro e he u b
    rcases List.mem_append.1 he with he | he
    · obtain ⟨m, _, rfl⟩ := List.mem_map.1 he
      exact fun h => by cases h
    · simp only [List.mem_cons, List.not_mem_nil, or_false] at he
      subst he
      exact fun h => by cases h
  | deny t env x s hx hst pr b y q hq hpr hy => exact ⟨rfl, NoAck.insert rfl hy (.inr rfl)⟩
  | ignored => exact ⟨rfl, .refl _⟩
  | kicked t env x s hx hst => exact ⟨rfl, NoAck.insert rfl hx (.inl (by rw [hst]; rfl))⟩
  | expire t env x s hx hst hd time q hq hpr ht s' g m hw r route hrem =>
    refine ⟨none_of ?_, NoAck.insert rfl hx (.inl (by rw [hst]; rfl))⟩
    intro e he u b
    rcases List.mem_append.1 he with he | he
    · exact hwill _ _ _ _ _ he _ _
    · simp only [List.mem_cons, List.not_mem_nil, or_false] at he
      subst he
      exact fun h => by cases h
  | lateWill t env x s hx hst =>
    exact ⟨none_of fun e he => hwill _ _ _ _ _ he,
      NoAck.insert rfl hx (.inl (by rw [hst]; rfl))⟩
  | lose t x s hx hst => exact ⟨rfl, NoAck.insert rfl hx (.inl (by rw [hst]; rfl))⟩
  | closeQuiet t env lost x s hx hst => exact ⟨rfl, NoAck.insert rfl hx (.inl (by rw [hst]; rfl))⟩
  | closeWill t env lost x s hx hst =>
    refine ⟨none_of ?_, NoAck.insert rfl hx (.inl (by rw [hst]; rfl))⟩
    intro e he u b
    rcases List.mem_cons.1 he with rfl | he
    · exact fun h => by cases h
    · exact hwill _ _ _ _ _ he _ _
  | closeDelayed t env lost x s hx hst =>
    exact ⟨rfl, NoAck.insert rfl hx (.inl (by rw [hst]; rfl))⟩
  | push t d x s hx hst =>
    refine ⟨rfl, NoAck.insert rfl hx (.inl ?_)⟩
    cases hs : x.stage <;> simp_all [Stage.sending?, Stage.setSession, Stage.phase]
  | flush t d x hx => exact ⟨rfl, NoAck.insert rfl hx (.inl rfl)⟩
  | giveUp t d x s hx hst =>
    refine ⟨rfl, NoAck.insert rfl hx (.inl ?_)⟩
    cases hs : x.stage <;> simp_all [Stage.sending?, Stage.setSession, Stage.phase]
  | remove t x s hx => exact ⟨rfl, NoAck.insert rfl hx (.inr rfl)⟩
  | rest t x s hx hst => exact ⟨rfl, NoAck.insert rfl hx (.inl (by rw [hst]; rfl))⟩
  | fire i tm ht w2 hw =>
    rcases hw with ⟨rfl, _⟩ | ⟨q, _, _, rfl⟩ <;> exact ⟨rfl, .refl _⟩
  | kick => exact ⟨rfl, .refl _⟩

theorem acked_step {a : Act} (hi : OInv w) (h : w.step cfg ext a = some (w', evs)) :
    (acked (w.refusing cfg a) evs = [] ∧ NoAck w w') ∨
    ∃ t b, acked (w.refusing cfg a) evs = [(t, b)] ∧ OneAck cfg w w' t := by
  cases a with
  | connect req env wr => exact (acked_connect hi h).imp id fun ⟨b, h⟩ => ⟨_, b, h⟩
  | accept t env wr => exact (acked_accept h).imp id fun ⟨b, h⟩ => ⟨_, b, h⟩
  | _ => exact .inl (acked_other hi (fun _ _ _ h => by cases h) (fun _ _ _ h => by cases h) h)

variable {c : ServerConfig} {x : ConnExt} {f f' : Front} {wevs : List Event}

/-- The CONNACK a connection gets when the task `t` does. -/
def Conn.ackFor (c : ServerConfig) (cfg : Config) (t : TaskId) (present : Bool) (n : Conn) :
    List Reply :=
  match n.stage with
  | .task t' final => if t' = t then [n.opening.connack c cfg final present] else []
  | _ => []

theorem connack_is (c : ServerConfig) (cfg : Config) (o : Opening) (final : Option Str)
    (present : Bool) : ∃ code props, o.connack c cfg final present = .connack present code props ∧
      (code = .success ↔ (o.request c).willRefused cfg = false) := by
  unfold Opening.connack Request.willRefused Opening.request
  simp only
  cases hp : o.level.proto with
  | v3 => exact ⟨_, _, rfl, by simp⟩
  | v5 =>
    refine ⟨_, _, rfl, ?_⟩
    cases o.will with
    | none => simp [willCode]
    | some m =>
      simp only [willCode]
      cases m.retain <;> cases cfg.retainAvailable <;>
        by_cases h : cfg.maxAllowedQos < m.qos <;> simp [h]

theorem connacksOn_append (k : ConnId) (a b : List FrontEvent) :
    connacksOn k (a ++ b) = connacksOn k a ++ connacksOn k b := List.filterMap_append

theorem connacksOn_events (k : ConnId) (l : List Event) : connacksOn k (l.map .event) = [] := by
  unfold connacksOn
  rw [List.filterMap_eq_nil_iff]
  intro e he
  obtain ⟨e', _, rfl⟩ := List.mem_map.1 he
  rfl

theorem connacks_one {conns : FMap ConnId Conn} (hw : conns.WF) (t : TaskId) (b : Bool)
    (k : ConnId) :
    connacksOn k (connacks c cfg conns [(t, b)]) =
      ((conns.get k).map (Conn.ackFor c cfg t b)).getD [] := by
  simp only [connacks, List.flatMap_cons, List.flatMap_nil, List.append_nil]
  induction conns with
  | nil => rfl
  | cons e rest ih =>
    obtain ⟨k', n⟩ := e
    have hw' : FMap.WF rest := (List.nodup_cons.1 hw).2
    have hk : k' ∉ FMap.keys rest := (List.nodup_cons.1 hw).1
    have ih := ih hw'
    rw [show (k', n) :: rest = [(k', n)] ++ rest from rfl, List.filterMap_append, connacksOn_append,
      ih]
    rw [show [(k', n)] ++ rest = (k', n) :: rest from rfl, FMap.get_cons]
    refine (congrArg (· ++ _) (?_ : _ = if k' = k then n.ackFor c cfg t b else [])).trans ?_
    · unfold Conn.ackFor
      cases hst : n.stage with
      | task t' final =>
        simp only [List.filterMap_cons, List.filterMap_nil, hst]
        by_cases ht : t' = t
        · simp only [if_pos ht]
          obtain ⟨code, props, h, _⟩ := connack_is c cfg n.opening final b
          rw [h]
          by_cases hkk : k' = k <;> simp [connacksOn, hkk]
        · simp [connacksOn, ht]
      | _ => simp [connacksOn, hst]
    by_cases hkk : k' = k
    · subst hkk
      rw [if_pos rfl, if_pos rfl, (FMap.get_eq_none_iff _ _).2 hk]
      simp
    · rw [if_neg hkk, if_neg hkk]; rfl

theorem connacks_none (c : ServerConfig) (cfg : Config) (conns : FMap ConnId Conn) (k : ConnId) :
    connacksOn k (connacks c cfg conns []) = [] := rfl

/-- What a packet of the handshake can be. -/
def Told (c : ServerConfig) (f : Front) (k : ConnId) (r : Reply) : Prop :=
  ∃ n, f.conns.get k = some n ∧
    ((n.stage = .over ∧ ((∃ code, code ≠ .success ∧ r = .connack false code {}) ∨
        ∃ rs, r = .disconnect rs)) ∨
      (∃ m d, r = .auth m d ∧ n.pkt.authMethod = some m) ∨
      ∃ cfg t final present, c.limits = some cfg ∧ n.stage = .task t final ∧
        r = n.opening.connack c cfg final present)

theorem mem_connacks {conns : FMap ConnId Conn} (hw : conns.WF) {l : List (TaskId × Bool)}
    {k : ConnId} {r : Reply} (h : FrontEvent.reply k r ∈ connacks c cfg conns l) :
    ∃ n t final present, conns.get k = some n ∧ n.stage = .task t final ∧ (t, present) ∈ l ∧
      r = n.opening.connack c cfg final present := by
  unfold connacks at h
  obtain ⟨⟨t, b⟩, h1, h2⟩ := List.mem_flatMap.1 h
  obtain ⟨⟨k', n⟩, h3, h4⟩ := List.mem_filterMap.1 h2
  simp only at h4
  split at h4
  · rename_i t' final hst
    split at h4
    · rename_i e
      subst e
      cases h4
      exact ⟨n, _, final, b, FMap.get_of_mem hw h3, hst, h1, rfl⟩
    · cases h4
  · cases h4

/-- The invariant. -/
structure AckInv (c : ServerConfig) (f : Front) (evs : List FrontEvent) : Prop where
  told : ∀ k r, .reply k r ∈ evs → Told c f k r
  waiting : ∀ k n m, f.conns.get k = some n → n.stage = .authorizing m → connacksOn k evs = []
  asking : ∀ k n t final, f.conns.get k = some n → n.stage = .task t final →
    Tasks.phase f.world.tasks t = some .asking → connacksOn k evs = []
  settled : ∀ k n t final, f.conns.get k = some n → n.stage = .task t final →
    Tasks.phase f.world.tasks t = some .settled →
    ∃ present props, connacksOn k evs = [.connack present .success props]
  once : ∀ k, (connacksOn k evs).length ≤ 1

theorem AckInv.unknown {evs : List FrontEvent} (h : AckInv c f evs) {k : ConnId}
    (hk : f.conns.get k = none) : connacksOn k evs = [] := by
  unfold connacksOn
  rw [List.filterMap_eq_nil_iff]
  intro e he
  split
  · split
    · rename_i k' present code props hkk
      subst hkk
      obtain ⟨n, hn, _⟩ := h.told _ _ he
      rw [hk] at hn
      cases hn
    · rfl
  · rfl

theorem phase_some {acts : List FrontAct} {evs : List FrontEvent}
    (h : FrontInv c x ext acts f evs) {k : ConnId} {n : Conn} {t : TaskId} {final : Option Str}
    (hk : f.conns.get k = some n) (hn : n.stage = .task t final) :
    Tasks.phase f.world.tasks t ≠ none := by
  have := (h.serves _ _ _ _ hk hn).1
  unfold World.request at this
  unfold Tasks.phase
  cases hx : f.world.tasks.get t with
  | none => rw [hx] at this; cases this
  | some y => simp

/-- A step that concerns the rest of the broker. -/
theorem AckInv.worldly {acts acts' : List FrontAct} {evs : List FrontEvent}
    {a : Act} (h : AckInv c f evs) (hf : FrontInv c x ext acts f evs)
    (hcfg : c.limits = some cfg)
    (hs : f.world.step cfg ext a = some (f'.world, wevs))
    (hf' : FrontInv c x ext acts' f' (evs ++ (connacks c cfg f'.conns
      (acked (f.world.refusing cfg a) wevs) ++ wevs.map .event)))
    (hc : ∀ k, f'.conns.get k = f.conns.get k ∨
      ∃ n final, f'.conns.get k = some n ∧ n.stage = .task f.world.nextTask final ∧
        (f.conns.get k = none ∨ ∃ o m, f.conns.get k = some ⟨n.pkt, o, .authorizing m⟩)) :
    AckInv c f' (evs ++ (connacks c cfg f'.conns
      (acked (f.world.refusing cfg a) wevs) ++ wevs.map .event)) := by
  obtain ⟨wacts, hr, -⟩ := hf.reaches cfg hcfg
  have hi := (BrokerInv.run hr).own
  have hnone := phase_none hi
  have hB : ∀ k n, f'.conns.get k = some n → f.conns.get k = none ∨
      (∃ o m, f.conns.get k = some ⟨n.pkt, o, .authorizing m⟩) → connacksOn k evs = [] := by
    rintro k n - (h1 | ⟨o, m, h1⟩)
    · exact h.unknown h1
    · exact h.waiting _ _ _ h1 rfl
  have key : ∀ k n t final, f'.conns.get k = some n → n.stage = .task t final →
      (connacksOn k evs = [] ∧ t = f.world.nextTask) ∨
      (f.conns.get k = some n ∧ Tasks.phase f.world.tasks t ≠ none) := by
    intro k n t final h1 h2
    rcases hc k with h3 | ⟨n', final', h3, h4, h5⟩
    · right
      have h4 := h3.symm.trans h1
      exact ⟨h4, phase_some hf h4 h2⟩
    · left
      rw [h1] at h3
      cases h3
      rw [h2] at h4
      cases h4
      exact ⟨hB _ _ h1 h5, rfl⟩
  have htold : ∀ k r, .reply k r ∈ evs → Told c f' k r := by
    intro k r hr
    obtain ⟨n, hn, h1⟩ := h.told k r hr
    rcases hc k with h3 | ⟨n', final', h3, h4, h5 | ⟨o, m, h5⟩⟩
    · exact ⟨n, h3.trans hn, h1⟩
    · rw [h5] at hn; cases hn
    · rw [h5] at hn
      cases hn
      rcases h1 with ⟨h1, _⟩ | h1 | ⟨_, _, _, _, _, h1, _⟩
      · cases h1
      · exact ⟨n', h3, .inr (.inl h1)⟩
      · cases h1
  have hon : ∀ k, connacksOn k (evs ++ (connacks c cfg f'.conns
      (acked (f.world.refusing cfg a) wevs) ++ wevs.map .event)) = connacksOn k evs ++
      connacksOn k (connacks c cfg f'.conns (acked (f.world.refusing cfg a) wevs)) := by
    intro k
    rw [connacksOn_append, connacksOn_append, connacksOn_events, List.append_nil]
  have hwait : ∀ k n m, f'.conns.get k = some n → n.stage = .authorizing m →
      f.conns.get k = some n := by
    intro k n m h1 h2
    rcases hc k with h3 | ⟨n', final', h3, h4, h5⟩
    · exact h3.symm.trans h1
    · rw [h1] at h3; cases h3; rw [h2] at h4; cases h4
  have hfirst : ∀ k r, .reply k r ∈ evs ++ (connacks c cfg f'.conns
      (acked (f.world.refusing cfg a) wevs) ++ wevs.map .event) → Told c f' k r := by
    intro k r hm
    rcases List.mem_append.1 hm with hm | hm
    · exact htold k r hm
    · rcases List.mem_append.1 hm with hm | hm
      · obtain ⟨n, t, final, present, h1, h2, h3, h4⟩ := mem_connacks hf'.wf hm
        exact ⟨n, h1, .inr (.inr ⟨cfg, t, final, present, hcfg, h2, h4⟩)⟩
      · obtain ⟨e, _, he⟩ := List.mem_map.1 hm
        cases he
  rcases acked_step hi hs with ⟨hL, hno⟩ | ⟨t0, b, hL, h1, ⟨req, h2, h3⟩, h4⟩
  · have hon' : ∀ k, connacksOn k (evs ++ (connacks c cfg f'.conns
        (acked (f.world.refusing cfg a) wevs) ++ wevs.map .event)) = connacksOn k evs := by
      intro k; rw [hon, hL, connacks_none, List.append_nil]
    constructor
    · exact hfirst
    · intro k n m g1 g2
      rw [hon']
      exact h.waiting _ _ _ (hwait _ _ _ g1 g2) g2
    · intro k n t final g1 g2 g3
      rw [hon']
      rcases key k n t final g1 g2 with ⟨g4, _⟩ | ⟨g4, g5⟩
      · exact g4
      · rcases hno t with g6 | g6 | ⟨_, g6 | g6⟩
        · exact h.asking _ _ _ _ g4 g2 (g6.symm.trans g3)
        · rw [g3] at g6; cases g6
        · exact absurd g6 g5
        · exact h.asking _ _ _ _ g4 g2 g6
    · intro k n t final g1 g2 g3
      rw [hon']
      rcases hno t with g6 | g6 | ⟨g6, _⟩
      · rcases key k n t final g1 g2 with ⟨_, g4⟩ | ⟨g4, g5⟩
        · rw [g3, g4, hnone] at g6; cases g6
        · exact h.settled _ _ _ _ g4 g2 (g6.symm.trans g3)
      · rw [g3] at g6; cases g6
      · rw [g3] at g6; cases g6
    · intro k
      rw [hon']
      exact h.once k
  · have hon' : ∀ k n, f'.conns.get k = some n → connacksOn k (evs ++ (connacks c cfg f'.conns
        (acked (f.world.refusing cfg a) wevs) ++ wevs.map .event)) =
        connacksOn k evs ++ n.ackFor c cfg t0 b := by
      intro k n g; rw [hon, hL, connacks_one hf'.wf, g]; rfl
    have hsame : ∀ k n t final, f'.conns.get k = some n → n.stage = .task t final → t ≠ t0 →
        connacksOn k (evs ++ (connacks c cfg f'.conns
          (acked (f.world.refusing cfg a) wevs) ++ wevs.map .event)) = connacksOn k evs := by
      intro k n t final g1 g2 g3
      rw [hon' k n g1]
      unfold Conn.ackFor
      rw [g2]
      simp [g3]
    have hbefore : ∀ k n final, f'.conns.get k = some n → n.stage = .task t0 final →
        connacksOn k evs = [] := by
      intro k n final g1 g2
      rcases key k n t0 final g1 g2 with ⟨g4, _⟩ | ⟨g4, g5⟩
      · exact g4
      · rcases h1 with h1 | h1
        · exact h.asking _ _ _ _ g4 g2 h1
        · exact absurd h1 g5
    have hthe : ∀ k n final, f'.conns.get k = some n → n.stage = .task t0 final →
        connacksOn k (evs ++ (connacks c cfg f'.conns
          (acked (f.world.refusing cfg a) wevs) ++ wevs.map .event)) =
          [n.opening.connack c cfg final b] := by
      intro k n final g1 g2
      rw [hon' k n g1, hbefore k n final g1 g2]
      unfold Conn.ackFor
      rw [g2]
      simp
    constructor
    · exact hfirst
    · intro k n m g1 g2
      rw [hon' k n g1, h.waiting _ _ _ (hwait _ _ _ g1 g2) g2]
      unfold Conn.ackFor
      rw [g2]
      rfl
    · intro k n t final g1 g2 g3
      by_cases e : t = t0
      · subst e
        rw [h3] at g3
        split at g3 <;> cases g3
      · rw [hsame k n t final g1 g2 e]
        rw [h4 t e] at g3
        rcases key k n t final g1 g2 with ⟨g4, _⟩ | ⟨g4, _⟩
        · exact g4
        · exact h.asking _ _ _ _ g4 g2 g3
    · intro k n t final g1 g2 g3
      by_cases e : t = t0
      · subst e
        rw [hthe k n final g1 g2]
        obtain ⟨code, props, g4, g5⟩ := connack_is c cfg n.opening final b
        have g6 := (hf'.serves _ _ _ _ g1 g2).1
        rw [h2] at g6
        cases g6
        rw [h3] at g3
        rw [g4, g5.mpr]
        · exact ⟨b, props, rfl⟩
        · cases hw : (n.opening.request c).willRefused cfg with
          | false => rfl
          | true => rw [hw] at g3; cases g3
      · rw [hsame k n t final g1 g2 e]
        rw [h4 t e] at g3
        rcases key k n t final g1 g2 with ⟨_, g4⟩ | ⟨g4, _⟩
        · rw [g4, hnone] at g3; cases g3
        · exact h.settled _ _ _ _ g4 g2 g3
    · intro k
      cases hk : f'.conns.get k with
      | none =>
        rw [hon, hL, connacks_one hf'.wf, hk]
        simpa using h.once k
      | some n =>
        cases hst : n.stage with
        | task t final =>
          by_cases e : t = t0
          · subst e; rw [hthe k n final hk hst]; exact Nat.le_refl _
          · rw [hsame k n t final hk hst e]; exact h.once k
        | _ =>
          rw [hon' k n hk]
          unfold Conn.ackFor
          rw [hst]
          simpa using h.once k

/-- A step of the handshake of the connection `k`. -/
theorem AckInv.quiet {evs e : List FrontEvent} (h : AckInv c f evs) {k : ConnId} {n : Conn}
    (hw : f'.world = f.world) (hc : f'.conns = f.conns.insert k n)
    (hold : f.conns.get k = none ∨ ∃ o m, f.conns.get k = some ⟨n.pkt, o, .authorizing m⟩)
    (hnew : ∀ t final, n.stage ≠ .task t final)
    (he : e = [] ∨ ∃ r, e = [.reply k r] ∧ Told c f' k r ∧
      ((∀ present code props, r ≠ .connack present code props) ∨ ∀ m, n.stage ≠ .authorizing m)) :
    AckInv c f' (evs ++ e) := by
  have hk : connacksOn k evs = [] := by
    rcases hold with h1 | ⟨o, m, h1⟩
    · exact h.unknown h1
    · exact h.waiting _ _ _ h1 rfl
  have hoth : ∀ k', k' ≠ k → connacksOn k' (evs ++ e) = connacksOn k' evs := by
    intro k' hne
    rw [connacksOn_append]
    rcases he with rfl | ⟨r, rfl, _⟩
    · simp [connacksOn]
    · cases r <;> simp [connacksOn, Ne.symm hne]
  have hget : ∀ k', k' ≠ k → f'.conns.get k' = f.conns.get k' := by
    intro k' hne; rw [hc, FMap.get_insert, if_neg (Ne.symm hne)]
  have hgetk : f'.conns.get k = some n := by rw [hc, FMap.get_insert_self]
  constructor
  · intro k' r hm
    rcases List.mem_append.1 hm with hm | hm
    · obtain ⟨n', h1, h2⟩ := h.told _ _ hm
      by_cases e : k' = k
      · subst e
        rcases hold with h3 | ⟨o, m, h3⟩
        · rw [h3] at h1; cases h1
        · rw [h3] at h1
          cases h1
          rcases h2 with ⟨h2, _⟩ | h2 | ⟨_, _, _, _, _, h2, _⟩
          · cases h2
          · exact ⟨n, hgetk, .inr (.inl h2)⟩
          · cases h2
      · exact ⟨n', (hget _ e).trans h1, h2⟩
    · rcases he with rfl | ⟨r', rfl, h1, _⟩
      · cases hm
      · rw [List.mem_singleton] at hm
        cases hm
        exact h1
  · intro k' n' m g1 g2
    by_cases e : k' = k
    · subst e
      rw [hgetk] at g1
      cases g1
      rw [connacksOn_append, hk]
      rcases he with rfl | ⟨r, rfl, _, h1 | h1⟩
      · rfl
      · cases r with
        | connack present code props => exact absurd rfl (h1 _ _ _)
        | _ => rfl
      · exact absurd g2 (h1 _)
    · rw [hoth _ e]; exact h.waiting _ _ _ ((hget _ e).symm.trans g1) g2
  · intro k' n' t final g1 g2 g3
    by_cases e : k' = k
    · subst e; rw [hgetk] at g1; cases g1; exact absurd g2 (hnew _ _)
    · rw [hoth _ e]
      exact h.asking _ _ _ _ ((hget _ e).symm.trans g1) g2 (by rw [← hw]; exact g3)
  · intro k' n' t final g1 g2 g3
    by_cases e : k' = k
    · subst e; rw [hgetk] at g1; cases g1; exact absurd g2 (hnew _ _)
    · rw [hoth _ e]
      exact h.settled _ _ _ _ ((hget _ e).symm.trans g1) g2 (by rw [← hw]; exact g3)
  · intro k'
    by_cases e : k' = k
    · subst e
      rw [connacksOn_append, hk]
      rcases he with rfl | ⟨r, rfl, _⟩
      · exact Nat.zero_le _
      · simp only [List.nil_append]
        exact (List.length_filterMap_le _ _)
    · rw [hoth _ e]; exact h.once _

theorem handleConnect_refuse {uuid random : Str} {p : ConnectPkt} {r : Reply}
    (h : handleConnect c x uuid random p = .refuse r) :
    ∃ code, code ≠ .success ∧ r = .connack false code {} := by
  unfold handleConnect at h
  split at h
  · simp only [handleConnectV3, refuse] at h
    repeat' split at h
    all_goals first
      | (cases h; done)
      | (cases h; exact ⟨_, by simp, rfl⟩)
  · simp only [handleConnectV5, refuse] at h
    repeat' split at h
    all_goals first
      | (cases h; done)
      | (cases h; exact ⟨_, by simp, rfl⟩)

theorem handleAuth_refuse {o : Opening} {m : Scram.Server} {a : AuthPkt} {r : Reply}
    (h : handleAuth x o m a = .refuse r) :
    (∃ code, code ≠ .success ∧ r = .connack false code {}) ∨ ∃ rs, r = .disconnect rs := by
  simp only [handleAuth, refuse] at h
  repeat' split at h
  all_goals first
    | (cases h; done)
    | (cases h; exact .inl ⟨_, by simp, rfl⟩)
    | (cases h; exact .inr ⟨_, rfl⟩)

theorem handleConnect_challenge {uuid random : Str} {p : ConnectPkt} {o : Opening}
    {m : Scram.Server} {r : Reply} (h : handleConnect c x uuid random p = .challenge o m r) :
    ∃ method d, p.authMethod = some method ∧ r = .auth method d := by
  unfold handleConnect at h
  split at h
  · simp only [handleConnectV3, refuse] at h
    repeat' split at h
    all_goals cases h
  · simp only [handleConnectV5, refuse] at h
    repeat' split at h
    all_goals first
      | (cases h; done)
      | skip
    cases h
    rename_i method hm _ mech hmech hin _ sf hsf
    exact ⟨method, sf, hm, rfl⟩

theorem AckInv.step {acts : List FrontAct} {a : FrontAct} {evs e : List FrontEvent}
    (h : AckInv c f evs) (hf : FrontInv c x ext acts f evs)
    (hs : f.step c x ext a = some (f', e)) : AckInv c f' (evs ++ e) := by
  have hf' := hf.step hs
  have hnew : f.conns.get f.nextConn = none := by
    cases hk : f.conns.get f.nextConn with
    | none => rfl
    | some n => exact absurd (hf.fresh _ _ hk) (Nat.lt_irrefl _)
  have hins : ∀ {m : FMap ConnId Conn} {k : ConnId} {n : Conn}, (m.insert k n).get k = some n :=
    fun {m k n} => FMap.get_insert_self m k n
  cases fcases hs with
  | idle => rw [List.append_nil]; exact h
  | helloOver p uuid random env wr out ho =>
    refine h.quiet (n := ⟨p, openV5 c uuid p, .over⟩) rfl rfl (.inl hnew)
      (fun _ _ e => by cases e) ?_
    rcases ho with ⟨r, hr, rfl⟩ | ⟨_, rfl⟩
    · exact .inr ⟨r, rfl, ⟨_, hins, .inl ⟨rfl, .inl (handleConnect_refuse hr)⟩⟩,
        .inr fun _ e => by cases e⟩
    · exact .inl rfl
  | helloChallenge p uuid random env wr o m r hr =>
    obtain ⟨method, d, h1, rfl⟩ := handleConnect_challenge hr
    exact h.quiet (n := ⟨p, o, .authorizing m⟩) rfl rfl (.inl hnew) (fun _ _ e => by cases e)
      (.inr ⟨_, rfl, ⟨_, hins, .inr (.inl ⟨method, d, rfl, h1⟩)⟩, .inl fun _ _ _ e => by cases e⟩)
  | helloGo cfg hcfg p uuid random env wr o final hr w evs hw =>
    refine h.worldly hf hcfg hw hf' ?_
    intro k
    by_cases e : f.nextConn = k
    · subst e
      exact .inr ⟨_, final, hins, rfl, .inl hnew⟩
    · left; simp only [FMap.get_insert, if_neg e]
  | authOver k b env wr p o m hk r hr =>
    refine h.quiet (n := ⟨p, o, .over⟩) rfl rfl (.inr ⟨o, m, hk⟩) (fun _ _ e => by cases e)
      (.inr ⟨r, rfl, ⟨_, hins, .inl ⟨rfl, handleAuth_refuse hr⟩⟩, .inr fun _ e => by cases e⟩)
  | authGo cfg hcfg k b env wr p o m hk final hr w evs hw =>
    refine h.worldly hf hcfg hw hf' ?_
    intro k'
    by_cases e : k = k'
    · subst e
      exact .inr ⟨_, final, hins, rfl, .inr ⟨o, m, hk⟩⟩
    · left; simp only [FMap.get_insert, if_neg e]
  | stray k malformed p o m hk =>
    refine h.quiet (n := ⟨p, o, .over⟩) rfl rfl (.inr ⟨o, m, hk⟩) (fun _ _ e => by cases e)
      (.inr ⟨_, rfl, ⟨_, hins, .inl ⟨rfl, .inl ⟨_, ?_, rfl⟩⟩⟩, .inr fun _ e => by cases e⟩)
    cases malformed <;> simp
  | leave k p o m hk =>
    exact h.quiet (n := ⟨p, o, .over⟩) rfl rfl (.inr ⟨o, m, hk⟩) (fun _ _ e => by cases e)
      (.inl rfl)
  | act cfg hcfg b hb w evs hw =>
    exact h.worldly hf hcfg hw hf' fun k => .inl rfl

theorem ackInv {acts : List FrontAct} {evs : List FrontEvent}
    (h : FrontReaches c x ext acts f evs) : AckInv c f evs := by
  suffices FrontInv c x ext acts f evs ∧ AckInv c f evs from this.2
  refine front_induction (c := c) (x := x) (ext := ext)
    (P := fun acts f evs => FrontInv c x ext acts f evs ∧ AckInv c f evs) ⟨frontInv rfl, ?_⟩
    (fun _ _ _ _ _ _ h hs => ⟨h.1.step hs, h.2.step h.1 hs⟩) h
  constructor
  · intro k r h; cases h
  · intros; rfl
  · intros; rfl
  · intro k n t final h; cases h
  · intro k; exact Nat.zero_le _

theorem traffic_settled {a : Act} {ev : Event} {t : TaskId} (hc : WCase cfg ext w a w' wevs)
    (h : ev ∈ wevs) (ht : ev.traffic t = true) : Tasks.phase w'.tasks t = some .settled := by
  have hwill : ∀ (u : TaskId) (s s' : Session) (m : Option SendPub),
      ev ∈ willEvents u s s' m → False := by
    intro u s s' m he
    cases m with
    | none => cases he
    | some m =>
      simp only [willEvents, List.mem_cons, List.not_mem_nil, or_false] at he
      rcases he with rfl | rfl <;> cases ht
  have hins : ∀ {m : Tasks} {u : TaskId} {y : Task}, u = t → y.stage.phase = .settled →
      Tasks.phase (FMap.insert m u y) t = some .settled := by
    intro m u y hu hy
    rw [Tasks.phase_insert, if_pos hu, hy]
  cases hc with
  | idle => cases h
  | fresh req env r id hadd hw s out hs =>
    simp only [List.mem_cons, List.not_mem_nil, or_false] at h
    rcases h with rfl | rfl
    · cases ht
    · exact hins (by simpa [Event.traffic] using ht) rfl
  | stillborn => cases h
  | wait => cases h
  | locked => cases h
  | accept t' env y old level hx hst hw s0 present h0 s out hs =>
    simp only [List.mem_append, List.mem_cons, List.not_mem_nil, or_false] at h
    rcases h with h | rfl | rfl
    · split at h
      · cases h
      · simp only [List.mem_cons, List.not_mem_nil, or_false] at h
        subst h
        cases ht
    · cases ht
    · exact hins (by simpa [Event.traffic] using ht) rfl
  | refused =>
    simp only [List.mem_cons, List.not_mem_nil, or_false] at h
    subst h
    cases ht
  | packet t' env after size p y s hx hst hd r hr =>
    have hu : t' = t := by
      simp only [List.mem_cons, List.not_mem_nil, or_false] at h
      rcases h with rfl | rfl | rfl | rfl
      · simpa [Event.traffic] using ht
      · simpa [Event.traffic] using ht
      · cases ht
      · simpa [Event.traffic] using ht
    refine hins hu ?_
    simp only
    split <;> rfl
  | normalOn t' env y s hx hst hd src m rest hi =>
    have hu : t' = t := by
      simp only [List.mem_cons, List.not_mem_nil, or_false] at h
      rcases h with rfl | rfl
      · cases ht
      · simpa [Event.traffic] using ht
    exact hins hu rfl
  | normalOff =>
    simp only [List.mem_cons, List.not_mem_nil, or_false] at h
    subst h
    cases ht
  | handOn =>
    simp only [List.mem_cons, List.not_mem_nil, or_false] at h
    subst h
    cases ht
  | handOff =>
    rcases List.mem_append.1 h with h | h
    · obtain ⟨m, _, rfl⟩ := List.mem_map.1 h
      cases ht
    · simp only [List.mem_cons, List.not_mem_nil, or_false] at h
      subst h
      cases ht
  | deny => cases h
  | ignored => cases h
  | kicked => cases h
  | expire =>
    rcases List.mem_append.1 h with h | h
    · exact (hwill _ _ _ _ h).elim
    · simp only [List.mem_cons, List.not_mem_nil, or_false] at h
      subst h
      cases ht
  | lateWill => exact (hwill _ _ _ _ h).elim
  | lose => cases h
  | closeQuiet =>
    simp only [List.mem_cons, List.not_mem_nil, or_false] at h
    subst h
    cases ht
  | closeWill =>
    rcases List.mem_cons.1 h with rfl | h
    · cases ht
    · exact (hwill _ _ _ _ h).elim
  | closeDelayed =>
    simp only [List.mem_cons, List.not_mem_nil, or_false] at h
    subst h
    cases ht
  | push => cases h
  | flush => cases h
  | giveUp => cases h
  | remove =>
    simp only [List.mem_cons, List.not_mem_nil, or_false] at h
    subst h
    cases ht
  | rest => cases h
  | fire => cases h
  | kick => cases h

end Akasa
