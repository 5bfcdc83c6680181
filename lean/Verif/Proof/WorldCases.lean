import Verif.Proof.WorldFrame
/-! # The steps of the whole broker, one by one -/
namespace Akasa

/-- Everything a step can do. -/
inductive WCase (cfg : Config) (ext : Ext) (w : World) : Act → World → List Event → Prop
  | idle (a : Act) : WCase cfg ext w a w []
  | fresh (req : Request) (env : Env) (r : Registry) (id : ClientId)
      (hadd : w.registry.add req.identifier = some (r, .new id))
      (hw : req.willRefused cfg = false) (s : Session) (out : List OutPkt)
      (hs : handlePendingsOf req.level.proto (env.clk 0)
        (Session.start cfg req.level.proto req.identifier id req.params) = (s, out)) :
      WCase cfg ext w (.connect req env true)
        { w with
          registry := r, nextTask := w.nextTask + 1
          inbox := w.inbox.insert id [], control := w.control.insert id []
          tasks := w.tasks.insert w.nextTask
            { req, stage := .online s, connectedAt := some w.clock }
          clock := w.clock + 1 }
        [.accepted w.nextTask false, .sent w.nextTask out]
  | stillborn (req : Request) (env : Env) (wr : Bool) (r : Registry) (id : ClientId)
      (hadd : w.registry.add req.identifier = some (r, .new id)) :
      WCase cfg ext w (.connect req env wr)
        { w with
          registry := r, nextTask := w.nextTask + 1
          inbox := (w.inbox.insert id []).erase id, control := (w.control.insert id []).erase id
          tasks := w.tasks.insert w.nextTask { req, stage := .gone } }
        []
  | wait (req : Request) (env : Env) (wr : Bool) (r : Registry) (id : ClientId) (q : List Control)
      (hadd : w.registry.add req.identifier = some (r, .present id))
      (hq : w.control.get id = some q) :
      WCase cfg ext w (.connect req env wr)
        { w with
          registry := r, nextTask := w.nextTask + 1
          control := w.control.insert id (q ++ [.online req.level.proto w.nextTask])
          tasks := w.tasks.insert w.nextTask { req, stage := .waiting id } }
        []
  | locked (req : Request) (env : Env) (wr : Bool) (r : Registry) (id : ClientId)
      (hadd : w.registry.add req.identifier = some (r, .present id))
      (hq : w.control.get id = none) :
      WCase cfg ext w (.connect req env wr)
        { w with
          registry := r, nextTask := w.nextTask + 1
          tasks := w.tasks.insert w.nextTask { req, stage := .gone } }
        []
  | accept (t : TaskId) (env : Env) (x : Task) (old : Session) (level : Level)
      (hx : w.tasks.get t = some x) (hst : x.stage = .granted old level)
      (hw : x.req.willRefused cfg = false) (s0 : Session) (present : Bool)
      (h0 : x.req.session cfg old level = (s0, present)) (s : Session) (out : List OutPkt)
      (hs : handlePendingsOf x.req.level.proto (env.clk 0) s0 = (s, out)) :
      WCase cfg ext w (.accept t env true)
        { w with
          tasks := w.tasks.insert t { req := x.req, stage := .online s, connectedAt := some w.clock }
          clock := w.clock + 1 }
        ((if present then [] else [.discarded t old]) ++ [.accepted t present, .sent t out])
  | refused (t : TaskId) (env : Env) (wr : Bool) (x : Task) (old : Session) (level : Level)
      (hx : w.tasks.get t = some x) (hst : x.stage = .granted old level) :
      WCase cfg ext w (.accept t env wr)
        { w with
          tasks := w.tasks.insert t { req := x.req, stage := .gone }
          inbox := w.inbox.erase old.clientId, control := w.control.erase old.clientId }
        [.discarded t old]
  | packet (t : TaskId) (env : Env) (after : Clock) (size : Nat) (p : InPkt) (x : Task)
      (s : Session) (hx : w.tasks.get t = some x) (hst : x.stage = .online s)
      (hd : s.disconnected = false) (r : Res)
      (hr : onPacket cfg ext x.req.level.proto env after w.global s size p = some r)
      (hroom : s.bcastCnt < bcastMax) :
      WCase cfg ext w (.packet t env after size p)
        { w with
          route := r.global.route, retain := r.global.retain
          tasks := w.tasks.insert t
            { x with stage := if r.closed then .closed r.session else .online r.session } }
        [.received t p, .routed t r.routed, .queued t (newCopies s r.session), .sent t r.out]
  | normalOn (t : TaskId) (env : Env) (x : Task) (s : Session) (hx : w.tasks.get t = some x)
      (hst : x.stage = .online s) (hd : s.disconnected = false) (src : TaskId) (m : NormalMsg)
      (rest : List (TaskId × NormalMsg)) (hi : w.inbox.get s.clientId = some ((src, m) :: rest)) :
      WCase cfg ext w (.normal t env)
        { w with
          tasks := w.tasks.insert t
            { x with stage := .online (onNormal cfg x.req.level.proto env w.global s m).session }
          inbox := w.inbox.insert s.clientId rest }
        [.took t s.clientId src m, .sent t (onNormal cfg x.req.level.proto env w.global s m).out]
  | normalOff (t : TaskId) (env : Env) (x : Task) (s : Session) (hx : w.tasks.get t = some x)
      (hst : x.stage = .offline s) (hd : x.idle s = true) (src : TaskId) (m : NormalMsg)
      (rest : List (TaskId × NormalMsg)) (hi : w.inbox.get s.clientId = some ((src, m) :: rest)) :
      WCase cfg ext w (.normal t env)
        { w with
          tasks := w.tasks.insert t
            { x with stage := .offline (handleNormalOf cfg x.req.level.proto (env.now 0 0) s m).1 }
          inbox := w.inbox.insert s.clientId rest }
        [.took t s.clientId src m]
  | handOn (t : TaskId) (env : Env) (x : Task) (s : Session) (hx : w.tasks.get t = some x)
      (hst : x.stage = .online s) (b : TaskId) (y : Task) (q : List Control)
      (hq : w.control.get s.clientId = some (.online x.req.level.proto b :: q))
      (hy : w.tasks.get b = some y) :
      WCase cfg ext w (.control t env)
        { w with
          control := w.control.insert s.clientId q
          tasks := (w.tasks.insert t { x with stage := .gone, sinks := [] }).insert b
            { y with stage := .granted s x.req.level } }
        [.dropped t (x.held s)]
  | handOff (t : TaskId) (env : Env) (x : Task) (s : Session) (hx : w.tasks.get t = some x)
      (hst : x.stage = .offline s) (hd : x.idle s = true) (b : TaskId) (y : Task) (q : List Control)
      (hq : w.control.get s.clientId = some (.online x.req.level.proto b :: q))
      (hy : w.tasks.get b = some y) (msgs : List (TaskId × NormalMsg))
      (inbox : FMap ClientId (List (TaskId × NormalMsg)))
      (hm : (x.req.level.proto = .v3 ∧ msgs = (w.inbox.get s.clientId).getD [] ∧
          inbox = w.inbox.insert s.clientId []) ∨
        (x.req.level.proto = .v5 ∧ msgs = [] ∧ inbox = w.inbox)) :
      WCase cfg ext w (.control t env)
        { w with
          control := w.control.insert s.clientId q
          tasks := (w.tasks.insert t { x with stage := .gone, sinks := [] }).insert b
            { y with stage := .granted (drainInbox cfg x.req.level.proto env s msgs) x.req.level }
          inbox }
        (msgs.map (fun e => .took t s.clientId e.1 e.2) ++ [.dropped t (x.held s)])
  | deny (t : TaskId) (env : Env) (x : Task) (s : Session) (hx : w.tasks.get t = some x)
      (hst : x.stage = .online s ∨ (x.stage = .offline s ∧ x.idle s = true)) (pr : Proto)
      (b : TaskId) (y : Task) (q : List Control)
      (hq : w.control.get s.clientId = some (.online pr b :: q)) (hpr : pr ≠ x.req.level.proto)
      (hy : w.tasks.get b = some y) :
      WCase cfg ext w (.control t env)
        { w with
          control := w.control.insert s.clientId q
          tasks := w.tasks.insert b { y with stage := .gone } }
        []
  | ignored (t : TaskId) (env : Env) (x : Task) (s : Session) (hx : w.tasks.get t = some x)
      (hst : x.stage = .online s ∨ (x.stage = .offline s ∧ x.idle s = true)) (c : Control)
      (q : List Control) (hq : w.control.get s.clientId = some (c :: q))
      (hc : (∃ pr b, c = .online pr b ∧ w.tasks.get b = none) ∨
        (c = .kick ∧ x.stage = .offline s) ∨
        (∃ time, (c = .sessionExpired time ∨ c = .willDelayReached time) ∧
          x.req.level.proto = .v5 ∧ (x.stage = .online s ∨ x.connectedAt ≠ some time))) :
      WCase cfg ext w (.control t env) { w with control := w.control.insert s.clientId q } []
  | kicked (t : TaskId) (env : Env) (x : Task) (s : Session) (hx : w.tasks.get t = some x)
      (hst : x.stage = .online s) (q : List Control)
      (hq : w.control.get s.clientId = some (.kick :: q)) :
      WCase cfg ext w (.control t env)
        { w with
          control := w.control.insert s.clientId q
          tasks := w.tasks.insert t { x with stage := .closed s } }
        []
  | expire (t : TaskId) (env : Env) (x : Task) (s : Session) (hx : w.tasks.get t = some x)
      (hst : x.stage = .offline s) (hd : x.idle s = true) (time : Nat) (q : List Control)
      (hq : w.control.get s.clientId = some (.sessionExpired time :: q))
      (hpr : x.req.level.proto = .v5) (ht : x.connectedAt = some time) (s' : Session) (g : Global)
      (m : Option SendPub) (hw : WillSent ext x.req.level.proto env w.global s s' g m) (r : Registry) (route : RouteTable)
      (hrem : removeClient w.registry g.route s.clientId s.subscribes.keys = some (r, route)) :
      WCase cfg ext w (.control t env)
        { w with
          control := w.control.insert s.clientId q
          registry := r, route, retain := g.retain
          tasks := w.tasks.insert t { x with stage := .expired s' } }
        (willEvents t s s' m ++ [.removed t s.clientId])
  | lateWill (t : TaskId) (env : Env) (x : Task) (s : Session) (hx : w.tasks.get t = some x)
      (hst : x.stage = .offline s) (hd : x.idle s = true) (time : Nat) (q : List Control)
      (hq : w.control.get s.clientId = some (.willDelayReached time :: q))
      (hpr : x.req.level.proto = .v5) (ht : x.connectedAt = some time) (s' : Session) (g : Global)
      (m : Option SendPub) (hw : WillSent ext x.req.level.proto env w.global s s' g m) :
      WCase cfg ext w (.control t env)
        { w with
          control := w.control.insert s.clientId q
          route := g.route, retain := g.retain
          tasks := w.tasks.insert t { x with stage := .offline s' } }
        (willEvents t s s' m)
  | lose (t : TaskId) (x : Task) (s : Session) (hx : w.tasks.get t = some x)
      (hst : x.stage = .online s) :
      WCase cfg ext w (.lose t)
        { w with tasks := w.tasks.insert t { x with stage := .closed s } } []
  | closeQuiet (t : TaskId) (env : Env) (lost : List ClientId) (x : Task) (s : Session)
      (hx : w.tasks.get t = some x) (hst : x.stage = .closed s)
      (hd : s.clientDisconnected = true ∨ willPlan x.req.level.proto s = .atExpiry) :
      WCase cfg ext w (.close t env lost)
        { w with
          tasks := w.tasks.insert t
            { x with stage := .ending s
                     sinks := x.sinks.filter fun e => !lost.contains e.1 } }
        [.dropped t fun d => if lost.contains d then (x.sinks.get d).toList else []]
  | closeWill (t : TaskId) (env : Env) (lost : List ClientId) (x : Task) (s : Session)
      (hx : w.tasks.get t = some x) (hst : x.stage = .closed s) (hd : s.clientDisconnected = false)
      (hp : willPlan x.req.level.proto s = .now) (s' : Session) (g : Global) (m : Option SendPub)
      (hw : WillSent ext x.req.level.proto env w.global s s' g m) :
      WCase cfg ext w (.close t env lost)
        { w with
          route := g.route, retain := g.retain
          tasks := w.tasks.insert t
            { x with stage := .ending s'
                     sinks := x.sinks.filter fun e => !lost.contains e.1 } }
        ((.dropped t fun d => if lost.contains d then (x.sinks.get d).toList else []) ::
          willEvents t s s' m)
  | closeDelayed (t : TaskId) (env : Env) (lost : List ClientId) (x : Task) (s : Session)
      (hx : w.tasks.get t = some x) (hst : x.stage = .closed s) (hd : s.clientDisconnected = false)
      (hp : willPlan x.req.level.proto s = .delayed) :
      WCase cfg ext w (.close t env lost)
        { w with
          tasks := w.tasks.insert t
            { x with stage := .ending s
                     sinks := x.sinks.filter fun e => !lost.contains e.1 }
          timers := w.timers ++ (x.connectedAt.toList.map fun time =>
            { id := s.clientId, msg := .willDelayReached time }) }
        [.dropped t fun d => if lost.contains d then (x.sinks.get d).toList else []]
  | push (t : TaskId) (d : ClientId) (x : Task) (s : Session) (hx : w.tasks.get t = some x)
      (hst : x.stage.sending? = some s) (m : NormalMsg) (rest : List NormalMsg)
      (hq : s.queue d = m :: rest) (hk : x.sinks.get d = none) :
      WCase cfg ext w (.push t d)
        { w with
          tasks := w.tasks.insert t
            { x with
              stage := x.stage.setSession
                { s with bcast := if rest.isEmpty then s.bcast.erase d else s.bcast.insert d rest
                         bcastCnt := s.bcastCnt - 1 }
              sinks := x.sinks.insert d m } }
        []
  | flush (t : TaskId) (d : ClientId) (x : Task) (hx : w.tasks.get t = some x) (m : NormalMsg)
      (q : List (TaskId × NormalMsg)) (hk : x.sinks.get d = some m) (hi : w.inbox.get d = some q)
      (hl : q.length < inboxSize) :
      WCase cfg ext w (.flush t d)
        { w with
          tasks := w.tasks.insert t { x with sinks := x.sinks.erase d }
          inbox := w.inbox.insert d (q ++ [(t, m)]) }
        []
  | giveUp (t : TaskId) (d : ClientId) (x : Task) (s : Session) (hx : w.tasks.get t = some x)
      (hst : x.stage.sending? = some s) (hi : w.inbox.contains d = false) :
      WCase cfg ext w (.giveUp t d)
        { w with
          tasks := w.tasks.insert t
            { x with
              stage := x.stage.setSession
                { s with bcast := s.bcast.erase d
                         bcastCnt := s.bcastCnt - (s.queue d).length }
              sinks := x.sinks.erase d } }
        []
  | remove (t : TaskId) (x : Task) (s : Session) (hx : w.tasks.get t = some x)
      (hst : (x.stage = .ending s ∧ x.req.endsSession s = true) ∨ x.stage = .expired s)
      (hd : x.idle s = true) (r : Registry) (route : RouteTable)
      (hrem : removeClient w.registry w.route s.clientId s.subscribes.keys = some (r, route)) :
      WCase cfg ext w (.finish t)
        { w with
          registry := r, route
          tasks := w.tasks.insert t { x with stage := .gone }
          inbox := w.inbox.erase s.clientId, control := w.control.erase s.clientId }
        [.removed t s.clientId]
  | rest (t : TaskId) (x : Task) (s : Session) (hx : w.tasks.get t = some x)
      (hst : x.stage = .ending s) (hd : x.idle s = true) (he : x.req.endsSession s = false)
      (r : Registry) (hr : w.registry.offline s.clientId = some r) (timers : List Timer)
      (htm : timers = match x.req.level.proto with
        | .v3 => []
        | .v5 => x.connectedAt.toList.map fun time =>
            { id := s.clientId, msg := .sessionExpired time }) :
      WCase cfg ext w (.finish t)
        { w with
          registry := r
          tasks := w.tasks.insert t { x with stage := .offline s }
          timers := w.timers ++ timers }
        []
  | fire (i : Nat) (tm : Timer) (ht : w.timers[i]? = some tm) (w' : World)
      (hw : (w' = { w with timers := w.timers.eraseIdx i } ∧
          (w.registry.clients.contains tm.id = false ∨ w.control.get tm.id = none)) ∨
        ∃ q, w.registry.clients.contains tm.id = true ∧ w.control.get tm.id = some q ∧
          w' = { w with timers := w.timers.eraseIdx i
                        control := w.control.insert tm.id (q ++ [tm.msg]) }) :
      WCase cfg ext w (.fire i) w' []
  | kick (id : ClientId) (q : List Control) (hr : w.registry.clients.contains id = true)
      (hq : w.control.get id = some q) :
      WCase cfg ext w (.kick id) { w with control := w.control.insert id (q ++ [.kick]) } []

variable {cfg : Config} {ext : Ext} {w w' : World} {evs : List Event}

theorem setUp_cases {t : TaskId} {req : Request} {s : Session} {present : Bool} {env : Env}
    {wr : Bool} {w2 : World} {e2 : List Event} (h : w.setUp cfg t req s present env wr = (w2, e2)) :
    (wr = true ∧ req.willRefused cfg = false ∧
      w2 = { w with
        tasks := w.tasks.insert t
          { req, stage := .online (handlePendingsOf req.level.proto (env.clk 0) s).1
            connectedAt := some w.clock }
        clock := w.clock + 1 } ∧
      e2 = [.accepted t present, .sent t (handlePendingsOf req.level.proto (env.clk 0) s).2]) ∨
    ((wr && !req.willRefused cfg) = false ∧
      w2 = (w.setTask t { req, stage := .gone }).dropReceivers s.clientId ∧ e2 = []) := by
  unfold World.setUp at h
  by_cases hc : (wr && !req.willRefused cfg) = true
  · rw [if_pos hc] at h
    simp only [Bool.and_eq_true, Bool.not_eq_true'] at hc
    cases h
    exact .inl ⟨hc.1, hc.2, rfl, rfl⟩
  · rw [if_neg hc] at h
    cases h
    exact .inr ⟨by simpa using hc, rfl, rfl⟩

theorem cases_connect {req : Request} {env : Env} {wr : Bool}
    (h : w.connect cfg req env wr = some (w', evs)) :
    WCase cfg ext w (.connect req env wr) w' evs := by
  unfold World.connect at h
  simp only at h
  split at h
  · cases h
  · rename_i r id hadd
    simp only [Option.some.injEq] at h
    rcases setUp_cases h with ⟨rfl, h1, rfl, rfl⟩ | ⟨_, rfl, rfl⟩
    · exact .fresh req env r id hadd h1 _ _ rfl
    · have : (Session.start cfg req.level.proto req.identifier id req.params).clientId = id := by
        cases req.level.proto <;> rfl
      rw [this]
      exact .stillborn req env wr r id hadd
  · rename_i r id hadd
    split at h
    · rename_i q hq
      cases h
      exact .wait req env wr r id q hadd hq
    · rename_i hq
      cases h
      exact .locked req env wr r id hadd hq

theorem session_client (cfg : Config) (req : Request) (old : Session) (level : Level) :
    (req.session cfg old level).1.clientId = old.clientId := by
  unfold Request.session
  split
  · cases req.level.proto <;> rfl
  · cases req.level.proto <;> rfl

theorem cases_accept {t : TaskId} {env : Env} {wr : Bool}
    (h : w.accept cfg t env wr = (w', evs)) : WCase cfg ext w (.accept t env wr) w' evs := by
  unfold World.accept at h
  split at h
  · cases h; exact .idle _
  · rename_i x hx
    split at h
    · rename_i old level hst
      simp only at h
      cases hu : w.setUp cfg t x.req (x.req.session cfg old level).1
          (x.req.session cfg old level).2 env wr with
      | mk w2 e2 =>
      rw [hu] at h
      cases h
      rcases setUp_cases hu with ⟨rfl, h1, rfl, rfl⟩ | ⟨hno, rfl, rfl⟩
      · have := WCase.accept (ext := ext) t env x old level hx hst h1
          (x.req.session cfg old level).1 (x.req.session cfg old level).2 rfl _ _ rfl
        cases hp : (x.req.session cfg old level).2 <;> rw [hp] at this <;> simp only [h1] <;>
          exact this
      · rw [session_client, if_neg]
        · exact .refused t env wr x old level hx hst
        · rw [Bool.and_assoc, hno, Bool.and_false]; simp
    · cases h; exact .idle _

theorem cases_packet {t : TaskId} {env : Env} {after : Clock} {size : Nat} {p : InPkt}
    (h : w.packet cfg ext t env after size p = some (w', evs)) :
    WCase cfg ext w (.packet t env after size p) w' evs := by
  unfold World.packet at h
  split at h
  · cases h; exact .idle _
  · rename_i x hx
    split at h
    · rename_i s hst
      split at h
      · cases h; exact .idle _
      · rename_i hd
        split at h
        · cases h
        · rename_i r hr
          cases h
          have hd' : s.disconnected = false ∧ s.bcastCnt < bcastMax := by simpa using hd
          exact .packet t env after size p x s hx hst hd'.1 r hr hd'.2
    · cases h; exact .idle _

theorem cases_normal {t : TaskId} {env : Env} (h : w.normal cfg t env = (w', evs)) :
    WCase cfg ext w (.normal t env) w' evs := by
  unfold World.normal at h
  split at h
  · cases h; exact .idle _
  · rename_i x hx
    split at h
    · rename_i s hst
      split at h
      · rename_i src m rest hi
        split at h
        · cases h; exact .idle _
        · rename_i hd
          cases h
          exact .normalOn t env x s hx hst (by simpa using hd) src m rest hi
      · cases h; exact .idle _
    · rename_i s hst
      split at h
      · rename_i src m rest hi
        split at h
        · rename_i hd
          cases h
          exact .normalOff t env x s hx hst hd src m rest hi
        · cases h; exact .idle _
      · cases h; exact .idle _
    · cases h; exact .idle _

theorem cases_onControl {t : TaskId} {env : Env} {x : Task} {s : Session} {offline : Bool}
    (hx : w.tasks.get t = some x)
    (hst : (offline = false ∧ x.stage = .online s) ∨
      (offline = true ∧ x.stage = .offline s ∧ x.idle s = true))
    (h : w.onControl cfg ext t env x s offline = some (w', evs)) :
    WCase cfg ext w (.control t env) w' evs := by
  have hst' : x.stage = .online s ∨ (x.stage = .offline s ∧ x.idle s = true) :=
    hst.elim (fun h => .inl h.2) (fun h => .inr h.2)
  unfold World.onControl at h
  simp only at h
  split at h
  · rename_i c q hq
    cases c with
    | online pr b =>
      simp only at h
      split at h
      · rename_i y hy
        split at h
        · rename_i hpr
          subst hpr
          rcases hst with ⟨rfl, h1⟩ | ⟨rfl, h1, h2⟩
          · simp only [Bool.false_and, Bool.false_eq_true, if_false, List.map_nil, List.nil_append,
              Option.some.injEq, Prod.mk.injEq] at h
            obtain ⟨rfl, rfl⟩ := h
            exact .handOn t env x s hx h1 b y q hq hy
          · by_cases hp : x.req.level.proto = .v3
            · simp only [hp, Bool.true_and, decide_true, if_true, Option.some.injEq,
                Prod.mk.injEq] at h
              obtain ⟨rfl, rfl⟩ := h
              have := WCase.handOff (cfg := cfg) (ext := ext) t env x s hx h1 h2 b y q hq hy _ _
                (.inl ⟨hp, rfl, rfl⟩)
              rw [hp] at this
              exact this
            · have hp5 : x.req.level.proto = .v5 := by
                cases h : x.req.level.proto
                · exact absurd h hp
                · rfl
              simp only [hp5, Bool.true_and, reduceCtorEq, decide_false, Bool.false_eq_true,
                if_false, Option.some.injEq, Prod.mk.injEq] at h
              obtain ⟨rfl, rfl⟩ := h
              have := WCase.handOff (cfg := cfg) (ext := ext) t env x s hx h1 h2 b y q hq hy _ _
                (.inr ⟨hp5, rfl, rfl⟩)
              rw [hp5] at this
              exact this
        · rename_i hpr
          cases h
          exact .deny t env x s hx hst' pr b y q hq hpr hy
      · rename_i hy
        cases h
        exact .ignored t env x s hx hst' _ q hq (.inl ⟨pr, b, rfl, hy⟩)
    | kick =>
      simp only at h
      split at h
      · rename_i ho
        cases h
        rcases hst with ⟨rfl, _⟩ | ⟨rfl, h1, h2⟩
        · cases ho
        · exact .ignored t env x s hx hst' _ q hq (.inr (.inl ⟨rfl, h1⟩))
      · rename_i ho
        cases h
        rcases hst with ⟨rfl, h1⟩ | ⟨rfl, h1, h2⟩
        · exact .kicked t env x s hx h1 q hq
        · exact absurd rfl ho
    | sessionExpired time =>
      simp only at h
      split at h
      · cases h
      · rename_i hpr
        split at h
        · rename_i hc
          simp only [Bool.and_eq_true, decide_eq_true_eq] at hc
          obtain ⟨rfl, ht⟩ := hc
          rcases hst with ⟨h0, _⟩ | ⟨_, h1, h2⟩
          · cases h0
          split at h
          · cases h
          · rename_i s' g m hw
            split at h
            · cases h
            · rename_i r route hrem
              cases h
              exact .expire t env x s hx h1 h2 time q hq hpr ht s' g m (will_sent hw) r route hrem
        · rename_i hc
          cases h
          refine .ignored t env x s hx hst' _ q hq (.inr (.inr ⟨time, .inl rfl, hpr, ?_⟩))
          rcases hst with ⟨rfl, h1⟩ | ⟨rfl, h1, h2⟩
          · exact .inl h1
          · exact .inr (fun ht => hc (by simp [ht]))
    | willDelayReached time =>
      simp only at h
      split at h
      · cases h
      · rename_i hpr
        split at h
        · rename_i hc
          simp only [Bool.and_eq_true, decide_eq_true_eq] at hc
          obtain ⟨rfl, ht⟩ := hc
          rcases hst with ⟨h0, _⟩ | ⟨_, h1, h2⟩
          · cases h0
          split at h
          · cases h
          · rename_i s' g m hw
            cases h
            exact .lateWill t env x s hx h1 h2 time q hq hpr ht s' g m (will_sent hw)
        · rename_i hc
          cases h
          refine .ignored t env x s hx hst' _ q hq (.inr (.inr ⟨time, .inr rfl, hpr, ?_⟩))
          rcases hst with ⟨rfl, h1⟩ | ⟨rfl, h1, h2⟩
          · exact .inl h1
          · exact .inr (fun ht => hc (by simp [ht]))
  · cases h; exact .idle _

theorem cases_control {t : TaskId} {env : Env}
    (h : w.handleControl cfg ext t env = some (w', evs)) :
    WCase cfg ext w (.control t env) w' evs := by
  unfold World.handleControl at h
  split at h
  · cases h; exact .idle _
  · rename_i x hx
    split at h
    · rename_i s hst
      exact cases_onControl hx (.inl ⟨rfl, hst⟩) h
    · rename_i s hst
      split at h
      · rename_i hi
        exact cases_onControl hx (.inr ⟨rfl, hst, hi⟩) h
      · cases h; exact .idle _
    · cases h; exact .idle _

theorem cases_lose {t : TaskId} : WCase cfg ext w (.lose t) (w.lose t) [] := by
  unfold World.lose
  split
  · exact .idle _
  · rename_i x hx
    split
    · rename_i s hst
      exact .lose t x s hx hst
    · exact .idle _

theorem cases_close {t : TaskId} {env : Env} {lost : List ClientId}
    (h : w.close ext t env lost = some (w', evs)) :
    WCase cfg ext w (.close t env lost) w' evs := by
  unfold World.close at h
  split at h
  · cases h; exact .idle _
  · rename_i x hx
    split at h
    · rename_i s hst
      simp only at h
      split at h
      · rename_i hd
        cases h
        exact .closeQuiet t env lost x s hx hst (.inl hd)
      · rename_i hd
        have hd : s.clientDisconnected = false := by simpa using hd
        split at h
        · rename_i hp
          split at h
          · cases h
          · rename_i s' g m hw
            cases h
            exact .closeWill t env lost x s hx hst hd hp s' g m (will_sent hw)
        · rename_i hp
          cases h
          exact .closeDelayed t env lost x s hx hst hd hp
        · rename_i hp
          cases h
          exact .closeQuiet t env lost x s hx hst (.inr hp)
    · cases h; exact .idle _

theorem cases_push {t : TaskId} {d : ClientId} : WCase cfg ext w (.push t d) (w.push t d) [] := by
  unfold World.push
  split
  · exact .idle _
  · rename_i x hx
    split
    · exact .idle _
    · rename_i s hst
      split
      · rename_i m rest hq hk
        exact .push t d x s hx hst m rest hq hk
      · exact .idle _

theorem cases_flush {t : TaskId} {d : ClientId} :
    WCase cfg ext w (.flush t d) (w.flush t d) [] := by
  unfold World.flush
  split
  · exact .idle _
  · rename_i x hx
    split
    · rename_i m q hk hi
      split
      · rename_i hl
        exact .flush t d x hx m q hk hi hl
      · exact .idle _
    · exact .idle _

theorem cases_giveUp {t : TaskId} {d : ClientId} :
    WCase cfg ext w (.giveUp t d) (w.giveUp t d) [] := by
  unfold World.giveUp
  split
  · exact .idle _
  · rename_i x hx
    split
    · exact .idle _
    · rename_i s hst
      split
      · exact .idle _
      · rename_i hi
        exact .giveUp t d x s hx hst (by simpa using hi)

theorem cases_remove {t : TaskId} {x : Task} {s : Session} (hx : w.tasks.get t = some x)
    (hst : (x.stage = .ending s ∧ x.req.endsSession s = true) ∨ x.stage = .expired s)
    (hd : x.idle s = true) (h : w.remove t x s = some (w', evs)) :
    WCase cfg ext w (.finish t) w' evs := by
  unfold World.remove at h
  split at h
  · cases h
  · rename_i r route hrem
    cases h
    exact .remove t x s hx hst hd r route hrem

theorem cases_finish {t : TaskId} (h : w.finish t = some (w', evs)) :
    WCase cfg ext w (.finish t) w' evs := by
  unfold World.finish at h
  split at h
  · cases h; exact .idle _
  · rename_i x hx
    split at h
    · rename_i s hst
      split at h
      · rename_i hd
        split at h
        · rename_i he
          exact cases_remove hx (.inl ⟨hst, he⟩) hd h
        · rename_i he
          split at h
          · cases h
          · rename_i r hr
            cases h
            exact .rest t x s hx hst hd (by simpa using he) r hr _ rfl
      · cases h; exact .idle _
    · rename_i s hst
      split at h
      · rename_i hd
        exact cases_remove hx (.inr hst) hd h
      · cases h; exact .idle _
    · cases h; exact .idle _

theorem cases_fire {i : Nat} : WCase cfg ext w (.fire i) (w.fire i) [] := by
  unfold World.fire
  split
  · exact .idle _
  · rename_i tm ht
    refine .fire i tm ht _ ?_
    unfold World.tell
    simp only
    split
    · rename_i hr
      split
      · rename_i q hq
        exact .inr ⟨q, hr, hq, rfl⟩
      · rename_i hq
        exact .inl ⟨rfl, .inr hq⟩
    · rename_i hr
      exact .inl ⟨rfl, .inl (by simpa using hr)⟩

theorem cases_kick {id : ClientId} : WCase cfg ext w (.kick id) (w.tell id .kick) [] := by
  unfold World.tell
  split
  · rename_i hr
    split
    · rename_i q hq
      exact .kick id q hr hq
    · exact .idle _
  · exact .idle _

/-- Every step is one of these. -/
theorem step_cases {a : Act} (h : w.step cfg ext a = some (w', evs)) :
    WCase cfg ext w a w' evs := by
  cases a with
  | connect req env wr => exact cases_connect h
  | accept t env wr => exact cases_accept (Option.some.inj h)
  | packet t env after size p => exact cases_packet h
  | normal t env => exact cases_normal (Option.some.inj h)
  | control t env => exact cases_control h
  | lose t => cases h; exact cases_lose
  | close t env lost => exact cases_close h
  | push t d => cases h; exact cases_push
  | flush t d => cases h; exact cases_flush
  | giveUp t d => cases h; exact cases_giveUp
  | finish t => exact cases_finish h
  | fire i => cases h; exact cases_fire
  | kick id => cases h; exact cases_kick

theorem run_snoc_world {acts : List Act} {a : Act} {w0 w2 : World} {evs : List Event} :
    World.run cfg ext w0 (acts ++ [a]) = some (w2, evs) ↔
      ∃ w1 e1 e2, World.run cfg ext w0 acts = some (w1, e1) ∧ w1.step cfg ext a = some (w2, e2) ∧
        evs = e1 ++ e2 := by
  induction acts generalizing w0 evs with
  | nil =>
    simp only [List.nil_append, World.run]
    constructor
    · intro h
      cases hs : w0.step cfg ext a with
      | none => rw [hs] at h; cases h
      | some r =>
        rw [hs] at h
        simp only [Option.map_some, List.append_nil, Option.some.injEq] at h
        obtain ⟨r1, r2⟩ := r
        cases h
        exact ⟨w0, [], r2, rfl, hs, rfl⟩
    · rintro ⟨w1, e1, e2, h1, h2, rfl⟩
      cases h1
      rw [h2]
      simp
  | cons c cs ih =>
    simp only [List.cons_append, World.run]
    cases hs : w0.step cfg ext c with
    | none => simp
    | some r =>
      simp only [Option.map_eq_some_iff]
      constructor
      · rintro ⟨⟨w3, e3⟩, h1, h2⟩
        cases h2
        obtain ⟨w1, e1, e2, h3, h4, rfl⟩ := ih.mp h1
        exact ⟨w1, r.2 ++ e1, e2, ⟨(w1, e1), h3, rfl⟩, h4, by simp⟩
      · rintro ⟨w1, e1, e2, ⟨⟨w3, e3⟩, h3, h5⟩, h4, rfl⟩
        simp only [Prod.mk.injEq] at h5
        obtain ⟨rfl, rfl⟩ := h5
        exact ⟨(w2, e3 ++ e2), ih.mpr ⟨w3, e3, e2, h3, h4, rfl⟩, by simp⟩

/-- A statement about the state and everything observed holds after every run if it holds at the
start and every step keeps it. -/
theorem world_induction {P : World → List Event → Prop} {w0 : World} (h0 : P w0 [])
    (hstep : ∀ w evs a w' e, P w evs → w.step cfg ext a = some (w', e) → P w' (evs ++ e))
    {acts : List Act} (h : World.run cfg ext w0 acts = some (w, evs)) : P w evs := by
  induction acts using snoc_induction generalizing w evs with
  | nil => cases h; exact h0
  | snoc acts a ih =>
    obtain ⟨w1, e1, e2, h1, h2, rfl⟩ := run_snoc_world.mp h
    exact hstep _ _ _ _ _ (ih h1) h2

theorem world_induction_acts {P : List Act → World → List Event → Prop} {w0 : World} (h0 : P [] w0 [])
    (hstep : ∀ acts w evs a w' e, P acts w evs → w.step cfg ext a = some (w', e) →
      P (acts ++ [a]) w' (evs ++ e))
    {acts : List Act} (h : World.run cfg ext w0 acts = some (w, evs)) : P acts w evs := by
  induction acts using snoc_induction generalizing w evs with
  | nil => cases h; exact h0
  | snoc acts a ih =>
    obtain ⟨w1, e1, e2, h1, h2, rfl⟩ := run_snoc_world.mp h
    exact hstep _ _ _ _ _ _ (ih h1) h2

theorem run_append_world {acts acts' : List Act} {w0 w1 w2 : World} {e1 e2 : List Event}
    (h : World.run cfg ext w0 acts = some (w1, e1)) (h' : World.run cfg ext w1 acts' = some (w2, e2)) :
    World.run cfg ext w0 (acts ++ acts') = some (w2, e1 ++ e2) := by
  induction acts' using snoc_induction generalizing w2 e2 with
  | nil => cases h'; simpa using h
  | snoc acts' a ih =>
    obtain ⟨w3, e3, e4, h3, h4, rfl⟩ := run_snoc_world.mp h'
    rw [← List.append_assoc]
    exact run_snoc_world.mpr ⟨w3, e1 ++ e3, e4, ih h3, h4, (List.append_assoc ..).symm⟩

/-- A packet is received only if the connection reads. -/
theorem received_reads {t : TaskId} {env : Env} {after : Clock} {size : Nat} {p : InPkt} {x : Task}
    {s : Session} (hx : w.tasks.get t = some x) (hst : x.stage = .online s)
    (hs : w.step cfg ext (.packet t env after size p) = some (w', evs))
    (h : Event.received t p ∈ evs) : s.disconnected = false ∧ s.bcastCnt < bcastMax := by
  simp only [World.step, World.packet, hx, hst] at hs
  split at hs
  · cases hs; cases h
  · rename_i hn; simpa using hn

end Akasa
