import Verif.Proof.WorldReach
import Verif.Proof.WorldFlow
import Verif.Props.Agree
/-!
# C56: messages reach every subscribed session, end to end

Over all runs of the whole broker.
-/
namespace Akasa

variable {cfg : Config} {ext : Ext} {w w' : World} {evs e : List Event}

/-- **C56, first step.**  Whatever happened before: when a message is accepted from a client (or its
will is published), a copy is queued in the same step for every client that has a session, online or
offline, whose list of subscriptions has a plain filter that matches the topic; the copy is for that
filter and has at least the QoS granted for it.  (For the publishing client itself only if the
subscription has not the no-local option.) -/
theorem C56_queued {acts : List Act} (hrun : Reaches cfg ext acts w evs) {a : Act}
    (hs : w.step cfg ext a = some (w', e)) {t : TaskId} {m : SendPub} (hp : Publishes t m e)
    (hv : ValidTopic m.topic) {F : Str} {id : ClientId} {q : QoS} (hl : w.lists F id q)
    (hpl : IsPlain F) (hm : Matches F m.topic)
    (hown : ∀ s, w.owned t = some s → s.clientId = id →
      ∃ d, s.subscribes.get F = some d ∧ d.opts.noLocal = false) :
    ∃ c ∈ queuedFor t id e, IsCopyFor m F q c := by
  obtain ⟨ops, h⟩ := subsInv_run (full := false) hrun (fun h => by cases h)
  have hi := (BrokerInv.run hrun).own
  obtain ⟨u, s0, d0, h1, h2, h3, h4⟩ := hl
  obtain ⟨y, hy, hs0⟩ := owned_stage h1
  have hreg : w.global.registered id = true := by rw [← h2]; exact owner_registered hi hy hs0
  have hsub : PlainMatch ops m.topic id F q := by
    refine ⟨hpl, hm, ?_⟩
    rw [← h2, ← h4]
    exact (h.agree u y s0 hy hs0 F).1 d0 h3
  have key : ∀ {x : Task} {s s2 s' s3 : Session} {env : Env} {g' : Global} {n : Nat} {pr : Proto},
      w.tasks.get t = some x → x.stage.owner? = some s →
      sendOf pr env w.global s2 m = some (s', g', n) → s2.bcast = s.bcast →
      s2.clientId = s.clientId → s2.subscribes = s.subscribes → s3.bcast = s'.bcast →
      ∃ c ∈ newCopies s s3 id, IsCopyFor m F q c := by
    intro x s s2 s' s3 env g' n pr hx hso h5 h6 h7 h8 h9
    refine newCopies_send h5 h6 h9 h.run hv hreg hsub ?_
    intro he
    rw [h8]
    exact hown s (by rw [owned_of hx]; exact hso) (by rw [← h7]; exact he.symm)
  have will : ∀ {t' : TaskId} {x : Task} {s s' : Session} {g : Global} {env : Env} {pr : Proto}
      {m' : Option SendPub} {es : List Event}, w.tasks.get t' = some x → x.stage.owner? = some s →
      WillSent ext pr env w.global s s' g m' → Event.will t m ∈ willEvents t' s s' m' →
      (∀ ev ∈ willEvents t' s s' m', ev ∈ es) → ∃ c ∈ queuedFor t id es, IsCopyFor m F q c := by
    intro t' x s s' g env pr m' es hx hso hw hev hes
    cases hsw : s.will with
    | none =>
      have := hw.msg
      rw [hsw] at this; subst this
      cases hev
    | some wl =>
      have hm' := hw.msg
      rw [hsw] at hm'; subst hm'
      simp only [Option.map_some, willEvents, List.mem_cons, Event.will.injEq, reduceCtorEq,
        List.not_mem_nil, or_false] at hev
      obtain ⟨rfl, rfl⟩ := hev
      obtain ⟨n, h5⟩ := hw.sent wl hsw
      obtain ⟨c, hc, hc'⟩ := key hx hso h5 rfl rfl rfl rfl
      refine ⟨c, ?_, hc'⟩
      unfold queuedFor
      refine List.mem_flatMap.2 ⟨_, hes (.queued t (newCopies s s')) ?_, ?_⟩
      · simp [willEvents]
      · simp only [if_true]; exact hc
  have hc := step_cases hs
  cases hc with
  | packet t' env after size p x s hx hst hd r hr =>
    rcases hp with ⟨ms, hp, hmm⟩ | hp
    · simp only [List.mem_cons, Event.routed.injEq, reduceCtorEq, List.not_mem_nil, or_false,
        false_or] at hp
      obtain ⟨rfl, rfl⟩ := hp
      obtain ⟨s2, s', g', k, h5, h6, h7, h8, h9⟩ := packet_send hr hmm
      obtain ⟨c, hc, hc'⟩ := key hx (by rw [hst]; rfl) h5 h6 h7 h8 h9
      refine ⟨c, ?_, hc'⟩
      unfold queuedFor
      refine List.mem_flatMap.2 ⟨.queued t (newCopies s r.session), by simp, ?_⟩
      simp only [if_true]; exact hc
    · simp at hp
  | expire t' env x s hx hst hd time qq hq hpr ht s' g m' hw r route hrem =>
    rcases hp with ⟨ms, hp, hmm⟩ | hp
    · cases m' <;> simp [willEvents] at hp
    · rw [List.mem_append] at hp
      refine will hx (by rw [hst]; rfl) hw (hp.resolve_right (by simp)) fun ev h =>
        List.mem_append_left _ h
  | lateWill t' env x s hx hst hd time qq hq hpr ht s' g m' hw =>
    rcases hp with ⟨ms, hp, hmm⟩ | hp
    · cases m' <;> simp [willEvents] at hp
    · exact will hx (by rw [hst]; rfl) hw hp fun ev h => h
  | closeWill t' env lost x s hx hst hd hpn s' g m' hw =>
    rcases hp with ⟨ms, hp, hmm⟩ | hp
    · cases m' <;> simp [willEvents] at hp
    · rw [List.mem_cons] at hp
      exact will hx (by rw [hst]; rfl) hw (hp.resolve_left (by simp)) fun ev h =>
        List.mem_cons_of_mem _ h
  | accept t' env x old level hx hst hw s1 present h0 s out hs1 =>
    exfalso
    rcases hp with ⟨ms, hp, hmm⟩ | hp <;> cases present <;> simp at hp
  | handOff t' env x s hx hst hd b z qq hq hz msgs inbox hmsg =>
    exfalso
    rcases hp with ⟨ms, hp, hmm⟩ | hp <;> simp at hp
  | _ =>
    exfalso
    rcases hp with ⟨ms, hp, hmm⟩ | hp <;> simp at hp

/-- A third client publishes on the topic `a`. -/
def exThird : List Act :=
  exSubs ++ [.connect { level := .v500, identifier := str "p", clean := true } {} true]

def exHello : Act :=
  .packet 3 {} (Clock.const 0) 10 (.publish
    { dup := false, retain := false, qosPid := .level1 7, topic := str "a", payload := [1] })

example : ∃ w evs w' e m, Reaches {} exExt exThird w evs ∧ w.step {} exExt exHello = some (w', e) ∧
    Publishes 3 m e ∧ m.topic = str "a" ∧ w.lists (str "a") 0 1 ∧ w.lists (str "+") 1 0 ∧
    queuedFor 3 0 e = [m.copyV5 [str "a"] 1] ∧ queuedFor 3 1 e = [m.copyV5 [str "+"] 0] :=
  ⟨_, _, _, _, _, rfl, rfl, .inl ⟨_, .tail _ List.mem_cons_self, List.mem_cons_self⟩, rfl,
    ⟨0, _, _, rfl, rfl, rfl, rfl⟩, ⟨2, _, _, rfl, rfl, rfl, rfl⟩, rfl, rfl⟩

/-- The will of a connection that is lost. -/
example : ∃ w evs w' e m, Reaches {} exExt
    [.connect (exReq .v500 true 0 0) {} true,
     .connect { level := .v311, identifier := str "d", clean := true } {} true,
     .packet 1 {} (Clock.const 0) 10 (.subscribe 1 [(str "w", { maxQos := 2 })] none),
     .lose 0] w evs ∧ w.step {} exExt (.close 0 {} []) = some (w', e) ∧
    Publishes 0 m e ∧ w.lists (str "w") 1 2 ∧ queuedFor 0 1 e = [m.copyV5 [str "w"] 2] :=
  ⟨_, _, _, _, _, rfl, rfl, .inr (List.mem_cons_of_mem _ List.mem_cons_self),
    ⟨1, _, _, rfl, rfl, rfl, rfl⟩, rfl⟩

/-- **C56, at most once and in order.**  In every reachable state: the copies of one sender that a
client has taken, followed by those in its inbox, followed by those the sender still holds, are
copies that were queued, in that order and each at most once. -/
theorem C56_order {acts : List Act} (hrun : Reaches cfg ext acts w evs) (t : TaskId)
    (d : ClientId) : (tookFrom t d evs ++ w.inboxFrom t d ++ w.onTheWay t d).Sublist
      (queuedFor t d evs) := (flowInv_run hrun).sub t d

/-- **C56, conservation.**  In every reachable state: if the client has a session and the sender has
not dropped copies for it, then the copies taken, in the inbox and held by the sender are exactly
the copies queued, each once and in order.  Missing from the full claim: the sender does drop copies
in some cases, see `C56_false` and `C56_dropped`. -/
theorem C56_conserved_partial {acts : List Act} (hrun : Reaches cfg ext acts w evs) {t : TaskId}
    {d : ClientId} (hs : w.hasSession d) (hd : droppedFor t d evs = []) :
    tookFrom t d evs ++ w.inboxFrom t d ++ w.onTheWay t d = queuedFor t d evs := by
  obtain ⟨u, s, h1, rfl⟩ := hs
  obtain ⟨y, hy, hs0⟩ := owned_stage h1
  refine (flowInv_run hrun).same t _ hd ((BrokerInv.run hrun).own.held u _ ?_)
  rw [(Tasks.views hy).1]
  cases hst : y.stage <;> rw [hst] at hs0 <;> cases hs0 <;> rfl

/-- **C56, nothing is stuck.**  Whenever a task holds copies for a client and the inbox of the
client is there and not full, the task can put the next copy into that inbox. -/
theorem C56_moves {t : TaskId} {d : ClientId} (ht : w.passesOn t) {m : NormalMsg} {rest : List NormalMsg}
    (hm : w.onTheWay t d = m :: rest) {q : List (TaskId × NormalMsg)} (hq : w.inbox.get d = some q)
    (hl : q.length < 8) :
    ∃ w', World.run cfg ext w [.push t d, .flush t d] = some (w', []) ∧
      w'.inbox.get d = some (q ++ [(t, m)]) ∧ w'.onTheWay t d = rest := by
  obtain ⟨x, s, hx, hst⟩ := ht
  have hse : x.stage.sending? = some s := by rcases hst with h | h | h | h <;> rw [h] <;> rfl
  have hcs := carried_sending hse d
  rw [onTheWay_of hx, Task.carries, hcs.1] at hm
  cases hk : x.sinks.get d with
  | some m0 =>
    rw [hk] at hm
    simp only [Option.toList_some, List.cons_append, List.nil_append, List.cons.injEq] at hm
    obtain ⟨rfl, hm⟩ := hm
    have h1 : w.step cfg ext (.push t d) = some (w, []) := by
      simp only [World.step, World.push, hx, hse, hk]
      cases s.queue d <;> rfl
    refine ⟨{ w with tasks := w.tasks.insert t { x with sinks := x.sinks.erase d }
                     inbox := w.inbox.insert d (q ++ [(t, m0)]) }, ?_, FMap.get_insert_self .., ?_⟩
    · have h2 : w.step cfg ext (.flush t d) = some ({ w with
          tasks := w.tasks.insert t { x with sinks := x.sinks.erase d }
          inbox := w.inbox.insert d (q ++ [(t, m0)]) }, []) := by
        simp only [World.step, World.flush, hx, hk, hq]
        rw [if_pos (show q.length < inboxSize from hl)]
      simp only [World.run, h1, h2]; rfl
    · rw [onTheWay_of (FMap.get_insert_self ..)]
      simp [Task.carries, FMap.get_erase, hcs.1, hm]
  | none =>
    rw [hk] at hm
    simp only [Option.toList_none, List.nil_append] at hm
    let s' : Session := { s with
      bcast := if rest.isEmpty then s.bcast.erase d else s.bcast.insert d rest
      bcastCnt := s.bcastCnt - 1 }
    let x1 : Task := { x with stage := x.stage.setSession s', sinks := x.sinks.insert d m }
    have h1 : w.step cfg ext (.push t d) = some ({ w with tasks := w.tasks.insert t x1 }, []) := by
      simp only [World.step, World.push, hx, hse, hk, hm]
      rfl
    have hk1 : x1.sinks.get d = some m := FMap.get_insert_self ..
    have hg : FMap.get (w.tasks.insert t x1) t = some x1 := FMap.get_insert_self ..
    refine ⟨{ w with tasks := (w.tasks.insert t x1).insert t { x1 with sinks := x1.sinks.erase d }
                     inbox := w.inbox.insert d (q ++ [(t, m)]) }, ?_, FMap.get_insert_self .., ?_⟩
    · have h2 : World.step cfg ext { w with tasks := w.tasks.insert t x1 } (.flush t d) = some ({ w with
          tasks := (w.tasks.insert t x1).insert t { x1 with sinks := x1.sinks.erase d }
          inbox := w.inbox.insert d (q ++ [(t, m)]) }, []) := by
        simp only [World.step, World.flush, hg, hk1, hq]
        rw [if_pos (show q.length < inboxSize from hl)]
      simp only [World.run, h1, h2]; rfl
    · rw [onTheWay_of (FMap.get_insert_self ..)]
      have h2 : x1.stage.carried d = s'.queue d := hcs.2 s'
      simp only [Task.carries, FMap.get_erase, if_true, h2, Option.toList_none, List.nil_append]
      show ((if rest.isEmpty then s.bcast.erase d else s.bcast.insert d rest).get d).getD [] = rest
      cases rest <;> simp [FMap.get_erase, FMap.get_insert]

/-- **C56, nothing is stuck.**  The established connection of a client can take the first message of
its inbox. -/
theorem C56_takes {u : TaskId} {s : Session}
    (hu : w.onlineSession u = some s) (hd : s.disconnected = false) {t : TaskId} {m : NormalMsg}
    {rest : List (TaskId × NormalMsg)} (hq : w.inbox.get s.clientId = some ((t, m) :: rest))
    (env : Env) :
    ∃ w' e, w.step cfg ext (.normal u env) = some (w', e) ∧ tookFrom t s.clientId e = [m] ∧
      w'.inbox.get s.clientId = some rest := by
  unfold World.onlineSession at hu
  split at hu
  · cases hu
  · rename_i x hx
    split at hu
    · rename_i s0 hst
      cases hu
      let r := onNormal cfg x.req.level.proto env w.global s m
      refine ⟨{ w with tasks := w.tasks.insert u { x with stage := .online r.session }
                       inbox := w.inbox.insert s.clientId rest },
        [.took u s.clientId t m, .sent u r.out], ?_, ?_, FMap.get_insert_self ..⟩
      · simp only [World.step, World.normal, hx, hst, hq, hd, Bool.false_eq_true, if_false]
        rfl
      · simp [tookFrom]
    · cases hu

/-- **C56, drained.**  When nothing is on the way any more the client has taken every copy exactly
once, in the order of publishing. -/
theorem C56_drained_partial {acts : List Act} (hrun : Reaches cfg ext acts w evs) {t : TaskId}
    {d : ClientId} (hs : w.hasSession d) (hd : droppedFor t d evs = [])
    (h1 : w.inboxFrom t d = []) (h2 : w.onTheWay t d = []) :
    tookFrom t d evs = queuedFor t d evs := by
  have := C56_conserved_partial hrun hs hd
  rwa [h1, h2, List.append_nil, List.append_nil] at this

/-- **C56, what is dropped.**  A sender drops copies only when its own session is taken over or when
its own connection ends. -/
theorem C56_dropped {acts : List Act} (hrun : Reaches cfg ext acts w evs) {a : Act}
    (hs : w.step cfg ext a = some (w', e)) {t : TaskId} {d : ClientId}
    (hd : droppedFor t d e ≠ []) :
    ((∃ env, a = .control t env) ∧ ∃ s, w.onlineSession t = some s ∧ w'.stopped t) ∨
      ((∃ env lost, a = .close t env lost ∧ d ∈ lost) ∧ w.lost t) := by
  have hi := (BrokerInv.run hrun).own
  have hc := step_cases hs
  have hwl : ∀ {u : TaskId} {s s' : Session} {m : Option SendPub},
      droppedFor t d (willEvents u s s' m) = [] := by
    intro u s s' m
    cases m <;> simp [willEvents, droppedFor]
  have hlost : ∀ {u : TaskId} {lost : List ClientId} {x : Task},
      droppedFor t d [Event.dropped u fun d => if lost.contains d then (x.sinks.get d).toList
        else []] ≠ [] → u = t ∧ d ∈ lost := by
    intro u lost x h
    simp only [droppedFor, List.flatMap_cons, List.flatMap_nil, List.append_nil] at h
    by_cases hu : u = t
    · rw [if_pos hu] at h
      refine ⟨hu, ?_⟩
      cases hl : lost.contains d with
      | true => simpa using hl
      | false => rw [hl] at h; exact absurd rfl h
    · rw [if_neg hu] at h; exact absurd rfl h
  cases hc with
  | handOn u env x s hx hst b y q hq hy =>
    have hu : u = t := by
      by_cases hu : u = t
      · exact hu
      · simp [droppedFor, hu] at hd
    subst hu
    refine .inl ⟨⟨env, rfl⟩, s, ?_, ?_⟩
    · simp only [World.onlineSession, hx, hst]
    · have hyw := (hi.requester hq hy).1
      have hbt : b ≠ u := by
        rintro rfl
        rw [hx] at hy; cases hy
        rw [hst] at hyw; cases hyw
      exact ⟨_, (FMap.get_insert_ne _ _ hbt).trans (FMap.get_insert_self ..), rfl⟩
  | handOff u env x s hx hst hidle b y q hq hy msgs inbox hm =>
    exfalso
    obtain ⟨h1, h2⟩ := idle_nil hidle
    rw [droppedFor_append] at hd
    have h3 : droppedFor t d (msgs.map fun e => Event.took u s.clientId e.1 e.2) = [] := by
      unfold droppedFor
      rw [List.flatMap_eq_nil_iff]
      intro ev hev
      obtain ⟨_, _, rfl⟩ := List.mem_map.1 hev
      rfl
    rw [h3] at hd
    simp [droppedFor, Task.held, h1, h2, Session.queue, FMap.get] at hd
  | closeQuiet u env lost x s hx hst hcd =>
    obtain ⟨rfl, h1⟩ := hlost hd
    exact .inr ⟨⟨env, lost, rfl, h1⟩, x, s, hx, hst⟩
  | closeWill u env lost x s hx hst hcd hp s' g m hw =>
    have : droppedFor t d ([Event.dropped u fun d => if lost.contains d then (x.sinks.get d).toList
        else []] ++ willEvents u s s' m) ≠ [] := hd
    rw [droppedFor_append, hwl, List.append_nil] at this
    obtain ⟨rfl, h1⟩ := hlost this
    exact .inr ⟨⟨env, lost, rfl, h1⟩, x, s, hx, hst⟩
  | closeDelayed u env lost x s hx hst hcd hp =>
    obtain ⟨rfl, h1⟩ := hlost hd
    exact .inr ⟨⟨env, lost, rfl, h1⟩, x, s, hx, hst⟩
  | expire u env x s hx hst hidle time q hq hpr ht s' g m hw r route hrem =>
    rw [droppedFor_append, hwl] at hd
    exact absurd rfl hd
  | lateWill u env x s hx hst hidle time q hq hpr ht s' g m hw => exact absurd hwl hd
  | accept u env x old level hx hst hw s0 present h0 s out hs' =>
    cases present <;> simp [droppedFor] at hd
  | packet u env after size p x s hx hst hd' r hr => simp [droppedFor] at hd
  | _ => exact absurd rfl hd

/-- The publisher passes its copy on, the subscriber takes it. -/
def exWhole : List Act :=
  exThird ++ [exHello, .push 3 0, .flush 3 0, .push 3 1, .normal 0 {}]

example : ∃ w evs, Reaches {} exExt exWhole w evs ∧ w.hasSession 0 ∧ w.hasSession 1 ∧
    droppedFor 3 0 evs = [] ∧ droppedFor 3 1 evs = [] ∧
    (tookFrom 3 0 evs).length = 1 ∧ (queuedFor 3 0 evs).length = 1 ∧
    w.inboxFrom 3 0 = [] ∧ w.onTheWay 3 0 = [] ∧
    tookFrom 3 1 evs = [] ∧ (w.onTheWay 3 1).length = 1 :=
  ⟨_, _, rfl, ⟨0, _, rfl, rfl⟩, ⟨2, _, rfl, rfl⟩, rfl, rfl, rfl, rfl, rfl, rfl, rfl, rfl⟩

example : ∃ w evs m q, Reaches {} exExt exWhole w evs ∧ w.passesOn 3 ∧ w.onTheWay 3 1 = m :: [] ∧
    w.inbox.get 1 = some q ∧ q.length < 8 :=
  ⟨_, _, _, _, rfl, ⟨_, _, rfl, .inl rfl⟩, rfl, rfl, by decide⟩

example : ∃ w evs s m, Reaches {} exExt (exWhole.dropLast) w evs ∧ w.onlineSession 0 = some s ∧
    s.disconnected = false ∧ w.inbox.get s.clientId = some [(3, m)] :=
  ⟨_, _, _, _, rfl, rfl, rfl, rfl⟩

/-- The full claim: nothing queued for a client that has a session is lost. -/
def ConservedAlways (cfg : Config) (ext : Ext) : Prop :=
  ∀ acts w evs, Reaches cfg ext acts w evs → ∀ t d, w.hasSession d →
    tookFrom t d evs ++ w.inboxFrom t d ++ w.onTheWay t d = queuedFor t d evs

/-- The publisher's session is taken over by a new connection before its copies are passed on. -/
def exTaken : List Act :=
  exThird ++ [exHello, .connect { level := .v500, identifier := str "p", clean := true } {} true,
    .control 3 {}]

/-- **C56 is false of the code** if the publisher reconnects while copies of an acknowledged QoS 1
message are still in its hands: they are dropped although the receiver is there. -/
theorem C56_false : ¬ ConservedAlways {} exExt := by
  intro h
  have h1 : ∃ w evs, Reaches {} exExt exTaken w evs ∧ w.hasSession 0 ∧
      tookFrom 3 0 evs ++ w.inboxFrom 3 0 ++ w.onTheWay 3 0 = [] ∧
      (queuedFor 3 0 evs).length = 1 := ⟨_, _, rfl, ⟨0, _, rfl, rfl⟩, rfl, rfl⟩
  obtain ⟨w, evs, h2, h3, h4, h5⟩ := h1
  have := h exTaken w evs h2 3 0 h3
  rw [h4] at this
  rw [← this] at h5
  cases h5

example : ∃ w evs w' e, Reaches {} exExt (exTaken.dropLast) w evs ∧
    w.step {} exExt (.control 3 {}) = some (w', e) ∧ (droppedFor 3 0 e).length = 1 :=
  ⟨_, _, _, _, rfl, rfl, rfl⟩

end Akasa
