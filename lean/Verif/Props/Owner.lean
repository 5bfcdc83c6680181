import Verif.Proof.WorldWill
import Verif.Props.Incoming
/-!
# C38: who owns a session

The whole broker with any number of connections; the acts come in any order.
-/
namespace Akasa

variable {cfg : Config} {ext : Ext} {w w' : World} {evs e : List Event}

/-- A client with a session that is kept, and a will with a delay. -/
def exReq (level : Level) (clean : Bool) (expiry : Nat) (delay : Nat) : Request :=
  { level, identifier := str "c", clean
    params := { expiryInterval := expiry
                will := some { topic := str "w", payload := [7], qos := 1, retain := false
                               delay := some delay } } }

/-- The client connects and subscribes, and connects again on a second connection. -/
def exTwice (level : Level) : List Act :=
  [.connect (exReq level false 100 5) {} true,
   .packet 0 {} (Clock.const 0) 10 (.subscribe 1 [(str "a", { maxQos := 1 })] none),
   .connect (exReq level false 100 5) {} true]

theorem owned_stage {t : TaskId} {s : Session} (h : w.owned t = some s) :
    ∃ x, w.tasks.get t = some x ∧ x.stage.owner? = some s := by
  unfold World.owned at h
  split at h
  · cases h
  · rename_i x hx
    refine ⟨x, hx, ?_⟩
    cases hst : x.stage <;> rw [hst] at h <;> first | exact h | cases h

theorem owned_of {t : TaskId} {x : Task} (hx : w.tasks.get t = some x) :
    w.owned t = x.stage.owner? := by
  unfold World.owned
  rw [hx]
  simp only
  cases x.stage <;> rfl

/-- **C38, one owner.**  Whatever happened before: if two connections (or the tasks they left
behind) own sessions with the same client identifier they are the same. -/
theorem C38_one_owner {acts : List Act} (hrun : Reaches cfg ext acts w evs) {t t' : TaskId}
    {s s' : Session} (h : w.owned t = some s) (h' : w.owned t' = some s')
    (hid : s.identifier = s'.identifier) : t = t' := by
  have hi := (BrokerInv.run hrun).own
  obtain ⟨x, hx, hs⟩ := owned_stage h
  obtain ⟨x', hx', hs'⟩ := owned_stage h'
  have h1 := hi.session _ _ _ hx hs
  have h2 := hi.session _ _ _ hx' hs'
  have v := Tasks.views hx
  have v' := Tasks.views hx'
  have o : Tasks.owner w.tasks t = some s.clientId := by rw [v.2.1, hs]; rfl
  have o' : Tasks.owner w.tasks t' = some s'.clientId := by rw [v'.2.1, hs']; rfl
  have n := hi.named _ _ _ o v.2.2.2.1
  have n' := hi.named _ _ _ o' v'.2.2.2.1
  rw [← h1, hid, h2, n'] at n
  have hc : s'.clientId = s.clientId := Option.some.inj n
  have hst : ∀ {st : Stage} {s : Session}, st.owner? = some s → st.session? = some s := by
    intro st s h; cases st <;> first | exact h | cases h
  refine hi.uniq t t' s.clientId ?_ ?_
  · rw [v.1, hst hs]; rfl
  · rw [v'.1, hst hs', ← hc]; rfl

/-- Two clients, and a second connection of the first: three tasks, two own sessions. -/
example : ∃ w evs, Reaches {} exExt
    (exTwice .v500 ++ [.connect { level := .v311, identifier := str "d", clean := true } {} true]) w evs ∧
    (w.owned 0).map (·.identifier) = some (str "c") ∧ (w.owned 1).map (·.identifier) = none ∧
    (w.owned 2).map (·.identifier) = some (str "d") :=
  ⟨_, _, rfl, rfl, rfl, rfl⟩

/-- **C38, identifiers.**  The session a connection owns is the one of the client identifier of its
CONNECT. -/
theorem C38_identifier {acts : List Act} (hrun : Reaches cfg ext acts w evs) {t : TaskId}
    {s : Session} (h : w.owned t = some s) :
    ∃ req, w.request t = some req ∧ s.identifier = req.identifier := by
  obtain ⟨x, hx, hs⟩ := owned_stage h
  exact ⟨x.req, by unfold World.request; rw [hx]; rfl, (BrokerInv.run hrun).own.session _ _ _ hx hs⟩

example : ∃ w evs s, Reaches {} exExt (exTwice .v500) w evs ∧ w.owned 0 = some s ∧
    s.identifier = str "c" := ⟨_, _, _, rfl, rfl, rfl⟩

/-- **C38, stopped.**  A task that has stopped never does anything again. -/
theorem C38_stopped {acts : List Act} (hrun : Reaches cfg ext acts w evs) {t : TaskId}
    (h : w.stopped t) {a : Act} (hs : w.step cfg ext a = some (w', e)) :
    w'.stopped t ∧ ∀ ev ∈ e, ev.task ≠ t := by
  obtain ⟨x, hx, hst⟩ := h
  have hi := (BrokerInv.run hrun).own
  have key : ∀ {u : TaskId} {y : Task}, w.tasks.get u = some y → y.stage ≠ .gone → u ≠ t := by
    rintro u y hy hg rfl
    rw [hx] at hy
    cases hy
    exact hg hst
  have keep : ∀ {u : TaskId} {y : Task} (z : Task), w.tasks.get u = some y → y.stage ≠ .gone →
      ∀ m : Tasks, FMap.get m t = some x →
      ∃ x, FMap.get (FMap.insert m u z) t = some x ∧ x.stage = .gone := by
    intro u y z hy hg m hm
    exact ⟨x, by rw [FMap.get_insert, if_neg (key hy hg)]; exact hm, hst⟩
  have hnew : w.nextTask ≠ t := by
    intro e; rw [← e, (life_new hi).2] at hx; cases hx
  have keepNew : ∀ z : Task, ∃ x, (w.tasks.insert w.nextTask z).get t = some x ∧ x.stage = .gone :=
    fun z => ⟨x, by rw [FMap.get_insert, if_neg hnew]; exact hx, hst⟩
  have one : ∀ {u : TaskId} {evs : List Event}, u ≠ t → (∀ e ∈ evs, e.task = u) →
      ∀ e ∈ evs, e.task ≠ t := fun hu h e he ht => hu ((h e he).symm.trans ht)
  have hsend : ∀ {st : Stage} {s : Session}, st.sending? = some s → st ≠ .gone := by
    rintro st s h rfl; cases h
  have hwill : ∀ (u : TaskId) (s s' : Session) (m : Option SendPub),
      ∀ e ∈ willEvents u s s' m, e.task = u := by
    intro u s s' m e he
    cases m with
    | none => cases he
    | some m =>
      simp only [willEvents, List.mem_cons, List.not_mem_nil, or_false] at he
      rcases he with rfl | rfl <;> rfl
  cases step_cases hs with
  | idle => exact ⟨⟨x, hx, hst⟩, fun _ h => by cases h⟩
  | fresh req env r id hadd hw s out hs =>
    exact ⟨keepNew _, one hnew (by simp [Event.task])⟩
  | stillborn req env wr r id hadd => exact ⟨keepNew _, by simp⟩
  | wait req env wr r id q hadd hq => exact ⟨keepNew _, by simp⟩
  | locked req env wr r id hadd hq => exact ⟨keepNew _, by simp⟩
  | accept u env y old level hy hst' hw s0 present h0 s out hs =>
    have hg : y.stage ≠ .gone := by rw [hst']; simp
    exact ⟨keep _ hy hg _ hx, one (key hy hg) (by cases present <;> simp [Event.task])⟩
  | refused u env wr y old level hy hst' =>
    have hg : y.stage ≠ .gone := by rw [hst']; simp
    exact ⟨keep _ hy hg _ hx, one (key hy hg) (by simp [Event.task])⟩
  | packet u env after size p y s hy hst' hd r hr =>
    have hg : y.stage ≠ .gone := by rw [hst']; simp
    exact ⟨keep _ hy hg _ hx, one (key hy hg) (by simp [Event.task])⟩
  | normalOn u env y s hy hst' hd src m rest hi =>
    have hg : y.stage ≠ .gone := by rw [hst']; simp
    exact ⟨keep _ hy hg _ hx, one (key hy hg) (by simp [Event.task])⟩
  | normalOff u env y s hy hst' hd src m rest hi =>
    have hg : y.stage ≠ .gone := by rw [hst']; simp
    exact ⟨keep _ hy hg _ hx, one (key hy hg) (by simp [Event.task])⟩
  | handOn u env y s hy hst' b z q hq hz =>
    have hg : y.stage ≠ .gone := by rw [hst']; simp
    have hgz : z.stage ≠ .gone := by rw [(hi.requester hq hz).1]; simp
    refine ⟨keep _ hz hgz _ ?_, one (key hy hg) (by simp [Event.task])⟩
    rw [FMap.get_insert, if_neg (key hy hg)]; exact hx
  | handOff u env y s hy hst' hd b z q hq hz msgs inbox hm =>
    have hg : y.stage ≠ .gone := by rw [hst']; simp
    have hgz : z.stage ≠ .gone := by rw [(hi.requester hq hz).1]; simp
    refine ⟨keep _ hz hgz _ ?_, one (key hy hg) ?_⟩
    · rw [FMap.get_insert, if_neg (key hy hg)]; exact hx
    · intro e he
      rcases List.mem_append.1 he with he | he
      · obtain ⟨_, _, rfl⟩ := List.mem_map.1 he; rfl
      · rw [List.mem_singleton] at he; subst he; rfl
  | deny u env y s hy hst' pr b z q hq hpr hz =>
    have hgz : z.stage ≠ .gone := by rw [(hi.requester hq hz).1]; simp
    exact ⟨keep _ hz hgz _ hx, by simp⟩
  | ignored u env y s hy hst' c q hq hc => exact ⟨⟨x, hx, hst⟩, by simp⟩
  | kicked u env y s hy hst' q hq =>
    have hg : y.stage ≠ .gone := by rw [hst']; simp
    exact ⟨keep _ hy hg _ hx, by simp⟩
  | expire u env y s hy hst' hd time q hq hpr ht s' g m hw r route hrem =>
    have hg : y.stage ≠ .gone := by rw [hst']; simp
    refine ⟨keep _ hy hg _ hx, one (key hy hg) fun e he => ?_⟩
    rcases List.mem_append.1 he with he | he
    · exact hwill _ _ _ _ e he
    · rw [List.mem_singleton] at he; subst he; rfl
  | lateWill u env y s hy hst' hd time q hq hpr ht s' g m hw =>
    have hg : y.stage ≠ .gone := by rw [hst']; simp
    exact ⟨keep _ hy hg _ hx, one (key hy hg) (hwill _ _ _ _)⟩
  | lose u y s hy hst' =>
    have hg : y.stage ≠ .gone := by rw [hst']; simp
    exact ⟨keep _ hy hg _ hx, by simp⟩
  | closeQuiet u env lost y s hy hst' hd =>
    have hg : y.stage ≠ .gone := by rw [hst']; simp
    exact ⟨keep _ hy hg _ hx, one (key hy hg) (by simp [Event.task])⟩
  | closeWill u env lost y s hy hst' hd hp s' g m hw =>
    have hg : y.stage ≠ .gone := by rw [hst']; simp
    refine ⟨keep _ hy hg _ hx, one (key hy hg) fun e he => ?_⟩
    rcases List.mem_cons.1 he with rfl | he
    · rfl
    · exact hwill _ _ _ _ e he
  | closeDelayed u env lost y s hy hst' hd hp =>
    have hg : y.stage ≠ .gone := by rw [hst']; simp
    exact ⟨keep _ hy hg _ hx, one (key hy hg) (by simp [Event.task])⟩
  | push u d y s hy hst' m rest hq hk => exact ⟨keep _ hy (hsend hst') _ hx, by simp⟩
  | flush u d y hy m q hk hi hl =>
    by_cases hu : u = t
    · subst hu
      rw [hx] at hy; cases hy
      exact ⟨⟨_, FMap.get_insert_self _ _ _, hst⟩, by simp⟩
    · exact ⟨⟨x, by simp only; rw [FMap.get_insert, if_neg hu]; exact hx, hst⟩, by simp⟩
  | giveUp u d y s hy hst' hi => exact ⟨keep _ hy (hsend hst') _ hx, by simp⟩
  | remove u y s hy hst' hd r route hrem =>
    have hg : y.stage ≠ .gone := by
      rcases hst' with ⟨h, _⟩ | h <;> rw [h] <;> simp
    exact ⟨keep _ hy hg _ hx, one (key hy hg) (by simp [Event.task])⟩
  | rest u y s hy hst' hd he r hr timers htm =>
    have hg : y.stage ≠ .gone := by rw [hst']; simp
    exact ⟨keep _ hy hg _ hx, by simp⟩
  | fire i tm ht _ hw =>
    rcases hw with ⟨rfl, _⟩ | ⟨q, _, _, rfl⟩ <;> exact ⟨⟨x, hx, hst⟩, by simp⟩
  | kick id q hr hq => exact ⟨⟨x, hx, hst⟩, by simp⟩

/-- The first connection has handed its session over and stopped. -/
example : ∃ w evs, Reaches {} exExt (exTwice .v500 ++ [.control 0 {}]) w evs ∧ w.stopped 0 :=
  ⟨_, _, rfl, _, rfl, rfl⟩

theorem owned_insert {t u : TaskId} {x : Task} {m : Tasks} (ht : w'.tasks = FMap.insert m t x)
    (hm : m = w.tasks) : w'.owned u = if t = u then x.stage.owner? else w.owned u := by
  subst hm
  by_cases h : t = u
  · subst h
    rw [if_pos rfl, owned_of (x := x) (by rw [ht, FMap.get_insert_self])]
  · rw [if_neg h]
    unfold World.owned
    rw [ht, FMap.get_insert, if_neg h]

theorem owner_sending {st : Stage} {s s' : Session} (h : st.sending? = some s) :
    st.owner? = none → (st.setSession s').owner? = none := by
  cases st <;> simp [Stage.sending?, Stage.setSession, Stage.owner?] at h ⊢

/-- **C38, handing over.**  When a connection obtains a session, then either nobody owned a session
of that client identifier before, or the previous owner has stopped with the same step and its
state is what the new one gets: all of it if it was online; if it was offline the subscriptions and
the QoS 2 identifiers are the same and at most messages from the inbox were added. -/
theorem C38_handover {acts : List Act} (hrun : Reaches cfg ext acts w evs) {a : Act}
    (hs : w.step cfg ext a = some (w', e)) {t : TaskId} {s' : Session}
    (h : w'.owned t = some s') (h0 : w.owned t = none) :
    (∀ u s, w.owned u = some s → s.identifier ≠ s'.identifier) ∨
    ∃ u s, w.owned u = some s ∧ s.identifier = s'.identifier ∧ w'.stopped u ∧
      (w.onlineSession u = some s → s' = s) ∧
      s'.subscribes = s.subscribes ∧ s'.qos2 = s.qos2 ∧ s'.clientId = s.clientId := by
  have hi := (BrokerInv.run hrun).own
  -- a step of one task that does not obtain a session
  have one : ∀ {u : TaskId} {x x' : Task}, w.tasks.get u = some x →
      w'.tasks = w.tasks.insert u x' → (x.stage.owner? = none → x'.stage.owner? = none) → False := by
    intro u x x' hx ht hk
    rw [owned_insert (w := w) ht rfl] at h
    split at h
    · rename_i hu
      subst hu
      rw [owned_of hx] at h0
      rw [hk h0] at h
      cases h
    · rw [h0] at h; cases h
  have new : ∀ {x' : Task}, w'.tasks = w.tasks.insert w.nextTask x' → x'.stage.owner? = none →
      False := by
    intro x' ht hk
    rw [owned_insert (w := w) ht rfl] at h
    split at h
    · rw [hk] at h; cases h
    · rw [h0] at h; cases h
  have zero : w'.tasks = w.tasks → False := by
    intro ht
    unfold World.owned at h h0
    rw [ht, h0] at h
    cases h
  cases step_cases hs with
  | idle => exact (zero rfl).elim
  | fresh req env r id hadd hw s1 out hs1 =>
    left
    rw [owned_insert (w := w) rfl rfl] at h
    split at h
    · cases h
      intro u s0 hu hid
      obtain ⟨x, hx, hso⟩ := owned_stage hu
      have v := Tasks.views hx
      have h1 := hi.session _ _ _ hx hso
      have h2 := hi.named u s0.clientId _ (by rw [v.2.1, hso]; rfl) v.2.2.2.1
      have h3 := (sameId_pendings hs1).name.trans (start_ids ..).2
      rw [← h1, hid, h3] at h2
      cases hi.reg.add_cases hadd with
      | new hn => rw [hn] at h2; cases h2
    · rw [h0] at h; cases h
  | stillborn req env wr r id hadd => exact (new rfl rfl).elim
  | wait req env wr r id q hadd hq => exact (new rfl rfl).elim
  | locked req env wr r id hadd hq => exact (new rfl rfl).elim
  | accept u env y old level hy hst hw s0 present h1 s out hs =>
    exact (one hy rfl (by rw [hst]; intro h; cases h)).elim
  | refused u env wr y old level hy hst => exact (one hy rfl fun _ => rfl).elim
  | packet u env after size p y s hy hst hd r hr =>
    exact (one hy rfl (by rw [hst]; intro h; cases h)).elim
  | normalOn u env y s hy hst hd src m rest hi =>
    exact (one hy rfl (by rw [hst]; intro h; cases h)).elim
  | normalOff u env y s hy hst hd src m rest hi =>
    exact (one hy rfl (by rw [hst]; intro h; cases h)).elim
  | handOn u env y s hy hst b z q hq hz =>
    have hzw := (hi.requester hq hz).1
    have hne : u ≠ b := by
      rintro rfl; rw [hy] at hz; cases hz; rw [hst] at hzw; cases hzw
    have hb := owned_insert (w := { w with tasks := w.tasks.insert u { y with stage := .gone, sinks := [] } })
      (w' := { w with
          control := w.control.insert s.clientId q
          tasks := (w.tasks.insert u { y with stage := .gone, sinks := [] }).insert b
            { z with stage := .granted s y.req.level } }) (u := t) rfl rfl
    rw [hb] at h
    split at h
    · simp only [Stage.owner?, Option.some.injEq] at h
      subst h
      right
      refine ⟨u, s, by rw [owned_of hy, hst]; rfl, rfl, ⟨{ y with stage := .gone, sinks := [] }, ?_, rfl⟩, fun _ => rfl, rfl, rfl, rfl⟩
      rw [FMap.get_insert, if_neg hne.symm, FMap.get_insert_self]
    · exfalso
      rw [owned_insert (w := w) rfl rfl] at h
      split at h
      · cases h
      · rw [h0] at h; cases h
  | handOff u env y s hy hst hd b z q hq hz msgs inbox hm =>
    have hzw := (hi.requester hq hz).1
    have hne : u ≠ b := by
      rintro rfl; rw [hy] at hz; cases hz; rw [hst] at hzw; cases hzw
    have hb := owned_insert (w := { w with tasks := w.tasks.insert u { y with stage := .gone, sinks := [] } })
      (w' := { w with
          control := w.control.insert s.clientId q
          tasks := (w.tasks.insert u { y with stage := .gone, sinks := [] }).insert b
            { z with stage := .granted (drainInbox cfg y.req.level.proto env s msgs) y.req.level }
          inbox }) (u := t) rfl rfl
    rw [hb] at h
    split at h
    · simp only [Stage.owner?, Option.some.injEq] at h
      subst h
      right
      have hc := core_drain (cfg := cfg) (pr := y.req.level.proto) (env := env) s msgs
      refine ⟨u, s, by rw [owned_of hy, hst]; rfl, (SameEnd.of_core hc).name.symm,
        ⟨{ y with stage := .gone, sinks := [] }, ?_, rfl⟩, ?_,
        (core_subs hc :), ?_, (SameEnd.of_core hc).client⟩
      · rw [FMap.get_insert, if_neg hne.symm, FMap.get_insert_self]
      · intro ho; unfold World.onlineSession at ho; rw [hy] at ho; simp [hst] at ho
      · exact congrArg (fun s => s.qos2) hc
    · exfalso
      rw [owned_insert (w := w) rfl rfl] at h
      split at h
      · cases h
      · rw [h0] at h; cases h
  | deny u env y s hy hst pr b z q hq hpr hz => exact (one hz rfl fun _ => rfl).elim
  | ignored u env y s hy hst c q hq hc => exact (zero rfl).elim
  | kicked u env y s hy hst q hq => exact (one hy rfl (by rw [hst]; intro h; cases h)).elim
  | expire u env y s hy hst hd time q hq hpr ht s' g m hw r route hrem =>
    exact (one hy rfl fun _ => rfl).elim
  | lateWill u env y s hy hst hd time q hq hpr ht s' g m hw =>
    exact (one hy rfl (by rw [hst]; intro h; cases h)).elim
  | lose u y s hy hst => exact (one hy rfl (by rw [hst]; intro h; cases h)).elim
  | closeQuiet u env lost y s hy hst hd =>
    exact (one hy rfl (by rw [hst]; intro h; cases h)).elim
  | closeWill u env lost y s hy hst hd hp s' g m hw =>
    exact (one hy rfl (by rw [hst]; intro h; cases h)).elim
  | closeDelayed u env lost y s hy hst hd hp =>
    exact (one hy rfl (by rw [hst]; intro h; cases h)).elim
  | push u d y s hy hst m rest hq hk => exact (one hy rfl (owner_sending hst)).elim
  | flush u d y hy m q hk hi hl => exact (one hy rfl id).elim
  | giveUp u d y s hy hst hi => exact (one hy rfl (owner_sending hst)).elim
  | remove u y s hy hst hd r route hrem => exact (one hy rfl fun _ => rfl).elim
  | rest u y s hy hst hd he r hr timers htm =>
    exact (one hy rfl (by rw [hst]; intro h; cases h)).elim
  | fire i tm ht _ hw => rcases hw with ⟨rfl, _⟩ | ⟨q, _, _, rfl⟩ <;> exact (zero rfl).elim
  | kick id q hr hq => exact (zero rfl).elim

/-- The second connection obtains the session with its subscription; the first stops. -/
example : ∃ w evs w' e s s', Reaches {} exExt (exTwice .v500) w evs ∧
    w.step {} exExt (.control 0 {}) = some (w', e) ∧ w.owned 1 = none ∧ w'.owned 1 = some s' ∧
    w.owned 0 = some s ∧ w'.stopped 0 ∧ s'.subscribes.keys = [str "a"] ∧ s' = s :=
  ⟨_, _, _, _, _, _, rfl, rfl, rfl, rfl, rfl, ⟨_, rfl, rfl⟩, rfl, rfl⟩

end Akasa
