import Verif.Proof.Resume
import Verif.Props.Life
/-!
# C39: resumption of sessions

In every reachable state of the whole broker.  What the session of a client identifier is before it
is taken up again is C38 (handing over) and C68.
-/
namespace Akasa

variable {cfg : Config} {ext : Ext} {w w' : World} {evs e : List Event}

/-- How a connection can be accepted. -/
inductive AcceptCase (cfg : Config) (w w' : World) (e : List Event) (t : TaskId) (a : Act) :
    Bool → Prop
  | fresh (req : Request) (env : Env) (wr : Bool) (id : ClientId) (s : Session)
      (ha : a = .connect req env wr) (hn : w.tasks.get t = none)
      (hs : s = Session.start cfg req.level.proto req.identifier id req.params)
      (ht : w'.tasks.get t = some { req, stage := .online s, connectedAt := some w.clock })
      (hm : w'.tasks = w.tasks.insert t { req, stage := .online s, connectedAt := some w.clock })
      (he : e = [.accepted t false, .sent t []]) : AcceptCase cfg w w' e t a false
  | next (env : Env) (x : Task) (old s0 s : Session) (level : Level) (p : Bool) (out : List OutPkt)
      (ha : a = .accept t env true) (hx : w.tasks.get t = some x)
      (hst : x.stage = .granted old level) (h0 : x.req.session cfg old level = (s0, p))
      (hs : handlePendingsOf x.req.level.proto (env.clk 0) s0 = (s, out))
      (ht : w'.tasks.get t =
        some { req := x.req, stage := .online s, connectedAt := some w.clock })
      (he : e = (if p then [] else [.discarded t old]) ++ [.accepted t p, .sent t out]) :
      AcceptCase cfg w w' e t a p

theorem accept_cases (hi : OInv w) {a : Act} (hc : WCase cfg ext w a w' e) {t : TaskId} {p : Bool}
    (hacc : .accepted t p ∈ e) : AcceptCase cfg w w' e t a p := by
  have hnew : w.tasks.get w.nextTask = none := by
    cases hn : w.tasks.get w.nextTask with
    | none => rfl
    | some x =>
      exact absurd (hi.fresh w.nextTask (by simp [Tasks.name, hn])) (Nat.lt_irrefl _)
  cases hc with
  | fresh req env r id hadd hw s out hs =>
    rw [pendings_start] at hs
    cases hs
    simp at hacc
    obtain ⟨rfl, rfl⟩ := hacc
    exact .fresh req env true id _ rfl hnew rfl (by simp [FMap.get_insert]) rfl rfl
  | accept t' env x old level hx hst hw s0 present h0 s out hs =>
    have : t = t' ∧ p = present := by cases present <;> simpa using hacc
    obtain ⟨rfl, rfl⟩ := this
    exact .next env x old s0 s level p out rfl hx hst h0 hs (by simp [FMap.get_insert]) rfl
  | expire t env x s hx hst hd time q hq' hpr ht s' g m hw r route hrem =>
    rw [List.mem_append] at hacc
    exact hacc.elim (fun hh => absurd hh (will_noneAccepted _ _)) (fun hh => by simp at hh)
  | lateWill t env x s hx hst hd time q hq' hpr ht s' g m hw =>
    exact absurd hacc (will_noneAccepted _ _)
  | closeWill t env lost x s hx hst hd hp s' g m hw =>
    rw [List.mem_cons] at hacc
    exact hacc.elim (fun hh => by cases hh) (fun hh => absurd hh (will_noneAccepted _ _))
  | _ => simp at hacc

/-- **C39, session present.**  A connection is accepted with "session present" if and only if the
client did not ask for a clean session, there is a session of its client identifier, and the last
connection accepted with that identifier used the same protocol version. -/
theorem C39_present {acts : List Act} (hrun : Reaches cfg ext acts w evs) {a : Act}
    (hs : w.step cfg ext a = some (w', e)) {t : TaskId} {p : Bool} (hacc : .accepted t p ∈ e)
    {req : Request} (hreq : w'.request t = some req) :
    p = true ↔ req.clean = false ∧ w.hasNamed req.identifier ∧
      ∃ u r, lastConn w req.identifier evs = some u ∧ w.request u = some r ∧
        r.level = req.level := by
  have hb := BrokerInv.run hrun
  have hb' := (hb.step hs).own
  cases accept_cases hb.own (step_cases hs) hacc with
  | fresh req' env wr id s ha hn hss ht hm he =>
    unfold World.request at hreq
    rw [ht] at hreq
    cases hreq
    refine ⟨(fun h => by cases h), fun h => ?_⟩
    obtain ⟨_, ⟨v, r, hv, hr⟩, _⟩ := h
    obtain ⟨y, hy, hyo⟩ := owned_stage hv
    have hne : v ≠ t := by
      rintro rfl
      rw [hn] at hy
      cases hy
    have hy' : w'.tasks.get v = some y := by
      rw [hm, FMap.get_insert, if_neg (fun hh => hne hh.symm)]
      exact hy
    refine absurd ?_ (hb'.apart hy' hyo ht rfl hne)
    rw [← hb.own.session v y r hy hyo, hr]
  | next env x old s0 s level p out ha hx hst h0 hs' ht he =>
    unfold World.request at hreq
    rw [ht] at hreq
    cases hreq
    obtain ⟨u, y, h1, h2, h3⟩ := LastInv.run hrun t x old hx (by rw [hst]; rfl)
    rw [hst] at h3
    obtain ⟨h3, _⟩ : y.req.level = level ∧ _ := h3
    have hp : p = (!x.req.clean && decide (x.req.level = level)) := by
      unfold Request.session at h0
      split at h0
      · rename_i hh; cases h0; exact hh.symm
      · rename_i hh; cases h0; simpa using hh
    constructor
    · intro hpt
      rw [hp, Bool.and_eq_true, Bool.not_eq_true', decide_eq_true_eq] at hpt
      refine ⟨hpt.1, ⟨t, old, by rw [owned_of hx, hst]; rfl,
        hb.own.session t x old hx (by rw [hst]; rfl)⟩, u, y.req, h1,
        by unfold World.request; rw [h2]; rfl, by rw [h3, hpt.2]⟩
    · rintro ⟨hc, _, v, r, hv, hr, hl⟩
      rw [h1] at hv
      cases hv
      unfold World.request at hr
      rw [h2] at hr
      cases hr
      have hl' : x.req.level = level := by rw [← h3]; exact hl.symm
      have hc' : x.req.clean = false := hc
      rw [hp, hc']
      simp [hl']

/-- **C39, resumed.**  If a connection is accepted with "session present", the session is the one its
client identifier had: the same subscriptions, the same unreleased QoS 2 identifiers, the same
packet identifier counter, and the same queued messages with their packet identifiers and in order.
Of the latter only messages that have passed their expiry interval can be missing. -/
theorem C39_resumed {acts : List Act} (hrun : Reaches cfg ext acts w evs) {a : Act}
    (hs : w.step cfg ext a = some (w', e)) {t : TaskId} (hacc : .accepted t true ∈ e) :
    ∃ env req old s', a = .accept t env true ∧ w.request t = some req ∧ w.owned t = some old ∧
      old.identifier = req.identifier ∧ w'.onlineSession t = some s' ∧
      s'.identifier = old.identifier ∧ s'.clientId = old.clientId ∧
      s'.subscribes = old.subscribes ∧ s'.qos2 = old.qos2 ∧
      s'.sender.nextPid = old.sender.nextPid ∧
      s'.sender.pending.waiting.Sublist old.sender.pending.waiting ∧
      (old.noneExpired req.level.proto (env.clk 0) →
        s'.sender.pending.waiting = old.sender.pending.waiting) := by
  have hb := BrokerInv.run hrun
  cases accept_cases hb.own (step_cases hs) hacc with
  | next env x old s0 s level p out ha hx hst h0 hs' ht he =>
    have h0' : s0 = old.resume cfg x.req.level.proto x.req.params := by
      unfold Request.session at h0
      split at h0 <;> cases h0
      rfl
    subst h0'
    refine ⟨env, x.req, old, s, ha, by unfold World.request; rw [hx]; rfl,
      by rw [owned_of hx, hst]; rfl, hb.own.session t x old hx (by rw [hst]; rfl), ?_, ?_⟩
    · unfold World.onlineSession
      rw [ht]
    · have hpend : (old.resume cfg x.req.level.proto x.req.params).sender.pending.waiting =
          old.sender.pending.waiting := by
        rw [← reset_wait old.sender.pending]
        cases x.req.level.proto <;> rfl
      have hcore := core_pendings x.req.level.proto (env.clk 0)
        (old.resume cfg x.req.level.proto x.req.params)
      have hq : s.sender.pending = ((old.resume cfg x.req.level.proto
            x.req.params).sender.pending.handlePendings (expiryOf x.req.level.proto) (env.clk 0)).1 ∧
          s.sender.nextPid = old.sender.nextPid := by
        cases hpr : x.req.level.proto <;> rw [hpr] at hs' <;>
          simp only [handlePendingsOf, handlePendingsV3, handlePendingsV5] at hs' <;>
          cases hs' <;> exact ⟨rfl, rfl⟩
      rw [hs'] at hcore
      have hsame := SameEnd.of_core hcore
      have hc2 : s.subscribes = old.subscribes ∧ s.qos2 = old.qos2 := by
        cases hpr : x.req.level.proto <;> rw [hpr] at hs' <;>
          simp only [handlePendingsOf, handlePendingsV3, handlePendingsV5] at hs' <;>
          cases hs' <;> exact ⟨rfl, rfl⟩
      refine ⟨?_, ?_, hc2.1, hc2.2, hq.2, ?_, fun hex => ?_⟩
      · refine hsame.1.name.trans ?_
        cases x.req.level.proto <;> rfl
      · refine hsame.1.client.trans ?_
        cases x.req.level.proto <;> rfl
      · rw [hq.1, ← hpend]
        exact handlePendings_wait_sublist ..
      · rw [hq.1, ← hpend]
        refine handlePendings_wait _ _ _ fun a l pid q d hm v hv k => ?_
        have hm' : PStatus.new a l pid q d ∈ old.sender.pending.packets.map PStatus.reset := by
          cases hpr : x.req.level.proto <;> rw [hpr] at hm <;> exact hm
        rw [List.mem_map] at hm'
        obtain ⟨e0, he0, hr0⟩ := hm'
        cases e0 with
        | new a' l' pid' q' d' =>
          simp only [PStatus.reset, PStatus.new.injEq] at hr0
          obtain ⟨rfl, _, rfl, rfl, rfl⟩ := hr0
          exact hex _ _ _ _ _ he0 v hv k
        | pubrec => cases hr0
        | complete => cases hr0

/-- Messages have no expiry interval in MQTT 3. -/
theorem C39_noneExpired_v3 (s : Session) (clk : Clock) : s.noneExpired .v3 clk :=
  fun _ _ _ _ _ _ _ h => by cases h

/-- **C39, new.**  If a connection is accepted without "session present", its session is empty:
nothing of a session that was there before can be seen, and nothing but CONNACK is sent. -/
theorem C39_new {acts : List Act} (hrun : Reaches cfg ext acts w evs) {a : Act}
    (hs : w.step cfg ext a = some (w', e)) {t : TaskId} (hacc : .accepted t false ∈ e) :
    (∃ s', w'.onlineSession t = some s' ∧ s'.subscribes = [] ∧ s'.qos2 = [] ∧
      s'.sender.pending.packets = [] ∧ s'.sender.nextPid = Pid.first) ∧
    ∀ out, .sent t out ∈ e → out = [] := by
  have hb := BrokerInv.run hrun
  have hfresh : ∀ pr i id c, (Session.start cfg pr i id c).subscribes = [] ∧
      (Session.start cfg pr i id c).qos2 = [] ∧
      (Session.start cfg pr i id c).sender.pending.packets = [] ∧
      (Session.start cfg pr i id c).sender.nextPid = Pid.first := by
    intro pr i id c
    cases pr <;> exact ⟨rfl, rfl, rfl, rfl⟩
  cases accept_cases hb.own (step_cases hs) hacc with
  | fresh req' env wr id s ha hn hss ht hm he =>
    refine ⟨⟨s, by unfold World.onlineSession; rw [ht], ?_⟩, fun out ho => ?_⟩
    · subst hss; exact hfresh ..
    · rw [he] at ho; simpa using ho
  | next env x old s0 s level p out ha hx hst h0 hs' ht he =>
    have h0' : s0 = Session.start cfg x.req.level.proto x.req.identifier old.clientId
        x.req.params := by
      unfold Request.session at h0
      split at h0 <;> cases h0
      rfl
    subst h0'
    rw [pendings_start] at hs'
    cases hs'
    refine ⟨⟨_, by unfold World.onlineSession; rw [ht], hfresh ..⟩, fun out ho => ?_⟩
    rw [he] at ho
    simpa using ho

/-- A client subscribes, its connection is lost, a message comes, it reconnects. -/
def exBack (clean : Bool) : List Act :=
  [.connect (exReq .v311 false 100 5) {} true,
   .packet 0 {} (Clock.const 0) 10 (.subscribe 1 [(str "a", { maxQos := 1 })] none),
   .connect { level := .v500, identifier := str "d", clean := true } {} true,
   .lose 0, .close 0 {} [], .finish 0,
   .packet 1 {} (Clock.const 0) 10 (.publish
    { dup := false, retain := false, qosPid := .level2 7, topic := str "a", payload := [1] }),
   .push 1 0, .flush 1 0, .normal 0 {},
   .connect (exReq .v311 clean 100 5) {} true, .control 0 {}]

/-- The session comes back with the subscription and the message. -/
example : ∃ w evs w' e req s', Reaches {} exExt (exBack false) w evs ∧
    w.step {} exExt (.accept 2 { clk := fun _ => Clock.const 100 } true) = some (w', e) ∧
    .accepted 2 true ∈ e ∧ w'.request 2 = some req ∧ req.clean = false ∧
    w.hasNamed req.identifier ∧ lastConn w req.identifier evs = some 0 ∧
    w'.onlineSession 2 = some s' ∧ s'.subscribes.keys = [str "a"] ∧
    s'.sender.pending.waiting.length = 1 :=
  ⟨_, _, _, _, _, _, rfl, rfl, List.mem_cons_self .., rfl, rfl, ⟨2, _, rfl, rfl⟩, rfl, rfl, rfl,
    by decide +kernel⟩

/-- With a clean session nothing is left. -/
example : ∃ w evs w' e, Reaches {} exExt (exBack true) w evs ∧
    w.step {} exExt (.accept 2 { clk := fun _ => Clock.const 100 } true) = some (w', e) ∧
    .accepted 2 false ∈ e ∧ w.hasNamed (str "c") :=
  ⟨_, _, _, _, rfl, rfl, .tail _ (List.mem_cons_self ..), ⟨2, _, rfl, by decide +kernel⟩⟩

end Akasa
