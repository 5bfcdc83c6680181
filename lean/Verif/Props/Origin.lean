import Verif.Proof.Origin
import Verif.Props.Connect
import Verif.Props.Life
import Verif.Props.Session
/-!
# C75: the broker invents nothing

Every application message that the broker sends to a client was published by a client before, and it
is that message: the same topic, payload and properties, with no higher QoS.
-/
namespace Akasa

variable {cfg : Config} {ext : Ext} {w : World} {evs : List Event}
variable {c : ServerConfig} {x : ConnExt} {f : Front} {fevs : List FrontEvent}

/-- **C75, between sessions.**  Every message that one session queues for another is a copy of a
message that was published on its own connection. -/
theorem C75_copies {acts : List Act} (hrun : Reaches cfg ext acts w evs) {t : TaskId} {d : ClientId}
    {m : NormalMsg} (hm : m ∈ queuedFor t d evs) :
    ∃ req p, w.request t = some req ∧ (t, p) ∈ published evs ∧ IsCopyFrom req.level.proto p m :=
  queued_run hrun hm

/-- **C75, sent.**  Every PUBLISH that is sent on any connection carries a message that was published
before on some connection: the same payload and properties, with no higher QoS and RETAIN only if
it was set; and the same topic, unless the topic is left out for a topic alias. -/
theorem C75_sent {acts : List Act} (hrun : Reaches cfg ext acts w evs) {t : TaskId} {req : Request}
    (hreq : w.request t = some req) {A B : List Event} {out : List OutPkt}
    (hev : evs = A ++ .sent t out :: B) {p : Publish} (hp : .publish p ∈ out) :
    ∃ u m from', (u, m) ∈ published A ∧ w.request u = some from' ∧ p.payload = m.payload ∧
      p.qosPid.qos ≤ m.qos ∧ (p.retain = true → m.retain = true) ∧
      SamePropsAs from'.level.proto req.level.proto p.props m.props ∧
      (p.topic = m.topic ∨
        req.level.proto = .v5 ∧ p.topic = [] ∧ p.props.topicAlias ≠ none) := by
  obtain ⟨acts1, a, acts2, w1, w2, evs1, e, y, s, A2, rfl, h1, h2, rfl, hy, hs, -,
    L, M, hlm, -, hl⟩ :=
    life_at hrun hev rfl
  obtain ⟨_, hreq2⟩ := run_prefix h2 (acts2 := acts2) (by rw [List.append_assoc]; exact hrun)
  have hyr : w2.request t = some y.req := by
    unfold World.request
    rw [show w2.tasks.get t = some y from hy]; rfl
  have := hreq2 t _ hyr
  rw [hreq] at this
  cases this
  obtain ⟨q, i, id, cp, sevs, recs, h3, h4, _, h5⟩ := (origin_before h1 h2).lifeOf hy hs
  have hm := hl (.sent (.publish p)) (by
    unfold Event.obs
    rw [under_self hy]
    exact List.mem_map.2 ⟨_, hp, rfl⟩)
  replace hm : Obs.sent (.publish p) ∈ L ++ M := List.mem_append.2 (.inr hm)
  rw [← hlm, h4] at hm
  obtain ⟨r, hr, ho⟩ := (mem_obs hm).2 _ rfl
  obtain ⟨u, m, from', k1, k2, k3⟩ := sent_from h3 h5.1 hr ho
  exact ⟨u, m, from', by rw [published_append]; exact List.mem_append.2 (.inl k1), hreq2 _ _ k2, k3⟩

/-- **C75, MQTT 3.**  Every PUBLISH that is sent to an MQTT 3 client carries a message that was
published before. -/
theorem C75_v3 {acts : List Act} (hrun : Reaches cfg ext acts w evs) {t : TaskId} {req : Request}
    (hreq : w.request t = some req) (hv : req.level.proto = .v3) {A B : List Event}
    {out : List OutPkt} (hev : evs = A ++ .sent t out :: B) {p : Publish} (hp : .publish p ∈ out) :
    ∃ u m from', (u, m) ∈ published A ∧ w.request u = some from' ∧
      p.carriesMessage from'.level.proto .v3 m := by
  obtain ⟨u, m, from', h1, h2, h3, h4, h5, h6, h7⟩ := C75_sent hrun hreq hev hp
  rw [hv] at h6 h7
  refine ⟨u, m, from', h1, h2, ?_, h3, h4, h5, h6⟩
  rcases h7 with h | h
  · exact h
  · cases h.1

/-- A message of an MQTT 5 client is sent to an MQTT 3 client. -/
example : ∃ w evs s req A B out p, Reaches {} exExt exOld w evs ∧ w.owned 0 = some s ∧
    w.request 0 = some req ∧ req.level.proto = .v3 ∧ evs = A ++ .sent 0 out :: B ∧
    .publish p ∈ out ∧ p.payload = [1] ∧ (queuedFor 1 s.clientId evs).length = 1 ∧
    (published A).map (fun e => (e.1, e.2.payload)) = [(1, [1])] := by
  refine ⟨_, _, _, _, _, [], _, _, rfl, rfl, rfl, rfl, List.dropLast_concat_getLast (by simp) |>.symm,
    List.mem_singleton.2 rfl, rfl, rfl, rfl⟩

/-- **C75, MQTT 5.**  If the wills have topics: an MQTT 5 client understands every PUBLISH that was
sent to it in the life of its session, whatever topic aliases the broker used; and each one, as the
client understands it, carries a message that was published before. -/
theorem C75_v5 {acts : List Act} (hrun : Reaches cfg ext acts w evs) (hw : w.willsNamed)
    {t : TaskId} {s : Session} {req : Request} (ho : w.owned t = some s)
    (hreq : w.request t = some req) (hv : req.level.proto = .v5) :
    ∃ out, clientReads (lifeOf w req.identifier evs) = some out ∧
      ∀ p, .publish p ∈ out → ∃ u m from', (u, m) ∈ published evs ∧ w.request u = some from' ∧
        p.carriesMessage from'.level.proto .v5 m := by
  obtain ⟨y, hy, hs⟩ := owned_stage ho
  unfold World.request at hreq
  rw [hy] at hreq
  cases hreq
  obtain ⟨q, i, id, cp, sevs, recs, h3, h4, _, h5⟩ := (origin_life hrun).lifeOf hy hs
  rw [hv] at h3
  obtain ⟨recs0, h6, h7⟩ := C24_decodes h3 fun e he =>
    origin_named (fun u m hm => published_named hrun hw hm) (h5.1 e he)
  refine ⟨_, by rw [h4]; exact clientReads_of h7, fun p hp => ?_⟩
  obtain ⟨os, hos, hp⟩ := List.mem_flatten.1 hp
  have hal := clientView_named h7 hos hp
  obtain ⟨r, hr, rfl⟩ := List.mem_map.1 hos
  obtain ⟨u, m, from', k1, k2, k3, k4, k5, k6, k7⟩ := sent_from h6 (fun e he => by
    obtain ⟨⟨env, g, ev⟩, he', rfl⟩ := List.mem_map.1 he
    have := h5.1 _ he'
    cases ev <;> exact this) hr hp
  refine ⟨u, m, from', k1, k2, ?_, k3, k4, k5, k6⟩
  rcases k7 with h | h
  · exact h
  · exact absurd hal h.2.2

/-- An MQTT 5 client that allows topic aliases gets two messages of an MQTT 3 client; the second one
has no topic, only the alias. -/
def exAliased : List Act :=
  [.connect { level := .v500, identifier := str "c", clean := true
              params := { aliasMax := 3, maxPacketSize := 100, receiveMax := 5 } } {} true,
   .packet 0 {} (Clock.const 0) 10 (.subscribe 1 [(str "a", { maxQos := 1 })] none),
   .connect { level := .v311, identifier := str "d", clean := true } {} true,
   .packet 1 {} (Clock.const 0) 10 (.publish
    { dup := false, retain := false, qosPid := .level0, topic := str "a", payload := [1] }),
   .packet 1 {} (Clock.const 0) 10 (.publish
    { dup := false, retain := false, qosPid := .level0, topic := str "a", payload := [2] }),
   .push 1 0, .flush 1 0, .push 1 0, .flush 1 0, .normal 0 {}, .normal 0 {}]

/-- To check an example. -/
theorem willsNamed_of (h : w.tasks.all (fun e => decide
    (∀ wl, e.2.req.params.will = some wl → wl.topic ≠ [])) = true) : w.willsNamed := by
  intro t req wl h1 h2
  obtain ⟨y, h3, rfl⟩ := Option.map_eq_some_iff.1 h1
  exact of_decide_eq_true (List.all_eq_true.1 h _ (FMap.mem_of_get h3)) wl h2

/-- Topics and payloads of the messages among these packets. -/
def shown (l : List OutPkt) : List (Str × Bytes) :=
  l.filterMap fun o => match o with | .publish p => some (p.topic, p.payload) | _ => none

example : ∃ w evs s req, Reaches {} exExt exAliased w evs ∧ w.willsNamed ∧ w.owned 0 = some s ∧
    w.request 0 = some req ∧ req.level.proto = .v5 ∧
    shown (sentIn (lifeOf w req.identifier evs)) = [(str "a", [1]), ([], [2])] ∧
    (clientReads (lifeOf w req.identifier evs)).map shown =
      some [(str "a", [1]), (str "a", [2])] :=
  ⟨_, _, _, _, rfl, willsNamed_of (by decide +kernel), rfl, rfl, rfl, by decide +kernel,
    by decide +kernel⟩

/-- **C75.**  The wills have topics: CONNECT packets with other wills are refused. -/
theorem C75_wills {acts : List FrontAct} (h : FrontReaches c x ext acts f fevs) :
    f.world.willsNamed := by
  intro t req wl h3 h4
  obtain ⟨k, p, ⟨o, final, h7⟩, _, _, _, h8, _⟩ := C50_all h h3
  obtain ⟨uuid, random, _, h9⟩ := opening_of h h7
  have := (handleConnect_in h9).2.1
  rw [← h8, h4] at this
  simp only [willTopicBad, Bool.or_eq_false_iff] at this
  exact fun hn => by rw [hn] at this; simp at this

/-- **C75, MQTT 5.**  Over the whole broker with any valid configuration: an MQTT 5 client
understands every PUBLISH that was sent to it in the life of its session, and each one, as the
client understands it, carries a message that was published before. -/
theorem C75_all {acts : List FrontAct} (h : FrontReaches c x ext acts f fevs)
    (hc : c.isValid = true) {t : TaskId} {s : Session} {req : Request}
    (ho : f.world.owned t = some s) (hreq : f.world.request t = some req)
    (hv : req.level.proto = .v5) :
    ∃ out, clientReads (lifeOf f.world req.identifier (worldEvents fevs)) = some out ∧
      ∀ p, .publish p ∈ out → ∃ u m from', (u, m) ∈ published (worldEvents fevs) ∧
        f.world.request u = some from' ∧ p.carriesMessage from'.level.proto .v5 m := by
  obtain ⟨cfg, hcfg, _⟩ := C52_qos hc
  obtain ⟨wacts, hr, _⟩ := (frontInv h).reaches cfg hcfg
  exact C75_v5 hr (C75_wills h) ho hreq hv

/-- Over the network, an MQTT 5 client that allows topic aliases gets two messages of another. -/
def exFrontAlias : List FrontAct :=
  [.hello { level := .v500, clientId := str "c", topicAliasMax := some 3 } (str "u0") [] {} true,
   .act (.packet 0 {} (Clock.const 0) 10 (.subscribe 1 [(str "a", { maxQos := 1 })] none)),
   .hello { level := .v500, clientId := str "d" } (str "u1") [] {} true] ++
  ([.packet 1 {} (Clock.const 0) 10 (.publish
    { dup := false, retain := false, qosPid := .level0, topic := str "a", payload := [1] }),
   .packet 1 {} (Clock.const 0) 10 (.publish
    { dup := false, retain := false, qosPid := .level0, topic := str "a", payload := [2] }),
   .push 1 0, .flush 1 0, .push 1 0, .flush 1 0, .normal 0 {}, .normal 0 {}] : List Act).map .act

example : ({} : ServerConfig).isValid = true ∧
    ∃ f fevs, FrontReaches {} exConnExt exExt exFrontAlias f fevs ∧
      ((f.world.owned 0).isSome, (f.world.request 0).map (·.level.proto),
        shown (sentIn (lifeOf f.world (str "c") (worldEvents fevs)))) =
        (true, some .v5, [(str "a", [1]), ([], [2])]) :=
  ⟨by decide, run_of (fun f fevs => ((f.world.owned 0).isSome, (f.world.request 0).map (·.level.proto),
    shown (sentIn (lifeOf f.world (str "c") (worldEvents fevs))))) (by decide +kernel)⟩

end Akasa
