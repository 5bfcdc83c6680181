import Verif.Proof.GrantedFlow
import Verif.Props.EndToEnd
import Verif.Props.Life
import Verif.Props.Selective
import Verif.Props.Once
/-!
# C103: what was granted to a client is delivered to it

The converse of C97.  Over all runs of the whole broker, seen from the packets of the client.
-/
namespace Akasa

variable {cfg : Config} {ext : Ext} {w w1 w2 : World} {evs evs1 evs2 e : List Event}

/-- **C103, held.**  Whatever happened before: if the last thing said about a filter between a client
and the broker was a SUBACK that granted it, on whichever connection of the session, then the session
has the subscription with the granted QoS; and it has the no-local option only if the client asked
for it. -/
theorem C103_held {acts : List Act} (hrun : Reaches cfg ext acts w evs) {t : TaskId} {s : Session}
    {req : Request} (ho : w.owned t = some s) (hreq : w.request t = some req) {F : Str} {q : QoS}
    {o : SubOpts} (hg : grantedIn (lifeOf w req.identifier evs) F = some (q, o)) :
    ∃ d, s.subscribes.get F = some d ∧ d.opts.maxQos = q ∧
      (d.opts.noLocal = true → o.noLocal = true) := by
  obtain ⟨p, h1, h2, _⟩ := C68_alone hrun ho hreq
  obtain ⟨d, h3, h4⟩ := granted_lives h1 F q o hg
  refine ⟨d, ?_, h4⟩
  rw [← h2]
  exact h3

/-- **C103, queued.**  From the SUBACK on, whenever any client publishes a message (or its will is
published) whose topic a granted filter matches, a copy for that filter, with at least the granted
QoS, is queued for the client in the same step, whether it is connected or not.  (Its own messages
only if it did not ask for no-local.) -/
theorem C103_queued {acts : List Act} (hrun : Reaches cfg ext acts w evs) {t : TaskId} {s : Session}
    {req : Request} (ho : w.owned t = some s) (hreq : w.request t = some req) {F : Str} {q : QoS}
    {o : SubOpts} (hg : grantedIn (lifeOf w req.identifier evs) F = some (q, o)) (hpl : IsPlain F)
    {a : Act} (hs : w.step cfg ext a = some (w2, e)) {u : TaskId} {m : SendPub}
    (hp : Publishes u m e) (hv : ValidTopic m.topic) (hm : Matches F m.topic)
    (hown : u = t → o.noLocal = false) :
    ∃ c ∈ queuedFor u s.clientId e, IsCopyFor m F q c := by
  obtain ⟨d, h1, h2, h3⟩ := C103_held hrun ho hreq hg
  refine C56_queued hrun hs hp hv ⟨t, s, d, ho, rfl, h1, h2⟩ hpl hm ?_
  intro s' ho' hid
  have hut : u = t := by
    obtain ⟨x, hx, hst⟩ := owned_stage ho
    obtain ⟨x', hx', hst'⟩ := owned_stage ho'
    refine (BrokerInv.run hrun).own.uniq u t s.clientId ?_ ?_
    · rw [(Tasks.views hx').1, ← hid]
      cases hs : x'.stage <;> rw [hs] at hst' <;> cases hst' <;> rfl
    · rw [(Tasks.views hx).1]
      cases hs : x.stage <;> rw [hs] at hst <;> cases hst <;> rfl
  subst hut
  rw [ho] at ho'
  cases ho'
  refine ⟨d, h1, ?_⟩
  cases hn : d.opts.noLocal with
  | false => rfl
  | true => rw [hown rfl] at h3; exact absurd (h3 hn) (by simp)

/-- In `exRest` the client is granted the filter `a` in the second act; the messages are published
in the fourth and the fifth. -/
example : ∃ w evs, Reaches {} exExt ((exRest .v500 none).take 3) w evs ∧
    (match w.owned 0, w.request 0, w.step {} exExt (.packet 1 exClk100 (Clock.const 100) 10
        (exRestPub 7 [1] none)) with
      | some s, some req, some (_, e) =>
        decide (grantedIn (lifeOf w req.identifier evs) (str "a") = some (1, { maxQos := 1 })) &&
          decide ((queuedFor 1 s.clientId e).map (·.payload) = [[1]])
      | _, _, _ => false) = true :=
  reaches_of (cfg := {}) (acts := (exRest .v500 none).take 3)
    (P := fun (r : World × List Event) => match r.1.owned 0, r.1.request 0,
        r.1.step {} exExt (.packet 1 exClk100 (Clock.const 100) 10 (exRestPub 7 [1] none)) with
      | some s, some req, some (_, e) =>
        decide (grantedIn (lifeOf r.1 req.identifier r.2) (str "a") = some (1, { maxQos := 1 })) &&
          decide ((queuedFor 1 s.clientId e).map (·.payload) = [[1]])
      | _, _, _ => false) (by decide +kernel)

/-- An UNSUBSCRIBE ends that, and so does a SUBSCRIBE that is refused. -/
example : ∃ w evs, Reaches { sharedAvailable := false } exExt ((exRest .v500 none).take 3 ++
      [.packet 0 exClk100 (Clock.const 100) 10
        (.subscribe 2 [(str "$share/g/a", { maxQos := 1 }), (str "b", { maxQos := 2 })] none),
       .packet 0 exClk100 (Clock.const 100) 10 (.unsubscribe 3 [str "a"])]) w evs ∧
    (match w.request 0 with
      | some req => decide (
          grantedIn (lifeOf w req.identifier evs) (str "$share/g/a") = none ∧
          grantedIn (lifeOf w req.identifier evs) (str "b") = some (2, { maxQos := 2 }) ∧
          grantedIn (lifeOf w req.identifier evs) (str "a") = none)
      | _ => false) = true :=
  reaches_of (cfg := { sharedAvailable := false }) (acts := (exRest .v500 none).take 3 ++
      [.packet 0 exClk100 (Clock.const 100) 10
        (.subscribe 2 [(str "$share/g/a", { maxQos := 1 }), (str "b", { maxQos := 2 })] none),
       .packet 0 exClk100 (Clock.const 100) 10 (.unsubscribe 3 [str "a"])])
    (P := fun (r : World × List Event) => match r.1.request 0 with
      | some req => decide (
          grantedIn (lifeOf r.1 req.identifier r.2) (str "$share/g/a") = none ∧
          grantedIn (lifeOf r.1 req.identifier r.2) (str "b") = some (2, { maxQos := 2 }) ∧
          grantedIn (lifeOf r.1 req.identifier r.2) (str "a") = none)
      | _ => false) (by decide +kernel)

/-- **C103, taken.**  A client was granted a plain filter.  Then a message was published whose topic
the filter matches.  At any later moment, if the client still has that session, nothing the
publishing connection queued for it is on the way and nothing of that was dropped, then the session
has taken a copy of the message for the filter, with at least the granted QoS, after it was
published.  Missing from the full claim: a publisher that is taken over or loses its connection drops
what it still holds (C56). -/
theorem C103_taken_partial {A B : List Act} (hrun : Reaches cfg ext A w1 evs1) {t1 : TaskId}
    {s1 : Session} {req1 : Request} (ho1 : w1.owned t1 = some s1) (hreq1 : w1.request t1 = some req1)
    {F : Str} {q : QoS} {o : SubOpts}
    (hg : grantedIn (lifeOf w1 req1.identifier evs1) F = some (q, o)) (hpl : IsPlain F)
    {a : Act} (hs : w1.step cfg ext a = some (w2, e)) {u : TaskId} {m : SendPub}
    (hp : Publishes u m e) (hv : ValidTopic m.topic) (hm : Matches F m.topic)
    (hown : u = t1 → o.noLocal = false)
    (hrest : World.run cfg ext w2 B = some (w, evs2)) {t : TaskId} {s : Session} {req : Request}
    (ho : w.owned t = some s) (hreq : w.request t = some req)
    (hsame : req.identifier = req1.identifier) (hk : w.keepsSession req1.identifier (e ++ evs2))
    (hd : droppedFor u s.clientId (evs1 ++ (e ++ evs2)) = []) (hi : w.inboxFrom u s.clientId = [])
    (hw : w.onTheWay u s.clientId = []) :
    ∃ c X Y, IsCopyFor m F q c ∧ lifeOf w req.identifier (evs1 ++ (e ++ evs2)) =
      lifeOf w1 req.identifier evs1 ++ (X ++ .took c :: Y) := by
  have hrun2 : World.run cfg ext w1 (a :: B) = some (w, e ++ evs2) := by
    simp only [World.run, hs, hrest]
    rfl
  have hall : Reaches cfg ext (A ++ a :: B) w (evs1 ++ (e ++ evs2)) := run_append_world hrun hrun2
  have hsc := SameClient.run hrun ho1 hreq1 hrun2
  have hid : s.clientId = s1.clientId :=
    hsc.owner (BrokerInv.run hall).own hk ho hreq hsame
  obtain ⟨c, hc, hcopy⟩ := C103_queued hrun ho1 hreq1 hg hpl hs hp hv hm hown
  rw [hid] at hd hi hw
  have htook := C56_drained_partial hall ⟨t, s, ho, hid⟩ hd hi hw
  rw [tookFrom_append, queuedFor_append] at htook
  have hlen : (tookFrom u s1.clientId evs1).length ≤ (queuedFor u s1.clientId evs1).length := by
    have := (C56_order hrun u s1.clientId).length_le
    simp only [List.length_append] at this
    omega
  have hmem : c ∈ tookFrom u s1.clientId (e ++ evs2) := by
    refine later_part htook hlen ?_
    rw [queuedFor_append]
    exact List.mem_append_left _ hc
  obtain ⟨t', ht'⟩ := mem_tookFrom hmem
  obtain ⟨r, hr, hri⟩ := hsc.took t' u c ht'
  have hseen := took_seen ht' hr hri
  obtain ⟨X, Y, hXY⟩ := List.append_of_mem hseen
  refine ⟨c, X, Y, hcopy, ?_⟩
  rw [hsame, life_goes_on hrun hrun2 hk, hXY]

/-- After the client of `exRest` has taken and answered both messages, the conditions at the end are
met, and the two messages were taken after the filter was granted. -/
example : ∃ w evs, Reaches {} exExt (exRest .v500 none) w evs ∧
    (match w.owned 0, w.request 0 with
      | some s, some req => decide (droppedFor 1 s.clientId evs = []) &&
          decide (w.inboxFrom 1 s.clientId = []) && decide (w.onTheWay 1 s.clientId = []) &&
          decide ((takenIn (lifeOf w req.identifier evs)).map (·.payload) = [[1], [2]]) &&
          (evs.drop 3).all (fun e => match e with
            | .accepted t false => decide ((w.request t).map (·.identifier) ≠ some req.identifier)
            | _ => true)
      | _, _ => false) = true :=
  reaches_of (cfg := {}) (acts := exRest .v500 none)
    (P := fun (r : World × List Event) => match r.1.owned 0, r.1.request 0 with
      | some s, some req => decide (droppedFor 1 s.clientId r.2 = []) &&
          decide (r.1.inboxFrom 1 s.clientId = []) && decide (r.1.onTheWay 1 s.clientId = []) &&
          decide ((takenIn (lifeOf r.1 req.identifier r.2)).map (·.payload) = [[1], [2]]) &&
          (r.2.drop 3).all (fun e => match e with
            | .accepted t false => decide ((r.1.request t).map (·.identifier) ≠ some req.identifier)
            | _ => true)
      | _, _ => false) (by decide +kernel)

/-- What is due when the message is taken, see `C103_due_partial`. -/
theorem due_of_taken {pr : Proto} {r : Rec} {c : NormalMsg} (h5 : r.taken = some c) {F : Str}
    {d : SubData} (h7 : r.pre.session.subs F = some d) (hF : F ∈ c.filters)
    (h3 : pr = .v3 → c.filters.head? = some F) :
    (pr = .v5 ∧ r.pre.session.maxPacketSize < sizeAt c.size c.qos (min c.qos c.granted)) ∨
      (r.pre.online = false ∧ min c.qos c.granted = 0) ∨
      ∃ p ∈ r.messages cfg pr, p.topic = c.topic ∧ p.payload = c.payload ∧
        p.qos = min c.qos c.granted := by
  have hdue : (pr = .v5 ∧
        r.pre.session.maxPacketSize < sizeAt c.size c.qos (min c.qos c.granted)) ∨
      ∃ p, dueOf cfg pr r.pre.session c = some p ∧ p.topic = c.topic ∧
        p.payload = c.payload ∧ p.qos = min c.qos c.granted := by
    cases hpr : pr with
    | v3 =>
      right
      have h8 := h3 hpr
      unfold dueOf dueV3
      cases hf : c.filters with
      | nil => rw [hf] at h8; cases h8
      | cons f fs =>
        rw [hf] at h8
        cases h8
        have : r.pre.session.subscribes.get F ≠ none := by
          rw [show r.pre.session.subscribes.get F = some d from h7]; simp
        simp only [if_neg this]
        exact ⟨_, rfl, rfl, rfl, rfl⟩
    | v5 =>
      have hheld : r.pre.session.held c ≠ [] := by
        have : d ∈ r.pre.session.held c := List.mem_filterMap.2 ⟨F, hF, h7⟩
        exact List.ne_nil_of_mem this
      unfold dueOf dueV5
      simp only [if_neg hheld]
      by_cases hsz : r.pre.session.maxPacketSize < sizeAt c.size c.qos (min c.qos c.granted)
      · exact .inl ⟨trivial, hsz⟩
      · right
        rw [if_neg hsz]
        exact ⟨_, rfl, rfl, rfl, rfl⟩
  rcases hdue with hdue | ⟨p, hp, h8, h9, h10⟩
  · exact .inl hdue
  · right
    unfold Rec.taken at h5
    unfold Rec.messages Rec.inputs
    cases hev : r.ev <;> rw [hev] at h5 <;> simp only [reduceCtorEq] at h5
    · split at h5
      · rename_i hon
        cases h5
        right
        refine ⟨p, ?_, h8, h9, h10⟩
        simp [hon, hp, Input.message?]
      · cases h5
    · split at h5
      · cases h5
      · rename_i hon
        cases h5
        by_cases hq : min c.qos c.granted = 0
        · exact .inl ⟨by simpa using hon, hq⟩
        · right
          refine ⟨p, ?_, h8, h9, h10⟩
          have hq' : p.qos ≠ 0 := by rw [h10]; exact hq
          simp [hon, hp, Option.filter, hq', Input.message?]


/-- **C103, due.**  When the session of an MQTT 5 client takes a message that was routed because of a
filter which the client holds at that moment, the message is due to the client: with its topic, its
payload and the smaller of the QoS published and granted it goes to the queue of the session, or out
at once; unless it is larger than the client accepts, or has QoS 0 and the client is not connected.
(Of what is due C98 and C101 say that the client gets it.)  Of an MQTT 3 client the filter must be
the first of those the message was routed for. -/
theorem C103_due_partial {acts : List Act} (hrun : Reaches cfg ext acts w evs) {t : TaskId}
    {s : Session} {req : Request} (ho : w.owned t = some s) (hreq : w.request t = some req)
    {A B : List Obs} {c : NormalMsg} (hl : lifeOf w req.identifier evs = A ++ .took c :: B) {F : Str}
    {g : QoS × SubOpts} (hg : grantedIn A F = some g) (hF : F ∈ c.filters)
    (h3 : req.level.proto = .v3 → c.filters.head? = some F) :
    ∃ k recs r, lifeOf w req.identifier evs = seenOf k recs ∧ r ∈ recs ∧ r.taken = some c ∧
      ((req.level.proto = .v5 ∧
          r.pre.session.maxPacketSize < sizeAt c.size c.qos (min c.qos c.granted)) ∨
        (r.pre.online = false ∧ min c.qos c.granted = 0) ∨
        ∃ p ∈ r.messages cfg req.level.proto, p.topic = c.topic ∧ p.payload = c.payload ∧
          p.qos = min c.qos c.granted) := by
  obtain ⟨p, ⟨i, id, k, sevs, recs, h1, h2, _⟩, _⟩ := C68_alone hrun ho hreq
  rw [h2] at hl
  obtain ⟨r, h4, h5, h6⟩ := took_step (isRun_of_run h1) (fun F q o h => by cases h) hl
  obtain ⟨d, h7, _⟩ := h6 F g.1 g.2 hg
  exact ⟨k, recs, r, h2, h4, h5, due_of_taken h5 h7 hF h3⟩

/-- **C103, got.**  Likewise, once an MQTT client that follows the protocol is connected and has
nothing more to get or to answer: it has got the message and passed it on, as a PUBLISH with the
topic, the payload and the QoS due.  The conditions are those of C98 and C101; and the message is not
larger than the client accepts. -/
theorem C103_got_partial {acts : List Act} (hrun : Reaches cfg ext acts w evs)
    (hlate : ∀ a ∈ acts, a.late cfg.inflightTimeout) {t : TaskId} {s : Session} {req : Request}
    (hexp : req.level.proto = .v5 → NoneExpires evs)
    (hs : w.onlineSession t = some s) (hd : s.disconnected = false) (hreq : w.request t = some req)
    (hwin : 1 ≤ windowOf cfg req.level.proto req.params)
    {r : Receiver} (hr : Receiver.Moves {} (lifeOf w req.identifier evs) r) (hdown : r.down = [])
    (hup : r.up = []) {A B : List Obs} {c : NormalMsg}
    (hl : lifeOf w req.identifier evs = A ++ .took c :: B) {F : Str}
    {g : QoS × SubOpts} (hg : grantedIn A F = some g) (hF : F ∈ c.filters)
    (h3 : req.level.proto = .v3 → c.filters.head? = some F) (hq : min c.qos c.granted ≠ 0) :
    ∃ k recs, lifeOf w req.identifier evs = seenOf k recs ∧
      (((recs.flatMap (Rec.messages cfg req.level.proto)).filter
          fun p => decide (p.qos ≠ 0)).length ≤ 65535 →
        (∀ r ∈ recs, ∀ p ∈ r.messages cfg req.level.proto, expiryOf req.level.proto p = none) →
        (∀ r ∈ recs, r.pre.session.sender.pending.packets.length +
          (r.messages cfg req.level.proto).length ≤ cfg.maxInMemPending) →
        (∀ r ∈ recs, r.taken = some c →
          sizeAt c.size c.qos (min c.qos c.granted) ≤ r.pre.session.maxPacketSize) →
        ∃ p, ∃ w ∈ firstsOf r.got, Gives req.level.proto p (.publish w) ∧ p.topic = c.topic ∧
          p.payload = c.payload ∧ p.qos = min c.qos c.granted) := by
  obtain ⟨k, recs, h1, h2, h4⟩ := broker_all hrun hlate hexp hs hd hreq hwin hr hdown hup
  refine ⟨k, recs, h1, fun k1 k2 k3 k4 => ?_⟩
  obtain ⟨i, id, sevs, h5⟩ := h2
  rw [h1] at hl
  obtain ⟨r0, j1, j2, j3⟩ := took_step (isRun_of_run h5) (fun F q o h => by cases h) hl
  obtain ⟨d, j4, _⟩ := j3 F g.1 g.2 hg
  rcases due_of_taken (cfg := cfg) j2 j4 hF h3 with ⟨_, j5⟩ | ⟨_, j5⟩ | ⟨p, j5, j6, j7, j8⟩
  · exact absurd (k4 r0 j1 j2) (Nat.not_le.2 j5)
  · exact absurd j5 hq
  · obtain ⟨j9, _⟩ := h4 k1 k2 k3
    have hp : p ∈ (recs.flatMap (Rec.messages cfg req.level.proto)).filter
        fun p => decide (p.qos ≠ 0) := by
      refine List.mem_filter.2 ⟨List.mem_flatMap.2 ⟨r0, j1, j5⟩, ?_⟩
      rw [j8]
      simpa using hq
    obtain ⟨w, hw, hgw⟩ := along_left j9 hp
    exact ⟨p, w, hw, hgw, j6, j7, j8⟩

/-- An MQTT 3 client with a session that is subscribed to `a` comes back with clean session 1; the new
session is subscribed to `+` only.  An MQTT 5 client publishes on `a`, QoS 1. -/
def exOldFilter : List Act :=
  [.connect { level := .v311, identifier := str "c", clean := false } exClk100 true,
   .packet 0 exClk100 (Clock.const 100) 10 (.subscribe 1 [(str "a", { maxQos := 1 })] none),
   .lose 0, .close 0 exClk100 [], .finish 0,
   .connect { level := .v311, identifier := str "c", clean := true } exClk100 true,
   .control 0 exClk100, .accept 1 exClk100 true,
   .packet 1 exClk100 (Clock.const 100) 10 (.subscribe 2 [(str "+", { maxQos := 1 })] none),
   .connect { level := .v500, identifier := str "p", clean := true } exClk100 true,
   .packet 2 exClk100 (Clock.const 100) 10 (exRestPub 7 [1] none),
   .push 2 0, .flush 2 0, .normal 1 exClk100]

/-- **C103 is false** of the code for MQTT 3 clients in general: the client is connected and was
granted the filter `+`, the session has taken the message, QoS 1, for it, and yet the client is sent
nothing but the SUBACK, and nothing waits to be sent.  The routing table still has a filter of the
discarded session (C33), and of the filters a message was routed for only the first is looked at
(C31). -/
theorem C103_false : ∃ (cfg : Config) (ext : Ext) (acts : List Act) (w : World) (evs : List Event)
    (t : TaskId) (s : Session) (req : Request) (A B : List Obs) (c : NormalMsg) (F : Str)
    (g : QoS × SubOpts), Reaches cfg ext acts w evs ∧ w.onlineSession t = some s ∧
    w.request t = some req ∧ req.level.proto = .v3 ∧
    lifeOf w req.identifier evs = A ++ .took c :: B ∧ grantedIn A F = some g ∧ F ∈ c.filters ∧
    min c.qos c.granted = 1 ∧ (∀ p, .publish p ∉ sentIn (lifeOf w req.identifier evs)) ∧
    s.sender.pending.packets = [] := by
  obtain ⟨w, evs, h1, h2⟩ := reaches_of (cfg := {}) (acts := exOldFilter)
    (P := fun (r : World × List Event) => match r.1.onlineSession 1, r.1.request 1 with
      | some s, some req => (req.level.proto == .v3) && s.sender.pending.packets.isEmpty &&
          (match (lifeOf r.1 req.identifier r.2).drop 3 with
            | .took c :: _ => decide (str "+" ∈ c.filters ∧ min c.qos c.granted = 1)
            | _ => false) &&
          decide (grantedIn ((lifeOf r.1 req.identifier r.2).take 3) (str "+") =
            some (1, { maxQos := 1 })) &&
          (sentIn (lifeOf r.1 req.identifier r.2)).all (fun o => match o with
            | .publish _ => false
            | _ => true)
      | _, _ => false) (by decide +kernel)
  simp only at h2
  split at h2
  · rename_i s req hs hreq
    simp only [Bool.and_eq_true, beq_iff_eq, decide_eq_true_eq, List.isEmpty_iff] at h2
    obtain ⟨⟨⟨⟨k1, k2⟩, k3⟩, k4⟩, k5⟩ := h2
    split at k3
    · rename_i c B hd
      simp only [decide_eq_true_eq] at k3
      refine ⟨_, _, _, w, evs, 1, s, req, (lifeOf w req.identifier evs).take 3, B, c, str "+", _, h1,
        hs, hreq, k1, ?_, k4, k3.1, k3.2, ?_, k2⟩
      · rw [← hd, List.take_append_drop]
      · intro p hp
        have := List.all_eq_true.1 k5 _ hp
        cases this
    · cases k3
  · cases h2

end Akasa
