import Verif.Proof.Origin
import Verif.Props.SharedOnce
/-!
# C106: hashing keeps the messages of a publisher, or of a topic, with one member of the group
-/
namespace Akasa

variable {cfg : Config} {ext : Ext} {w w' : World} {evs e : List Event}

/-- **C106 (partial).**  The broker picks members of shared groups by a hash `hash` of the client
identifier of the publisher, or of the topic.  Two messages (or wills) with the same client
identifier of their publishers, or the same topic, are passed on because of the same shared
subscription, one after the acts `A` and one after `A` and `B`.  If no subscriptions were lost with a
discarded session, nobody has come back to a shared subscription after leaving it, and the same
clients have this one all the time in between, they go to the same member: a member that subscribes
again, for example with another QoS, and those who come and go in other groups or filters, change
nothing.

Missing: the same for histories in which somebody has come back to a shared subscription or has lost
it with a discarded session. -/
theorem C106_partial {A B : List Act} (hrun : Reaches cfg ext A w evs)
    {w2 : World} {evs2 : List Event} (hrun2 : Reaches cfg ext (A ++ B) w2 evs2)
    (hd : NoneDiscarded evs2) (hl : NobodyReturns cfg ext (A ++ B)) {g f : Str} (hg : '/' ∉ g)
    (hj : ∀ C D w1 evs1, B = C ++ D → Reaches cfg ext (A ++ C) w1 evs1 →
      ∀ id, (∃ q, w1.lists (shareFilter g f) id q) ↔ ∃ q, w.lists (shareFilter g f) id q)
    -- the first message
    {a : Act} (hs : w.step cfg ext a = some (w', e)) {t : TaskId} {m : SendPub}
    (hp : Publishes t m e) (hv : ValidTopic m.topic) {id : ClientId} {c : NormalMsg}
    (hc : c ∈ queuedFor t id e) (hn : c.names (shareFilter g f))
    -- the second message
    {a2 : Act} {w2' : World} {e2 : List Event} (hs2 : w2.step cfg ext a2 = some (w2', e2))
    {t2 : TaskId} {m2 : SendPub} (hp2 : Publishes t2 m2 e2) (hv2 : ValidTopic m2.topic)
    {id2 : ClientId} {c2 : NormalMsg} (hc2 : c2 ∈ queuedFor t2 id2 e2)
    (hn2 : c2.names (shareFilter g f))
    -- how the member is picked
    {mode : ShareMode} {hash : Str → Nat} {key : Str} {s s2 : Session}
    (hpick : PickedBy mode hash w t m (a.number g f))
    (hpick2 : PickedBy mode hash w2 t2 m2 (a2.number g f))
    (ho : w.owned t = some s) (hk : mode.key s.identifier m.topic = some key)
    (ho2 : w2.owned t2 = some s2) (hk2 : mode.key s2.identifier m2.topic = some key) :
    id = id2 := by
  have hnum := hpick s key ho hk
  have hnum2 := hpick2 s2 key ho2 hk2
  have hd1 : NoneDiscarded evs := by
    obtain ⟨⟨post, h1⟩, _⟩ := run_prefix hrun hrun2
    exact fun u old hu => hd u old (by rw [h1]; exact List.mem_append_left _ hu)
  obtain ⟨ops, h1⟩ := returns_run hrun hd1 hl.prefix
  obtain ⟨l, h3, hids⟩ := returns_more hrun hrun2 hd hl hg hj h1
  have pick : ∀ {w w' : World} {e : List Event} {a : Act} {t : TaskId} {m : SendPub}
      {ops : List RouteOp} {id : ClientId} {c : NormalMsg}, w.step cfg ext a = some (w', e) →
      Publishes t m e → ValidTopic m.topic → RouteTable.empty.run ops = some w.route →
      c ∈ queuedFor t id e → c.names (shareFilter g f) →
      (idsOf w.route g f)[a.number g f % (idsOf w.route g f).length]? = some id := by
    intro w w' e a t m ops id c k1 k2 k3 k4 k5 k6
    obtain ⟨x, s, s2, s', env, g', n, h1, h2, h3, h4, h5, h6⟩ := publishes_send k1 k2
    obtain ⟨l, h7, h8, _⟩ := send_shared h3 k4 k3 id
    rw [h5 id l h7] at k5
    obtain ⟨_, _, q, h9⟩ := h8 c k5 g f hg k6
    rw [h6]
    exact selOf_ids h9
  have p1 := pick hs hp hv h1.calls.run hc hn
  have p2 := pick hs2 hp2 hv2 h3.calls.run hc2 hn2
  rw [hids, hnum2, ← hnum, p1] at p2
  exact Option.some.inj p2

/-! ## A run -/

/-- Between the messages: the first member asks for another QoS, a client joins another group of the
same filter. -/
def exTeamMore : List Act :=
  [exTeamPub 2 7,
   .packet 0 {} (Clock.const 0) 10 (.subscribe 2 [(str "$share/g/+", { maxQos := 0 })] none),
   .packet 2 {} (Clock.const 0) 10 (.subscribe 3 [(str "$share/h/+", { maxQos := 0 })] none)]

/-- Two messages with the same topic; the hash of the topic is seven, which picks the second
member. -/
example : ∃ w evs w2 evs2 w' e w2' e2 m m2 c c2 s s2,
    Reaches {} exExt (exTeam .v500) w evs ∧
    Reaches {} exExt (exTeam .v500 ++ exTeamMore) w2 evs2 ∧ NoneDiscarded evs2 ∧
    NobodyReturns {} exExt (exTeam .v500 ++ exTeamMore) ∧
    w.step {} exExt (exTeamPub 2 7) = some (w', e) ∧ Publishes 2 m e ∧ ValidTopic m.topic ∧
    queuedFor 2 1 e = [c] ∧ c.names (shareFilter (str "g") (str "+")) ∧
    w2.step {} exExt (exTeamPub 2 7) = some (w2', e2) ∧ Publishes 2 m2 e2 ∧ ValidTopic m2.topic ∧
    queuedFor 2 1 e2 = [c2] ∧ c2.names (shareFilter (str "g") (str "+")) ∧
    w.owned 2 = some s ∧ w2.owned 2 = some s2 ∧
    ShareMode.hashTopicName.key s.identifier m.topic = some (str "a") ∧
    ShareMode.hashTopicName.key s2.identifier m2.topic = some (str "a") ∧
    PickedBy .hashTopicName (fun _ => 7) w 2 m ((exTeamPub 2 7).number (str "g") (str "+")) ∧
    PickedBy .hashTopicName (fun _ => 7) w2 2 m2 ((exTeamPub 2 7).number (str "g") (str "+")) ∧
    w2.lists (shareFilter (str "g") (str "+")) 0 0 ∧ w.lists (shareFilter (str "g") (str "+")) 0 1 ∧
    ∀ C D w1 evs1, exTeamMore = C ++ D → Reaches {} exExt (exTeam .v500 ++ C) w1 evs1 →
      ∀ id, (∃ q, w1.lists (shareFilter (str "g") (str "+")) id q) ↔
        ∃ q, w.lists (shareFilter (str "g") (str "+")) id q := by
  have hl : NobodyLeaves {} exExt (exTeam .v500 ++ exTeamMore) :=
    nobodyLeaves_of (by decide +kernel)
  refine ⟨_, _, _, _, _, _, _, _, _, _, _, _, _, _, rfl, rfl, noneDiscarded_of (by decide +kernel),
    hl.returns, rfl, .inl ⟨_, .tail _ List.mem_cons_self, List.mem_cons_self⟩, by unfold ValidTopic; decide, rfl,
    List.mem_cons_self, rfl, .inl ⟨_, .tail _ List.mem_cons_self, List.mem_cons_self⟩,
    by unfold ValidTopic; decide, rfl, List.mem_cons_self, rfl, rfl, rfl, rfl, fun _ _ _ _ => rfl,
    fun _ _ _ _ => rfl,
    ⟨0, _, _, rfl, rfl, rfl, rfl⟩, ⟨0, _, _, rfl, rfl, rfl, rfl⟩,
    same_of_ends hl rfl rfl (share_not_plain (by decide) _) fun id q h => by
      obtain ⟨t, s, d, k1, k2, k3, _⟩ := h
      have := owned_all (P := fun s => decide (s.clientId ≤ 1) ||
        (s.subscribes.get (shareFilter (str "g") (str "+"))).isNone) (by decide +kernel) k1
      rw [k3, k2, Option.isNone_some, Bool.or_false, decide_eq_true_iff] at this
      match id, this with
      | 0, _ => exact ⟨_, 0, _, _, rfl, rfl, rfl, rfl⟩
      | 1, _ => exact ⟨_, 1, _, _, rfl, rfl, rfl, rfl⟩⟩

/-! ## After somebody has left -/

/-- A client connects. -/
def exStickyJoin (name : String) : Act :=
  .connect { level := .v500, identifier := str name, clean := true } {} true

/-- The connection subscribes to the shared subscription. -/
def exStickySub (t : TaskId) : Act :=
  .packet t {} (Clock.const 0) 10 (.subscribe 1 [(str "$share/g/+", { maxQos := 1 })] none)

/-- The connection gives it up. -/
def exStickyUnsub (t : TaskId) : Act :=
  .packet t {} (Clock.const 0) 10 (.unsubscribe 1 [str "$share/g/+"])

/-- The second of three clients leaves, comes back, and leaves; the first leaves and comes back. -/
def exStickyLeft : List Act :=
  [exStickyJoin "a", exStickyJoin "b", exStickyJoin "c", exStickyJoin "p",
   exStickySub 0, exStickySub 1, exStickyUnsub 1, exStickySub 2, exStickySub 1, exStickyUnsub 1,
   exStickyUnsub 0, exStickySub 0]

/-- Of the sessions, only those of the first and the third client have the subscription. -/
def exStickyOnly (s : Session) : Bool :=
  match s.subscribes.get (shareFilter (str "g") (str "+")) with
  | none => true
  | some d => (s.clientId == 0 || s.clientId == 2) && d.opts.maxQos == 1

/-- **C106 is false of the code in general**: after some have left the shared subscription, the
broker has forgotten a client that has it, until this client subscribes again; a message with the
same topic then goes to another member, though the same clients have the subscription all the
time. -/
theorem C106_false : ∃ w evs w2 evs2 w' e w2' e2 m m2 c c2 s s2,
    Reaches {} exExt exStickyLeft w evs ∧
    Reaches {} exExt (exStickyLeft ++ [exTeamPub 3 1, exStickySub 2]) w2 evs2 ∧
    NoneDiscarded evs2 ∧
    w.step {} exExt (exTeamPub 3 1) = some (w', e) ∧ Publishes 3 m e ∧ ValidTopic m.topic ∧
    w2.step {} exExt (exTeamPub 3 1) = some (w2', e2) ∧ Publishes 3 m2 e2 ∧ ValidTopic m2.topic ∧
    w.owned 3 = some s ∧ w2.owned 3 = some s2 ∧
    ShareMode.hashTopicName.key s.identifier m.topic = some (str "a") ∧
    ShareMode.hashTopicName.key s2.identifier m2.topic = some (str "a") ∧
    PickedBy .hashTopicName (fun _ => 1) w 3 m ((exTeamPub 3 1).number (str "g") (str "+")) ∧
    PickedBy .hashTopicName (fun _ => 1) w2 3 m2 ((exTeamPub 3 1).number (str "g") (str "+")) ∧
    (∀ id q, w2.lists (shareFilter (str "g") (str "+")) id q ↔
      w.lists (shareFilter (str "g") (str "+")) id q) ∧
    queuedFor 3 0 e = [c] ∧ c.names (shareFilter (str "g") (str "+")) ∧
    queuedFor 3 2 e2 = [c2] ∧ c2.names (shareFilter (str "g") (str "+")) ∧
    queuedFor 3 0 e2 = [] := by
  have key : ∃ w evs w2 evs2 w' e w2' e2 m m2 c c2 s s2,
      Reaches {} exExt exStickyLeft w evs ∧
      Reaches {} exExt (exStickyLeft ++ [exTeamPub 3 1, exStickySub 2]) w2 evs2 ∧
      NoneDiscarded evs2 ∧
      w.step {} exExt (exTeamPub 3 1) = some (w', e) ∧ Publishes 3 m e ∧ ValidTopic m.topic ∧
      w2.step {} exExt (exTeamPub 3 1) = some (w2', e2) ∧ Publishes 3 m2 e2 ∧ ValidTopic m2.topic ∧
      w.owned 3 = some s ∧ w2.owned 3 = some s2 ∧
      ShareMode.hashTopicName.key s.identifier m.topic = some (str "a") ∧
      ShareMode.hashTopicName.key s2.identifier m2.topic = some (str "a") ∧
      PickedBy .hashTopicName (fun _ => 1) w 3 m ((exTeamPub 3 1).number (str "g") (str "+")) ∧
      PickedBy .hashTopicName (fun _ => 1) w2 3 m2 ((exTeamPub 3 1).number (str "g") (str "+")) ∧
      (w.tasks.all (fun e => e.2.stage.owner?.all exStickyOnly) = true ∧
        w2.tasks.all (fun e => e.2.stage.owner?.all exStickyOnly) = true ∧
        w.lists (shareFilter (str "g") (str "+")) 0 1 ∧ w.lists (shareFilter (str "g") (str "+")) 2 1 ∧
        w2.lists (shareFilter (str "g") (str "+")) 0 1 ∧
        w2.lists (shareFilter (str "g") (str "+")) 2 1) ∧
      queuedFor 3 0 e = [c] ∧ c.names (shareFilter (str "g") (str "+")) ∧
      queuedFor 3 2 e2 = [c2] ∧ c2.names (shareFilter (str "g") (str "+")) ∧
      queuedFor 3 0 e2 = [] :=
    ⟨_, _, _, _, _, _, _, _, _, _, _, _, _, _, rfl, rfl, noneDiscarded_of (by decide +kernel),
      rfl, .inl ⟨_, .tail _ List.mem_cons_self, List.mem_cons_self⟩, by unfold ValidTopic; decide,
      rfl, .inl ⟨_, .tail _ List.mem_cons_self, List.mem_cons_self⟩, by unfold ValidTopic; decide,
      rfl, rfl, rfl, rfl, fun _ _ _ _ => rfl, fun _ _ _ _ => rfl,
      ⟨by decide +kernel, by decide +kernel, ⟨0, _, _, rfl, rfl, rfl, rfl⟩,
        ⟨2, _, _, rfl, rfl, rfl, rfl⟩, ⟨0, _, _, rfl, rfl, rfl, rfl⟩,
        ⟨2, _, _, rfl, rfl, rfl, rfl⟩⟩, rfl,
      List.mem_cons_self, rfl, List.mem_cons_self, rfl⟩
  have only : ∀ {w : World} {id : ClientId} {q : QoS},
      w.tasks.all (fun e => e.2.stage.owner?.all exStickyOnly) = true →
      w.lists (shareFilter (str "g") (str "+")) id q → (id = 0 ∨ id = 2) ∧ q = 1 := by
    rintro w id q hw ⟨t, s, d, k1, rfl, k3, rfl⟩
    have := owned_all hw k1
    unfold exStickyOnly at this
    rw [k3] at this
    simpa using this
  obtain ⟨w, evs, w2, evs2, w', e, w2', e2, m, m2, c, c2, s, s2, k1, k2, k3, k4, k5, k6, k7, k8, k9,
    k10, k11, k12, k13, k14, k15, ⟨l1, l2, l3, l4, l5, l6⟩, k16⟩ := key
  refine ⟨w, evs, w2, evs2, w', e, w2', e2, m, m2, c, c2, s, s2, k1, k2, k3, k4, k5, k6, k7, k8, k9,
    k10, k11, k12, k13, k14, k15, fun id q => ⟨fun h => ?_, fun h => ?_⟩, k16⟩
  · obtain ⟨rfl | rfl, rfl⟩ := only l2 h
    · exact l3
    · exact l4
  · obtain ⟨rfl | rfl, rfl⟩ := only l1 h
    · exact l5
    · exact l6

end Akasa
