import Verif.Proof.Talk
import Verif.Props.Rest
import Verif.Props.Life
/-!
# The rules of the conversation about messages with QoS 1 and 2 (C99)
-/
namespace Akasa

variable {cfg : Config} {ext : Ext} {pr : Proto} {w : World} {evs : List Event}

/-- **C99**, partial: the broker keeps to the rules of MQTT, as the client sees them, as long as at
most 65535 messages with QoS 1 or 2 have become due to the client.  Missing: more messages, where the
packet identifiers are used again, see `C99_roomy_partial` and `C99_false`. -/
theorem C99_first_partial {i : Str} {id : ClientId} {c : ConnParams}
    {sevs : List (Env × Global × SessEv)} {recs : List Rec}
    (hrun : ({ session := Session.start cfg pr i id c } : Peer).run cfg ext pr sevs = some recs)
    (hfew : ((recs.flatMap (Rec.messages cfg pr)).filter fun p => decide (p.qos ≠ 0)).length ≤ 65535) :
    KeepsRules (seenOf c recs) := by
  have hd : recs.flatMap (Rec.due cfg pr) =
      (recs.flatMap (Rec.messages cfg pr)).filter fun p => decide (p.qos ≠ 0) := by
    rw [List.filter_flatMap]; rfl
  obtain ⟨t, h⟩ := talk_run (isRun_of_run hrun) (long := false) (k := 0) (by rw [start_sender]; rfl)
    (fun _ => by rw [hd]; omega) (fun h => by cases h) (fun h => by cases h) (fun h => by cases h)
    (talk_start cfg pr i id c false)
  unfold KeepsRules seenOf
  rw [List.foldlM_cons]
  show ((recs.flatMap Rec.obs).foldlM Obs.talk (({} : Talk).connect false)).isSome = true
  rw [h]
  rfl

/-- **C99**, partial: the broker keeps to the rules, however many messages there are, if no message
for the client expires and its queue (of at most 65535 messages) has room for the messages that become
due in each step.  Missing: messages that are dropped because the queue is full, see `C99_false`, and
messages that expire. -/
theorem C99_roomy_partial {i : Str} {id : ClientId} {c : ConnParams}
    {sevs : List (Env × Global × SessEv)} {recs : List Rec}
    (hrun : ({ session := Session.start cfg pr i id c } : Peer).run cfg ext pr sevs = some recs)
    (hexp : ∀ r ∈ recs, ∀ p ∈ r.messages cfg pr, expiryOf pr p = none)
    (hroom : ∀ r ∈ recs, r.pre.session.sender.pending.packets.length + (r.messages cfg pr).length ≤
      cfg.maxInMemPending)
    (hsmall : cfg.maxInMemPending ≤ 65535) :
    KeepsRules (seenOf c recs) := by
  obtain ⟨t, h⟩ := talk_run (isRun_of_run hrun) (long := true) (k := 0) (by rw [start_sender]; rfl)
    (fun h => by cases h) (fun _ => hexp) (fun _ => hroom) (fun _ => hsmall)
    (talk_start cfg pr i id c true)
  unfold KeepsRules seenOf
  rw [List.foldlM_cons]
  show ((recs.flatMap Rec.obs).foldlM Obs.talk (({} : Talk).connect false)).isSome = true
  rw [h]
  rfl

/-- The events of `exRestEvs` are a case for both: three messages are sent again on a second
connection, and the client goes through the whole exchange with QoS 2. -/
example : ((exDeliverPeer.run exDeliverCfg exExt .v3 exRestEvs).any fun recs =>
      (recs.all fun r => (r.messages exDeliverCfg .v3).all (fun p => (expiryOf .v3 p).isNone) &&
        decide (r.pre.session.sender.pending.packets.length + (r.messages exDeliverCfg .v3).length ≤
          exDeliverCfg.maxInMemPending)) &&
      decide (exDeliverCfg.maxInMemPending ≤ 65535) &&
      decide (((recs.flatMap (Rec.messages exDeliverCfg .v3)).filter
        fun p => decide (p.qos ≠ 0)).length = 4) &&
      ((recs.flatMap (·.res.out)).any fun o => match o with
        | .publish w => w.dup
        | _ => false) &&
      ((recs.flatMap (·.res.out)).any fun o => match o with
        | .pubrel _ _ => true
        | _ => false)) = true := by decide +kernel

/-- **C99** in the whole broker: what is seen of a session that is connected or waits for its client
is what is seen of a session that is alone, in a run to which `C99_first_partial` and
`C99_roomy_partial` apply. -/
theorem C99_broker_partial {acts : List Act} (hrun : Reaches cfg ext acts w evs) {t : TaskId}
    {s : Session} {req : Request} (ho : w.owned t = some s) (hreq : w.request t = some req) :
    ∃ c recs, lifeOf w req.identifier evs = seenOf c recs ∧
      (((recs.flatMap (Rec.messages cfg req.level.proto)).filter
          fun p => decide (p.qos ≠ 0)).length ≤ 65535 →
        KeepsRules (lifeOf w req.identifier evs)) ∧
      ((∀ r ∈ recs, ∀ p ∈ r.messages cfg req.level.proto, expiryOf req.level.proto p = none) →
        (∀ r ∈ recs, r.pre.session.sender.pending.packets.length +
          (r.messages cfg req.level.proto).length ≤ cfg.maxInMemPending) →
        cfg.maxInMemPending ≤ 65535 → KeepsRules (lifeOf w req.identifier evs)) := by
  obtain ⟨p, ⟨i, id, c, sevs, recs, h1, h2, _⟩, _⟩ := C68_alone hrun ho hreq
  refine ⟨c, recs, h2, fun h => ?_, fun k1 k2 k3 => ?_⟩
  · rw [h2]; exact C99_first_partial h1 h
  · rw [h2]; exact C99_roomy_partial h1 k1 k2 k3

example : ∃ w evs, Reaches {} exExt (exRest .v500 none) w evs ∧
    (match w.owned 0, w.request 0 with
      | some _, some req => (sentIn (lifeOf w req.identifier evs)).length == 3
      | _, _ => false) = true :=
  reaches_of (cfg := {}) (acts := exRest .v500 none)
    (P := fun (r : World × List Event) => match r.1.owned 0, r.1.request 0 with
      | some _, some req => (sentIn (lifeOf r.1 req.identifier r.2)).length == 3
      | _, _ => false) (by decide +kernel)

/-! ## The identifiers wrap around -/

/-- Queue and window for two messages. -/
def exTalkCfg : Config := { maxInflightClient := 2, maxInMemPending := 2 }

/-- Two messages are sent, then the connection is lost. -/
def exTalkA : List (Env × Global × SessEv) :=
  [exAt (.packet (Clock.const 100) 10 (.subscribe 1 [(str "a", { maxQos := 2 })] none)),
   exAt (.normal (exNormal [1] 1)), exAt (.normal (exNormal [2] 1)), exAt .lost]

/-- The client connects again, answers the first message and gets another one. -/
def exTalkB : List (Env × Global × SessEv) :=
  [exAt (.resume {}), exAt (.packet (Clock.const 100) 4 (.puback 1)), exAt (.normal (exNormal [3] 1))]

/-- A message for the client that is away. -/
def exTalkOff : Env × Global × SessEv := exAt (.offline (exNormal [9] 1))

def exTalkPeer : Peer := { session := Session.start exTalkCfg .v3 (str "me") 7 {} }

/-- The session with this next packet identifier, after the connection was lost. -/
def exTalkMid (n : Pid) : Peer :=
  match exTalkPeer.run exTalkCfg exExt .v3 exTalkA with
  | some recs =>
    let p := endOf exTalkPeer recs
    { p with session := { p.session with sender := { p.session.sender with nextPid := n } } }
  | none => exTalkPeer

theorem exTalk_off (n : Pid) : ∃ res, (exTalkMid n).step exTalkCfg exExt .v3 exTalkOff.1 exTalkOff.2.1
    exTalkOff.2.2 = some (exTalkMid n.next, res) ∧ res.out = [] ∧ res.routed = [] :=
  ⟨_, rfl, rfl, rfl⟩

theorem exTalk_away (n : Nat) (k : Nat) : ∃ recs,
    (exTalkMid (pidOf k)).run exTalkCfg exExt .v3 (List.replicate n exTalkOff) = some recs ∧
    endOf (exTalkMid (pidOf k)) recs = exTalkMid (pidOf (k + n)) ∧
    ∀ t, (recs.flatMap Rec.obs).foldlM Obs.talk t = some t := by
  induction n generalizing k with
  | zero => exact ⟨[], rfl, rfl, fun _ => rfl⟩
  | succ n ih =>
    obtain ⟨res, h1, h2, h3⟩ := exTalk_off (pidOf k)
    rw [pidOf_next] at h1
    obtain ⟨recs, k1, k2, k3⟩ := ih (k + 1)
    refine ⟨{ ev := exTalkOff.2.2, env := exTalkOff.1, before := exTalkOff.2.1
              pre := exTalkMid (pidOf k), post := exTalkMid (pidOf (k + 1)), res := res } :: recs,
      ?_, ?_, fun t => ?_⟩
    · rw [List.replicate_succ, Peer.run.eq_2, h1]
      simp only [k1, Option.map_some]
    · rw [show k + (n + 1) = k + 1 + n by omega, ← k2]
      rfl
    · rw [List.flatMap_cons, List.foldlM_append, talk_rec]
      simp only [h2]
      exact k3 t

theorem peer_run_append {p : Peer} {a b : List (Env × Global × SessEv)} {ra rb : List Rec}
    (h1 : p.run cfg ext pr a = some ra) (h2 : (endOf p ra).run cfg ext pr b = some rb) :
    p.run cfg ext pr (a ++ b) = some (ra ++ rb) := by
  induction a generalizing p ra with
  | nil => cases h1; exact h2
  | cons e a ih =>
    obtain ⟨env, g, ev⟩ := e
    rw [List.cons_append, Peer.run.eq_2]
    rw [Peer.run.eq_2] at h1
    cases hs : p.step cfg ext pr env g ev with
    | none => rw [hs] at h1; cases h1
    | some r =>
      rw [hs] at h1
      simp only [Option.map_eq_some_iff] at h1
      obtain ⟨l, h3, rfl⟩ := h1
      simp only
      rw [ih h3 h2]
      rfl

/-- **C99 is false** of the code in general: messages that are dropped because the queue is full use
up packet identifiers too, and when the counter has wrapped around the client gets another message
with the identifier of a message that it has not answered yet. -/
theorem C99_false : ∃ (cfg : Config) (ext : Ext) (i : Str) (id : ClientId) (c : ConnParams)
    (sevs : List (Env × Global × SessEv)) (recs : List Rec),
    ({ session := Session.start cfg .v3 i id c } : Peer).run cfg ext .v3 sevs = some recs ∧
    (∀ r ∈ recs, ∀ p ∈ r.messages cfg .v3, expiryOf .v3 p = none) ∧ ¬ KeepsRules (seenOf c recs) := by
  have hall : (match exTalkPeer.run exTalkCfg exExt .v3 exTalkA,
        (exTalkMid 2).run exTalkCfg exExt .v3 exTalkB with
      | some ra, some rb =>
        decide ((endOf exTalkPeer ra).session.sender.nextPid = 3) &&
        !(((seenOf {} ra ++ rb.flatMap Rec.obs).foldlM Obs.talk ({} : Talk)).isSome)
      | _, _ => false) = true := by decide +kernel
  cases ha : exTalkPeer.run exTalkCfg exExt .v3 exTalkA with
  | none => rw [ha] at hall; cases hall
  | some ra =>
    cases hb : (exTalkMid 2).run exTalkCfg exExt .v3 exTalkB with
    | none => rw [ha, hb] at hall; cases hall
    | some rb =>
      rw [ha, hb] at hall
      simp only [Bool.and_eq_true, decide_eq_true_eq, Bool.not_eq_true'] at hall
      have hmid : endOf exTalkPeer ra = exTalkMid (pidOf 2) := by
        unfold exTalkMid
        rw [ha]
        simp only
        rw [show pidOf 2 = (endOf exTalkPeer ra).session.sender.nextPid from hall.1.symm]
      obtain ⟨rm, k1, k2, k3⟩ := exTalk_away 65534 2
      refine ⟨exTalkCfg, exExt, str "me", 7, {},
        exTalkA ++ (List.replicate 65534 exTalkOff ++ exTalkB), ra ++ (rm ++ rb), ?_,
        fun _ _ _ _ => rfl, fun h => ?_⟩
      · refine peer_run_append ha (peer_run_append (ra := rm) ?_ ?_)
        · show (endOf exTalkPeer ra).run _ _ _ _ = _
          rw [hmid]; exact k1
        show (endOf (endOf exTalkPeer ra) rm).run _ _ _ _ = _
        rw [hmid, k2]
        exact hb
      · unfold KeepsRules seenOf at h
        rw [List.flatMap_append, List.flatMap_append, ← List.cons_append, List.foldlM_append] at h
        unfold seenOf at hall
        rw [List.foldlM_append] at hall
        cases ht : (Obs.connected false {} :: ra.flatMap Rec.obs).foldlM Obs.talk ({} : Talk) with
        | none => rw [ht] at h; cases h
        | some t =>
          rw [ht] at h hall
          simp only [Option.bind_eq_bind, Option.bind_some] at h hall
          rw [List.foldlM_append, k3] at h
          simp only [Option.bind_eq_bind, Option.bind_some] at h
          rw [hall.2] at h
          cases h

end Akasa
