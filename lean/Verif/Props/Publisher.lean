import Verif.Proof.PubStuck
import Verif.Props.Once
/-!
# What becomes of the messages of a client that publishes by the rules of the protocol (C102)
-/
namespace Akasa

variable {cfg : Config} {ext : Ext} {pr : Proto} {w : World} {evs : List Event}

/-- **C102**, QoS 2, at most once: whatever the network delays or loses with a connection, the
messages with QoS 2 that the broker passes on for a client that follows the protocol are messages that
the client has published, in the order in which it has published them and none of them twice. -/
theorem C102_at_most_once {i : Str} {id : ClientId} {c : ConnParams}
    {sevs : List (Env × Global × SessEv)} {recs : List Rec}
    (hrun : ({ session := Session.start cfg pr i id c } : Peer).run cfg ext pr sevs = some recs)
    {r : Publisher} (hr : Publisher.Moves {} (seenOf c recs) r) :
    ∃ ms, ms.Sublist (twosOf r.handed) ∧ Along (IsPassed pr) ms (passedOn 2 (seenOf c recs)) := by
  have h := pubs_run (good := False) (isRun_of_run hrun) (fun h => h.elim) (fun h => h.elim)
    (pubs_start cfg i id c) (pub_start hr)
  rw [passedOn_seen]
  obtain ⟨ms, h1, h2⟩ := h.safe
  exact ⟨ms, (List.sublist_append_left _ _).trans h2, h1⟩

/-- **C102**, QoS 1, at least once: all messages with QoS 1 that the client has published and that are
completed have been passed on, in the order in which the client has published them (those passed on
more than once being counted once). -/
theorem C102_at_least_once {i : Str} {id : ClientId} {c : ConnParams}
    {sevs : List (Env × Global × SessEv)} {recs : List Rec}
    (hrun : ({ session := Session.start cfg pr i id c } : Peer).run cfg ext pr sevs = some recs)
    {r : Publisher} (hr : Publisher.Moves {} (seenOf c recs) r) :
    ∃ A B ms, onesOf r.handed = A ++ B ∧ (∀ p ∈ B, (p, false) ∈ r.waiting) ∧
      ms.Sublist (passedOn 1 (seenOf c recs)) ∧ Along (IsPassed pr) A ms := by
  have h := pubs_run (good := False) (isRun_of_run hrun) (fun h => h.elim) (fun h => h.elim)
    (pubs_start cfg i id c) (pub_start hr)
  rw [passedOn_seen]
  obtain ⟨A, W, B, h1, ⟨ms, h2, h3⟩, h4, _⟩ := h.ones
  refine ⟨A, B, ms, h1, fun p hp => ?_, h2, h3⟩
  have hw : p ∈ onesWaiting r.waiting := by rw [h4]; exact List.mem_append_right _ hp
  obtain ⟨hm, hq⟩ := List.mem_filter.1 hw
  obtain ⟨e, he, rfl⟩ := List.mem_map.1 hm
  have h2 := (h.tidy e he).2.1
  obtain ⟨p, b⟩ := e
  cases b with
  | false => exact he
  | true =>
    simp only at h2 hq
    rw [h2 trivial] at hq
    cases of_decide_eq_true hq

/-- **C102**, completion: if the connection goes on and nothing is on its way in either direction, all
messages that the client has published are completed. -/
theorem C102_completed {i : Str} {id : ClientId} {c : ConnParams}
    {sevs : List (Env × Global × SessEv)} {recs : List Rec}
    (hrun : ({ session := Session.start cfg pr i id c } : Peer).run cfg ext pr sevs = some recs)
    {p : Peer} (hp : p = endOf { session := Session.start cfg pr i id c } recs)
    (hon : p.online = true) (hd : p.session.disconnected = false)
    {r : Publisher} (hr : Publisher.Moves {} (seenOf c recs) r) (hdown : r.down = []) (hup : r.up = []) :
    r.waiting = [] := by
  have h := pubs_run (good := False) (isRun_of_run hrun) (fun h => h.elim) (fun h => h.elim)
    (pubs_start cfg i id c) (pub_start hr)
  rw [← hp] at h
  have hl : p.talking = true := by unfold Peer.talking; rw [hon, hd]; rfl
  have h2 := h.tidy
  have h1 := h.lines
  rw [hl] at h1
  cases hw : r.waiting with
  | nil => rfl
  | cons e ws =>
    have he : e ∈ r.waiting := by rw [hw]; simp
    obtain ⟨k, hk⟩ := Option.isSome_iff_exists.1 (h2 e he).2.2
    have hx : e ∈ r.waiting.filter (onPid k) := List.mem_filter.2 ⟨he, decide_eq_true hk⟩
    have hline := h1 k
    rw [hdown, hup, List.filter_nil, List.filter_nil] at hline
    generalize r.waiting.filter (onPid k) = w at hline hx
    cases hline with
    | free hq => cases hx
    | quiet hp hb hl hq => cases hl

/-- **C102**, QoS 2, exactly once, partial: if no first transmission of a message was lost with a
connection, and none made the broker end the connection, then the broker has passed on every message
with QoS 2 that it has read, exactly once and in order.  (In MQTT 5, as long as the hash by which the
broker recognizes repetitions does not depend on the mark for repetitions.)  Missing: messages whose
first transmission was lost, see `C102_exactly_once_false`. -/
theorem C102_exactly_once_partial {i : Str} {id : ClientId} {c : ConnParams}
    {sevs : List (Env × Global × SessEv)} {recs : List Rec}
    (hrun : ({ session := Session.start cfg pr i id c } : Peer).run cfg ext pr sevs = some recs)
    (hhash : pr = .v5 → HashIgnoresDup ext)
    (hacc : ∀ rec ∈ recs, ∀ p, rec.received = some (.publish p) → p.qosPid.qos = 2 → p.dup = false →
      rec.post.online = true ∧ rec.post.session.disconnected = false)
    {r : Publisher} (hr : Publisher.Moves {} (seenOf c recs) r) (hmiss : r.missed = [])
    (hup : r.up = []) :
    Along (IsPassed pr) (twosOf r.handed) (passedOn 2 (seenOf c recs)) := by
  have h := pubs_run (good := True) (isRun_of_run hrun) (fun _ => hhash) (fun _ rec hr p h1 h2 h3 => by
      obtain ⟨k1, k2⟩ := hacc rec hr p h1 h2 h3
      unfold Peer.talking
      rw [k1, k2]; rfl)
    (pubs_start cfg i id c) (pub_start hr)
  rw [passedOn_seen]
  obtain ⟨ms, h1, h2⟩ := h.full trivial hmiss
  rw [hup] at h2
  have h2 : twosOf r.handed = ms ++ [] := h2
  rw [h2, List.append_nil]
  exact h1

/-- **C102**, MQTT 3: if a connection is lost while the PUBCOMP for a message is on its way, the client
never gets another one: it keeps the message for ever, on every further connection it has to send
PUBREL again, and each time the broker reads it it ends the connection. -/
theorem C102_stuck {i : Str} {id : ClientId} {c c' : ConnParams}
    {sevs : List (Env × Global × SessEv)} {recs : List Rec}
    (hrun : ({ session := Session.start cfg .v3 i id c } : Peer).run cfg ext .v3 sevs = some recs)
    {obs1 obs2 : List Obs} (hobs : seenOf c recs = obs1 ++ .connected true c' :: obs2)
    {r1 r2 r3 : Publisher} (h1 : Publisher.Moves {} obs1 r1) {k : Pid} {code : Reason}
    (hlost : .pubcomp k code ∈ r1.down) (h2 : r1.sees (.connected true c') = some r2)
    (h3 : Publisher.Moves r2 obs2 r3) :
    (∃ p, p.qosPid = .level2 k ∧ (p, true) ∈ r3.waiting) ∧
    ∃ recs1 recs2, recs = recs1 ++ recs2 ∧ obs1 = seenOf c recs1 ∧
      ∀ rec ∈ recs2, rec.received = some (.pubrel k) →
        rec.post.online = false ∨ rec.post.session.disconnected = true := by
  cases obs1 with
  | nil => cases hobs
  | cons o obs1 =>
    unfold seenOf at hobs
    rw [List.cons_append, List.cons.injEq] at hobs
    obtain ⟨rfl, hobs⟩ := hobs
    obtain ⟨recs1, rec, recs2, rfl, rfl, hev, rfl⟩ := split_connected hobs
    obtain ⟨hrun1, hpre, hstep, hrun2⟩ := isRun_append.1 (isRun_of_run hrun)
    have ha := pubs_run (good := False) hrun1 (fun h => h.elim) (fun h => h.elim)
      (pubs_start cfg i id c) (pub_start h1)
    obtain ⟨p, hp, hw, hq⟩ := stuck_of_lost ha.lines hlost
    simp only [Publisher.sees, Option.some.injEq] at h2
    subst h2
    obtain ⟨r4, m1, m2⟩ := pub_moves_append h3
    have hs : Stuck k p rec.post.session.qos2 r4 := by
      refine stuck_settles.plain m1 (rest_plain rec) ?_
      rw [rest_sent]
      have hrd := reads (r := rec) (by rw [hpre]; exact hstep)
      cases hrd with
      | resume c'' he hq' hack hrt =>
        rw [hq', hpre]
        refine ⟨hq, hp, hw, ?_, ?_⟩
        · simp only
          rw [List.nil_append, filter_on, hack]; rfl
        · intro x hx hxk
          have : x ∈ (r1.waiting.map sentAgain).filter (InPkt.on k) := List.mem_filter.2 ⟨hx, hxk⟩
          rw [filter_sentAgain, hw, List.map_singleton, sentAgain_true hp] at this
          exact List.mem_singleton.1 this
      | other he' => exact absurd hev (he' _)
      | reject x hx => exact absurd hev (received_resume hx _)
      | one p k code m hx => exact absurd hev (received_resume hx _)
      | inUse p k prev hpr hx => exact absurd hev (received_resume hx _)
      | repeated p k hx => exact absurd hev (received_resume hx _)
      | late p k hx => exact absurd hev (received_resume hx _)
      | two p k code m hx => exact absurd hev (received_resume hx _)
      | release k code hx => exact absurd hev (received_resume hx _)
    obtain ⟨k1, k2⟩ := stuck_run hrun2 hs m2
    refine ⟨⟨p, hp, ?_⟩, recs1, rec :: recs2, rfl, rfl, fun rec' hr hx => ?_⟩
    · have : (p, true) ∈ r3.waiting.filter (onPid k) := by rw [k1.waiting]; simp
      exact (List.mem_filter.1 this).1
    · rcases List.mem_cons.1 hr with rfl | hr
      · exact absurd hev (received_resume hx _)
      · have := k2 rec' hr hx
        unfold Peer.talking at this
        rw [Bool.and_eq_false_iff, Bool.not_eq_false'] at this
        exact this

/-- **C102**, repetitions: if the hash by which the broker recognizes repetitions depends on the mark
for repetitions (as a hash of all the fields does), the broker does not recognize them.  After the
first transmission of a message with QoS 2 was answered, the client sends it again (marked as
repeated, and nothing else about this packet identifier in between): in MQTT 3 the broker ends the
connection; in MQTT 5 it does so, or answers that the packet identifier is in use. -/
theorem C102_repetition_refused {i : Str} {id : ClientId} {c : ConnParams}
    {sevs : List (Env × Global × SessEv)} {recs0 mid recs1 : List Rec} {first again : Rec}
    (hrun : ({ session := Session.start cfg pr i id c } : Peer).run cfg ext pr sevs =
      some (recs0 ++ first :: (mid ++ again :: recs1)))
    {p : Publish} {k : Pid} (hp : p.qosPid = .level2 k) (hd : p.dup = false)
    (hhash : ext.hash { p with dup := true } ≠ ext.hash p)
    (hfirst : first.received = some (.publish p)) {code : Reason}
    (hans : .pubrec k code ∈ first.res.out) (hcode : code.takes = true)
    (hmid : ∀ rec ∈ mid, rec.received ≠ some (.pubrel k) ∧
      ∀ q, rec.received = some (.publish q) → q.qosPid.pid? ≠ some k)
    (hagain : again.received = some (.publish { p with dup := true })) :
    again.post.online = false ∨ again.post.session.disconnected = true ∨
      pr = .v5 ∧ .pubrec k .packetIdentifierInUse ∈ again.res.out := by
  obtain ⟨_, _, h1, h2⟩ := isRun_append.1 (isRun_of_run hrun)
  rename_i hpre
  obtain ⟨h3, hpre2, h4, _⟩ := isRun_append.1 h2
  have hk := reads_first (reads (r := first) (by rw [hpre]; exact h1)) hfirst hp hd hans hcode
  have hkeep := keeps_known (k := k) h3 fun rec hr x hx hpx => by
    obtain ⟨m1, m2⟩ := hmid rec hr
    cases x with
    | publish q =>
      have := m2 q hx
      simp [InPkt.on, this]
    | pubrel j =>
      have : j ≠ k := fun e => m1 (by rw [hx, e])
      simp [InPkt.on, this]
    | _ => cases hpx
  rw [hk, ← hpre2] at hkeep
  obtain ⟨_, h5⟩ := reads_refused (reads (r := again) (by rw [hpre2]; exact h4)) hagain hp hkeep hhash
  rcases h5 with h5 | ⟨h5, h6⟩
  · unfold Peer.talking at h5
    rw [Bool.and_eq_false_iff, Bool.not_eq_false'] at h5
    rcases h5 with h5 | h5
    · exact .inl h5
    · exact .inr (.inl h5)
  · refine .inr (.inr ⟨h5, ?_⟩)
    have : .pubrec k .packetIdentifierInUse ∈ again.res.out.filter OutPkt.isAck := by rw [h6]; simp
    exact (List.mem_filter.1 this).1

/-! ## Examples -/

/-- All packets that are on their way arrive. -/
def Publisher.drain (r : Publisher) : Publisher := r.down.foldl Publisher.arrive { r with down := [] }

/-- The client publishes the message, if it has not done so before. -/
def Publisher.offer (r : Publisher) (p : Publish) : Publisher :=
  match p.qosPid.pid? with
  | some pid =>
    if p.dup = false ∧ r.waiting.all (fun e => decide (e.1.qosPid.pid? ≠ some pid)) = true then r.hand p
    else r
  | none => r

/-- A client and a network where everything arrives before the broker reads a PUBREL, and what the
broker has sent since then is lost with the connection.  The client publishes a message just before
the broker reads it, and these messages just before the first connection is lost.  In the end
everything arrives, or not. -/
def Publisher.follow (r : Publisher) (early : List Publish) (last : Bool) :
    List Obs → Option Publisher
  | [] => some (if last then r.drain else r)
  | .received (.publish p) :: obs =>
    ((r.offer p).sees (.received (.publish p))).bind fun r => r.follow early last obs
  | .received (.pubrel k) :: obs =>
    (r.drain.sees (.received (.pubrel k))).bind fun r => r.follow early last obs
  | .connected true c :: obs =>
    ((early.foldl Publisher.offer r).sees (.connected true c)).bind fun r => r.follow [] last obs
  | o :: obs => (r.sees o).bind fun r => r.follow early last obs

theorem pub_drain {r r' : Publisher} {obs : List Obs} (h : Publisher.Moves r.drain obs r') :
    Publisher.Moves r obs r' := by
  unfold Publisher.drain at h
  generalize hd : r.down = l at h
  induction l generalizing r with
  | nil =>
    have he : ({ r with down := [] } : Publisher) = r := by rw [← hd]
    rw [List.foldl_nil, he] at h
    exact h
  | cons o l ih =>
    refine .arrive hd ?_
    have h1 : (Publisher.arrive { r with down := l } o).down = l := by rw [pub_arrive_down]
    refine ih h1 ?_
    rw [pub_arrive_down]
    rw [List.foldl_cons, pub_arrive_down] at h
    exact h

theorem pub_offer {r r' : Publisher} {obs : List Obs} {p : Publish}
    (h : Publisher.Moves (r.offer p) obs r') : Publisher.Moves r obs r' := by
  unfold Publisher.offer at h
  split at h
  · rename_i pid hp
    split at h
    · rename_i hc
      refine .hand hp hc.1 (fun e he => ?_) h
      exact of_decide_eq_true (List.all_eq_true.1 hc.2 e he)
    · exact h
  · exact h

theorem pub_offers {r r' : Publisher} {obs : List Obs} {l : List Publish}
    (h : Publisher.Moves (l.foldl Publisher.offer r) obs r') : Publisher.Moves r obs r' := by
  induction l generalizing r with
  | nil => exact h
  | cons p l ih => exact pub_offer (ih h)

theorem pub_follow {r r' : Publisher} {early : List Publish} {last : Bool} {obs : List Obs}
    (h : r.follow early last obs = some r') : Publisher.Moves r obs r' := by
  induction obs generalizing r early with
  | nil =>
    cases h
    cases last
    · exact .done _
    · exact pub_drain (.done _)
  | cons o obs ih =>
    cases o with
    | received x =>
      cases x <;> (simp only [Publisher.follow, Option.bind_eq_some_iff] at h;
                   obtain ⟨r1, h1, h2⟩ := h)
      · exact pub_offer (.see h1 (ih h2))
      all_goals first | exact .see h1 (ih h2) | exact pub_drain (.see h1 (ih h2))
    | connected b c =>
      cases b <;> (simp only [Publisher.follow, Option.bind_eq_some_iff] at h;
                   obtain ⟨r1, h1, h2⟩ := h)
      · exact .see h1 (ih h2)
      · exact pub_offers (.see h1 (ih h2))
    | _ =>
      simp only [Publisher.follow, Option.bind_eq_some_iff] at h
      obtain ⟨r1, h1, h2⟩ := h
      exact .see h1 (ih h2)

theorem exExt_ignores : HashIgnoresDup exExt := fun _ _ => rfl

/-- A QoS 1 PUBLISH. -/
def exPub1With (topic : String) (pid : Pid) (dup : Bool) (payload : Bytes) : InPkt :=
  .publish { dup, qosPid := .level1 pid, retain := false, topic := str topic, payload }

/-- Two messages with QoS 2 and one with QoS 1; the connection is lost with the answers to them on their
way, and the client sends them again. -/
def exPubEvs : List (Env × Global × SessEv) :=
  [exPkt (exPub2 "a" 1 false [1]), exPkt (exPub1With "c" 2 false [3]), exPkt (exPub2 "b" 3 false [2]),
   exEv .lost, exEv (.resume {}), exPkt (exPub2 "a" 1 true [1]), exPkt (exPub1With "c" 2 true [3]),
   exPkt (exPub2 "b" 3 true [2]), exPkt (.pubrel 1), exPkt (.pubrel 3),
   exPkt (exPub1With "d" 4 false [4])]

/-- The messages with QoS 2 are repeated and passed on once, that with QoS 1 twice. -/
example (pr : Proto) : ∃ recs r, (exPeer pr).run {} exExt pr exPubEvs = some recs ∧
      Publisher.Moves {} (seenOf {} recs) r ∧ r.down = [] ∧ r.up = [] ∧ r.missed = [] ∧
      r.waiting = [] ∧ (∀ rec ∈ recs, ∀ p, rec.received = some (.publish p) → p.qosPid.qos = 2 →
        p.dup = false → rec.post.online = true ∧ rec.post.session.disconnected = false) ∧
      ((endOf (exPeer pr) recs).online && !(endOf (exPeer pr) recs).session.disconnected &&
        ((twosOf r.handed).map (·.payload) == [[1], [2]]) &&
        ((passedOn 2 (seenOf {} recs)).map (·.payload) == [[1], [2]]) &&
        ((onesOf r.handed).map (·.payload) == [[3], [4]]) &&
        ((passedOn 1 (seenOf {} recs)).map (·.payload) == [[3], [3], [4]])) = true := by
  have hall : (((exPeer pr).run {} exExt pr exPubEvs).any fun recs =>
      (({} : Publisher).follow [] true (seenOf {} recs)).any fun r =>
      decide (r.down = []) && decide (r.up = []) && decide (r.missed = []) && decide (r.waiting = []) &&
      (recs.all fun rec => (rec.received.isNone || rec.post.online) &&
        !rec.post.session.disconnected) &&
      ((endOf (exPeer pr) recs).online && !(endOf (exPeer pr) recs).session.disconnected &&
        ((twosOf r.handed).map (·.payload) == [[1], [2]]) &&
        ((passedOn 2 (seenOf {} recs)).map (·.payload) == [[1], [2]]) &&
        ((onesOf r.handed).map (·.payload) == [[3], [4]]) &&
        ((passedOn 1 (seenOf {} recs)).map (·.payload) == [[3], [3], [4]]))) = true := by
    cases pr <;> decide +kernel
  rw [Option.any_eq_true] at hall
  obtain ⟨recs, h1, h2⟩ := hall
  rw [Option.any_eq_true] at h2
  obtain ⟨r, h3, h4⟩ := h2
  rw [Bool.and_eq_true, Bool.and_eq_true, Bool.and_eq_true, Bool.and_eq_true, Bool.and_eq_true] at h4
  obtain ⟨⟨⟨⟨⟨k1, k2⟩, k3⟩, k4⟩, k5⟩, k6⟩ := h4
  refine ⟨recs, r, h1, pub_follow h3, of_decide_eq_true k1, of_decide_eq_true k2, of_decide_eq_true k3,
    of_decide_eq_true k4, fun rec hr p hp _ _ => ?_, k6⟩
  have := List.all_eq_true.1 k5 rec hr
  rw [hp] at this
  simpa using this

/-- **C102**, QoS 2, exactly once: false of the code.  The first transmission of a message is lost with
the connection; the client sends it again, marked as a repetition, and the broker answers it as if it
had passed it on.  The message is completed, but has not been passed on.  (Both protocols.) -/
theorem C102_exactly_once_false : ¬ ∀ (cfg : Config) (ext : Ext) (pr : Proto) (i : Str) (id : ClientId)
    (c : ConnParams) (sevs : List (Env × Global × SessEv)) (recs : List Rec) (r : Publisher),
    ({ session := Session.start cfg pr i id c } : Peer).run cfg ext pr sevs = some recs →
    HashIgnoresDup ext → Publisher.Moves {} (seenOf c recs) r → r.up = [] → r.waiting = [] →
    Along (IsPassed pr) (twosOf r.handed) (passedOn 2 (seenOf c recs)) := by
  intro hall
  have hrun : (((exPeer .v3).run {} exExt .v3 [exEv .lost, exEv (.resume {}),
      exPkt (exPub2 "a" 1 true [1]), exPkt (.pubrel 1)]).any fun recs =>
      (({} : Publisher).follow
        [{ dup := false, qosPid := .level2 1, retain := false, topic := str "a", payload := [1] }] true
        (seenOf {} recs)).any fun r =>
      decide (r.up = []) && decide (r.waiting = []) && decide ((twosOf r.handed).length = 1) &&
        decide ((passedOn 2 (seenOf {} recs)).length = 0)) = true := by decide +kernel
  rw [Option.any_eq_true] at hrun
  obtain ⟨recs, h1, h2⟩ := hrun
  rw [Option.any_eq_true] at h2
  obtain ⟨r, h3, h4⟩ := h2
  simp only [Bool.and_eq_true, decide_eq_true_eq] at h4
  have h := hall {} exExt .v3 (str "me") 7 {} _ recs r h1 exExt_ignores (pub_follow h3) h4.1.1.1 h4.1.1.2
  cases ht : twosOf r.handed with
  | nil => rw [ht] at h4; cases h4.1.2
  | cons p l =>
    rw [ht] at h
    cases hp : passedOn 2 (seenOf {} recs) with
    | nil => rw [hp] at h; cases h
    | cons m l => rw [hp] at h4; cases h4.2

/-- The same with MQTT 5. -/
example : (((exPeer .v5).run {} exExt .v5 [exEv .lost, exEv (.resume {}),
      exPkt (exPub2 "a" 1 true [1]), exPkt (.pubrel 1)]).any fun recs =>
      (({} : Publisher).follow
        [{ dup := false, qosPid := .level2 1, retain := false, topic := str "a", payload := [1] }] true
        (seenOf {} recs)).any fun r =>
      decide (r.up = []) && decide (r.waiting = []) && decide ((twosOf r.handed).length = 1) &&
        decide ((passedOn 2 (seenOf {} recs)).length = 0)) = true := by decide +kernel

/-- The connection is lost with PUBCOMP on its way. -/
def exStuckA : List (Env × Global × SessEv) :=
  [exPkt (exPub2 "a" 1 false [1]), exPkt (.pubrel 1), exEv .lost]

/-- Two further connections, on which the client sends PUBREL again. -/
def exStuckB : List (Env × Global × SessEv) :=
  [exEv (.resume {}), exPkt (.pubrel 1), exEv (.resume {}), exPkt (.pubrel 1)]

/-- PUBCOMP is lost with the connection; the message is still waiting after two more connections. -/
example : ∃ recs obs1 obs2 r1 r2 r3,
    (exPeer .v3).run {} exExt .v3 (exStuckA ++ exStuckB) = some recs ∧
    seenOf {} recs = obs1 ++ .connected true {} :: obs2 ∧ Publisher.Moves {} obs1 r1 ∧
    .pubcomp 1 .success ∈ r1.down ∧ r1.sees (.connected true {}) = some r2 ∧
    Publisher.Moves r2 obs2 r3 ∧ r3.waiting.map (·.2) = [true] := by
  have hall : (((exPeer .v3).run {} exExt .v3 (exStuckA ++ exStuckB)).any fun recs =>
      (({} : Publisher).follow [] false (seenOf {} (recs.take 3))).any fun r1 =>
      decide (.pubcomp 1 .success ∈ r1.down) &&
      ((r1.sees (.connected true {})).any fun r2 =>
        (r2.follow [] true ((recs.drop 3).flatMap Rec.obs).tail).any fun r3 =>
          decide (r3.waiting.map (·.2) = [true]))) = true := by decide +kernel
  rw [Option.any_eq_true] at hall
  obtain ⟨recs, h1, h2⟩ := hall
  rw [Option.any_eq_true] at h2
  obtain ⟨r1, h3, h4⟩ := h2
  rw [Bool.and_eq_true, Option.any_eq_true] at h4
  obtain ⟨h4, r2, h5, h6⟩ := h4
  rw [Option.any_eq_true] at h6
  obtain ⟨r3, h6, h7⟩ := h6
  have hev := rec_event h1
  refine ⟨recs, seenOf {} (recs.take 3), ((recs.drop 3).flatMap Rec.obs).tail, r1, r2, r3, h1, ?_,
    pub_follow h3, of_decide_eq_true h4, h5, pub_follow h6, of_decide_eq_true h7⟩
  cases hdrop : recs.drop 3 with
  | nil =>
    have := congrArg (List.drop 3) hev
    rw [← List.map_drop, hdrop] at this
    cases this
  | cons d rest =>
    have hd : d.ev = .resume {} := by
      have := congrArg (List.drop 3) hev
      rw [← List.map_drop, hdrop, List.map_cons] at this
      injection this with this _
      exact congrArg (fun x : Env × Global × SessEv => x.2.2) this
    rw [List.flatMap_cons, obs_resume hd, List.cons_append, List.tail_cons]
    show _ = Obs.connected false {} :: _ ++ _
    rw [List.cons_append]
    show Obs.connected false {} :: _ = _
    congr 1
    rw [show recs.flatMap Rec.obs = (recs.take 3 ++ recs.drop 3).flatMap Rec.obs by
      rw [List.take_append_drop], List.flatMap_append, hdrop, List.flatMap_cons, obs_resume hd]
    rfl

/-- A hash of all the fields, and of the mark for repetitions among them. -/
def exHashAll : Ext :=
  { hash := fun p => p.payload.length * 100 + p.topic.length * 2 + (if p.dup then 1 else 0)
    encLen := fun _ => 10 }

/-- The first transmission, a new connection, and the repetition. -/
def exAgainEvs : List (Env × Global × SessEv) :=
  [exPkt (exPub2 "a" 1 false [1]), exEv .lost, exEv (.resume {}), exPkt (exPub2 "a" 1 true [1])]

/-- MQTT 3: the broker ends the connection.  MQTT 5: it answers that the identifier is in use. -/
example (pr : Proto) : ∃ recs first mid again, (exPeer pr).run {} exHashAll pr exAgainEvs = some recs ∧
    recs = [] ++ first :: (mid ++ [again]) ∧
    (first.received = some (exPub2 "a" 1 false [1]) ∧
      again.received = some (exPub2 "a" 1 true [1]) ∧ (∀ rec ∈ mid, rec.received = none)) ∧
    (∃ code, .pubrec 1 code ∈ first.res.out ∧ code.takes = true) ∧
    (match pr with
      | .v3 => again.post.online = false ∧ again.res.out = []
      | .v5 => again.post.online = true ∧ again.res.out = [.pubrec 1 .packetIdentifierInUse]) := by
  have hall : (((exPeer pr).run {} exHashAll pr exAgainEvs).any fun recs =>
      match recs with
      | [a, b, c, d] => decide (a.received = some (exPub2 "a" 1 false [1])) &&
          decide (d.received = some (exPub2 "a" 1 true [1])) && decide (b.received = none) &&
          decide (c.received = none) &&
          (a.res.out.any fun o => match o with
            | .pubrec 1 code => code.takes
            | _ => false) &&
          (match pr with
            | .v3 => !d.post.online && decide (d.res.out = [])
            | .v5 => d.post.online && decide (d.res.out = [.pubrec 1 .packetIdentifierInUse]))
      | _ => false) = true := by cases pr <;> decide +kernel
  rw [Option.any_eq_true] at hall
  obtain ⟨recs, h1, h2⟩ := hall
  split at h2
  · rename_i a b c d
    simp only [Bool.and_eq_true, decide_eq_true_eq] at h2
    obtain ⟨⟨⟨⟨⟨k1, k2⟩, k3⟩, k4⟩, k5⟩, k6⟩ := h2
    refine ⟨_, a, [b, c], d, h1, rfl, ⟨k1, k2, ?_⟩, ?_, ?_⟩
    · intro rec hr
      simp only [List.mem_cons, List.not_mem_nil, or_false] at hr
      rcases hr with rfl | rfl
      · exact k3
      · exact k4
    · rw [List.any_eq_true] at k5
      obtain ⟨o, ho, h⟩ := k5
      split at h
      · exact ⟨_, ho, h⟩
      · cases h
    · cases pr
      · simpa using k6
      · simpa using k6
  · cases h2

/-! ## In the whole broker -/

/-- **C102** in the whole broker: what is passed on of the messages of a client that follows the
protocol, over all its connections since its session began. -/
theorem C102_broker {acts : List Act} (hrun : Reaches cfg ext acts w evs) {t : TaskId}
    {s : Session} {req : Request} (ho : w.owned t = some s) (hreq : w.request t = some req)
    {r : Publisher} (hr : Publisher.Moves {} (lifeOf w req.identifier evs) r) :
    (∃ ms, ms.Sublist (twosOf r.handed) ∧
      Along (IsPassed req.level.proto) ms (passedOn 2 (lifeOf w req.identifier evs))) ∧
    (∃ A B ms, onesOf r.handed = A ++ B ∧ (∀ p ∈ B, (p, false) ∈ r.waiting) ∧
      ms.Sublist (passedOn 1 (lifeOf w req.identifier evs)) ∧
      Along (IsPassed req.level.proto) A ms) ∧
    (w.onlineSession t = some s → s.disconnected = false → r.down = [] → r.up = [] →
      r.waiting = []) := by
  obtain ⟨p, ⟨i, id, c, sevs, recs, h1, h2, h3⟩, h4, h5⟩ := C68_alone hrun ho hreq
  have h2 : lifeOf w req.identifier evs = seenOf c recs := h2
  rw [h2] at hr ⊢
  refine ⟨C102_at_most_once h1 hr, C102_at_least_once h1 hr, fun hs hd hdown hup => ?_⟩
  have hp := h5 hs
  exact C102_completed h1 h3 (by rw [hp]) (by rw [hp]; exact hd) hr hdown hup

/-- The second client of `exRest` publishes two messages with QoS 1, and they are completed. -/
example : ∃ w evs, Reaches {} exExt (exRest .v500 none) w evs ∧
    (match w.onlineSession 1, w.request 1 with
      | some s, some req => !s.disconnected && req.level.proto == .v5 &&
          (({} : Publisher).follow [] true (lifeOf w req.identifier evs)).any fun r =>
            decide (r.down = []) && decide (r.up = []) && (r.handed.map (·.payload) == [[1], [2]]) &&
            ((passedOn 1 (lifeOf w req.identifier evs)).map (·.payload) == [[1], [2]])
      | _, _ => false) = true :=
  reaches_of (cfg := {}) (acts := exRest .v500 none)
    (P := fun (r : World × List Event) => match r.1.onlineSession 1, r.1.request 1 with
      | some s, some req => !s.disconnected && req.level.proto == .v5 &&
          (({} : Publisher).follow [] true (lifeOf r.1 req.identifier r.2)).any fun r' =>
            decide (r'.down = []) && decide (r'.up = []) && (r'.handed.map (·.payload) == [[1], [2]]) &&
            ((passedOn 1 (lifeOf r.1 req.identifier r.2)).map (·.payload) == [[1], [2]])
      | _, _ => false) (by decide +kernel)

end Akasa
