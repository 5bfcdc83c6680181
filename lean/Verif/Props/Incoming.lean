import Verif.Proof.Qos2
import Verif.Props.Retain
/-!
# Properties of received messages (C19 – C23, C25)

Runs are those of one session over any number of connections: `Peer.run` with any list of events,
each happening in any state of the tables shared with other sessions.
-/
namespace Akasa

/-! ## examples: tables, configuration and a run -/

/-- Empty shared tables, everybody registered. -/
def exGlobal : Global :=
  { route := RouteTable.empty, retain := RetainTable.empty, registered := fun _ => true }

/-- A hash that depends on topic and payload. -/
def exExt : Ext :=
  { hash := fun p => p.payload.length * 100 + p.topic.length, encLen := fun _ => 10 }

/-- A QoS 2 PUBLISH. -/
def exPub2 (topic : String) (pid : Pid) (dup : Bool) (payload : Bytes) : InPkt :=
  .publish { dup, qosPid := .level2 pid, retain := false, topic := str topic, payload }

/-- A connected session with nothing in it. -/
def exPeer (pr : Proto) : Peer := { session := Session.start {} pr (str "me") 7 {} }

/-- An event with the empty tables. -/
def exEv (e : SessEv) : Env × Global × SessEv := ({}, exGlobal, e)

/-- A packet event. -/
def exPkt (p : InPkt) : Env × Global × SessEv := exEv (.packet (Clock.const 0) 10 p)

/-- First transmission, retransmission after a reconnect, another identifier, release, reuse. -/
def exQos2Evs : List (Env × Global × SessEv) :=
  [exPkt (exPub2 "a" 1 false [1]), exPkt (exPub2 "b" 2 false [1, 2]), exEv .lost, exEv (.resume {}),
   exPkt (exPub2 "a" 1 true [1]), exPkt (exPub2 "a" 1 true [1]), exPkt (.pubrel 1),
   exPkt (exPub2 "c" 1 false [])]

/-! ## C19 -/

section
variable {cfg : Config} {ext : Ext} {pr : Proto}

theorem routedFor_cons (pid : Pid) (r : Rec) (l : List Rec) :
    routedFor pid (r :: l) = (if r.qos2Pid = some pid then r.res.routed else []) ++
      routedFor pid l := by
  unfold routedFor
  by_cases h : r.qos2Pid = some pid <;> simp [h]

theorem routedFor_append (pid : Pid) (a b : List Rec) :
    routedFor pid (a ++ b) = routedFor pid a ++ routedFor pid b := by
  simp [routedFor]

theorem routedFor_le {p : Peer} {b : List Rec} (hrun : IsRun cfg ext pr p b) (pid : Pid)
    (hrel : ∀ r ∈ b, r.released ≠ some pid) :
    (routedFor pid b).length ≤ if (p.session.qos2.get pid).isSome then 0 else 1 := by
  induction b generalizing p with
  | nil => simp [routedFor]
  | cons r rs ih =>
    obtain ⟨hpre, hstep, hrest⟩ := hrun
    subst hpre
    have hih := ih hrest (fun x hx => hrel x (by simp [hx]))
    rw [routedFor_cons, List.length_append]
    cases q2_cases hstep with
    | same ha hr hq hn =>
      rw [hq] at hih
      by_cases hp : r.qos2Pid = some pid
      · rw [if_pos hp, hn pid hp]; simpa using hih
      · rw [if_neg hp]; simpa using hih
    | repeated p pid' hp hl hd hg hq hn ha =>
      rw [hq] at hih
      rw [hn]; simpa using hih
    | lostFirst p pid' hp hl hd hg hq hn ha hlen =>
      rw [hq, FMap.get_insert] at hih
      rw [hn]
      by_cases e : pid' = pid
      · rw [if_pos e] at hih
        have : (routedFor pid rs).length = 0 := by simpa using hih
        simp [this]
      · rw [if_neg e] at hih
        simpa using hih
    | route p pid' m hp hl hd hg hq hn hm ha hlen =>
      rw [hq, FMap.get_insert] at hih
      rw [hn, qos2Pid_of hp hl]
      by_cases e : pid' = pid
      · subst e
        rw [if_pos rfl] at hih
        have : (routedFor pid' rs).length = 0 := by simpa using hih
        simp [this, hg]
      · rw [if_neg e] at hih
        simpa [e] using hih
    | release pid' hp ha hr hq hn =>
      have hne : pid' ≠ pid := by
        intro e; exact hrel r (by simp) (by rw [hr, e])
      rw [hq, FMap.get_erase_ne _ hne] at hih
      rw [hn]; simpa using hih

end

/-- **C19.**  In any stretch of the life of a session (either protocol, any number of connections)
in which the identifier is not released by a PUBREL, the QoS 2 messages received with that
identifier are handed to routing at most once. -/
theorem C19_qos2_at_most_once {cfg : Config} {ext : Ext} {pr : Proto} {p : Peer}
    {evs : List (Env × Global × SessEv)} {recs : List Rec}
    (hrun : p.run cfg ext pr evs = some recs) {a b c : List Rec} (hsplit : recs = a ++ b ++ c)
    (pid : Pid) (hrel : ∀ r ∈ b, r.released ≠ some pid) :
    (routedFor pid b).length ≤ 1 := by
  have h := isRun_of_run hrun
  rw [hsplit, List.append_assoc, isRun_append, isRun_append] at h
  have := routedFor_le h.2.1 pid hrel
  split at this <;> omega

/-- In the example run identifier 1 is used twice with a release in between, and each use is passed
on once, although five packets with it arrive. -/
example : ((exPeer .v5).run {} exExt .v5 exQos2Evs).map (fun recs =>
      (recs.map (·.qos2Pid), recs.map (·.released), (routedFor 1 (recs.take 6)).map (·.payload),
       (routedFor 1 (recs.drop 6)).map (·.payload))) =
    some ([some 1, some 2, none, none, some 1, some 1, none, some 1],
      [none, none, none, none, none, none, some 1, none], [[1]], [[]]) := by decide

/-! ## C20 -/

/-- What C20 demands of a session from its start: after a PUBREC without error for an identifier,
exactly one message with that identifier has been passed on since it was last released. -/
def PubrecMeansRouted (cfg : Config) (ext : Ext) (pr : Proto) (identifier : Str) (id : ClientId)
    (cp : ConnParams) : Prop :=
  ∀ evs recs, ({ session := Session.start cfg pr identifier id cp } : Peer).run cfg ext pr evs =
      some recs →
    ∀ a b r c pid, recs = a ++ b ++ r :: c → (a = [] ∨ ∃ a' x, a = a' ++ [x] ∧ x.released = some pid) →
      (∀ x ∈ b, x.released ≠ some pid) → r.accepted = some pid →
      ∃ m, routedFor pid (b ++ [r]) = [m]

/-- The full C20 is false of the code: a first QoS 2 PUBLISH that has the DUP flag set (its first
transmission was lost) is acknowledged but never passed on. -/
theorem C20_false : ¬ ∀ cfg ext pr identifier id cp, PubrecMeansRouted cfg ext pr identifier id cp := by
  intro h
  have key := h {} exExt .v5 (str "me") 7 {} [exPkt (exPub2 "a" 1 true [1])] _ rfl [] [] _ [] 1 rfl
    (.inl rfl) (by simp) (by decide)
  obtain ⟨m, hm⟩ := key
  have hl : _ = 1 := congrArg List.length hm
  exact absurd hl (by decide)

section
variable {cfg : Config} {ext : Ext} {pr : Proto}

/-- The accepted packets with an identifier. -/
def acceptedFor (pid : Pid) (l : List Rec) : List Rec :=
  l.filter fun r => decide (r.accepted = some pid)

theorem accepted_facts {p : Peer} {b : List Rec} (hrun : IsRun cfg ext pr p b) (pid : Pid)
    (h0 : p.session.qos2.get pid = none) (hrel : ∀ r ∈ b, r.released ≠ some pid) :
    (acceptedFor pid b = [] → (endOf p b).session.qos2.get pid = none ∧ routedFor pid b = []) ∧
    (∀ r0 l, acceptedFor pid b = r0 :: l → ∃ p0, r0.publish? = some p0 ∧
      (endOf p b).session.qos2.get pid = some (ext.hash p0) ∧
      (∀ r ∈ acceptedFor pid b, ∃ p, r.publish? = some p ∧ ext.hash p = ext.hash p0) ∧
      (p0.dup = false → ∃ m, r0.res.routed = [m] ∧ routedFor pid b = [m] ∧
        m.payload = p0.payload ∧ m.qos = 2 ∧ m.retain = p0.retain ∧
        (p0.topic ≠ [] → m.topic = p0.topic))) := by
  induction b using snoc_induction with
  | nil => exact ⟨fun _ => ⟨h0, rfl⟩, fun r0 l h => by simp [acceptedFor] at h⟩
  | snoc b r ih =>
    rw [isRun_append] at hrun
    obtain ⟨hb, hpre, hstep, _⟩ := hrun
    obtain ⟨ih1, ih2⟩ := ih hb (fun x hx => hrel x (by simp [hx]))
    have hend : endOf p (b ++ [r]) = r.post := by rw [endOf_append]; rfl
    rw [hend, routedFor_append, routedFor_cons, show routedFor pid [] = [] from rfl,
      List.append_nil]
    have hacc : acceptedFor pid (b ++ [r]) = acceptedFor pid b ++
        (if r.accepted = some pid then [r] else []) := by
      unfold acceptedFor
      by_cases e : r.accepted = some pid <;> simp [e]
    rw [hacc]
    rw [← hpre] at hstep ih1 ih2
    have keep : r.accepted ≠ some pid → r.post.session.qos2.get pid = r.pre.session.qos2.get pid →
        (r.qos2Pid = some pid → r.res.routed = []) →
        (acceptedFor pid b ++ (if r.accepted = some pid then [r] else []) = [] →
          r.post.session.qos2.get pid = none ∧
          (routedFor pid b ++ if r.qos2Pid = some pid then r.res.routed else []) = []) ∧
        (∀ r0 l, acceptedFor pid b ++ (if r.accepted = some pid then [r] else []) = r0 :: l →
          ∃ p0, r0.publish? = some p0 ∧
          r.post.session.qos2.get pid = some (ext.hash p0) ∧
          (∀ x ∈ acceptedFor pid b ++ (if r.accepted = some pid then [r] else []),
            ∃ p, x.publish? = some p ∧ ext.hash p = ext.hash p0) ∧
          (p0.dup = false → ∃ m, r0.res.routed = [m] ∧
            (routedFor pid b ++ if r.qos2Pid = some pid then r.res.routed else []) = [m] ∧
            m.payload = p0.payload ∧ m.qos = 2 ∧ m.retain = p0.retain ∧
            (p0.topic ≠ [] → m.topic = p0.topic))) := by
      intro h1 h2 h3
      have h4 : (if r.qos2Pid = some pid then r.res.routed else []) = [] := by
        split
        · exact h3 ‹_›
        · rfl
      rw [if_neg h1, h4, h2, List.append_nil, List.append_nil]
      exact ⟨ih1, ih2⟩
    cases q2_cases hstep with
    | same ha hr hq hn => exact keep (by rw [ha]; simp) (by rw [hq]) (hn pid)
    | release pid' hp ha hr hq hn =>
      have hne : pid' ≠ pid := by
        intro e; exact hrel r (by simp) (by rw [hr, e])
      exact keep (by rw [ha]; simp) (by rw [hq, FMap.get_erase_ne _ hne]) (fun _ => hn)
    | repeated p' pid' hp hl hd hg hq hn ha =>
      by_cases e : pid' = pid
      · subst e
        rw [if_pos ha, hn, hq]
        constructor
        · intro h; simp at h
        · intro r0 l h
          cases hacc0 : acceptedFor pid' b with
          | nil =>
            have := (ih1 hacc0).1
            rw [this] at hg; cases hg
          | cons r1 l1 =>
            rw [hacc0] at h
            simp only [List.cons_append, List.cons.injEq] at h
            obtain ⟨rfl, _⟩ := h
            obtain ⟨p0, e1, e2, e3, e4⟩ := ih2 r1 l1 hacc0
            refine ⟨p0, e1, e2, ?_, ?_⟩
            · intro x hx
              rcases List.mem_append.mp hx with h | h
              · exact e3 x (by rw [hacc0]; exact h)
              · simp at h; subst h
                refine ⟨p', hp, ?_⟩
                rw [hg] at e2; exact Option.some.inj e2
            · intro hdup
              obtain ⟨m, f1, f2, f3⟩ := e4 hdup
              exact ⟨m, f1, by rw [f2]; simp, f3⟩
      · exact keep (by rw [ha]; simpa using e) (by rw [hq]) (fun _ => hn)
    | lostFirst p' pid' hp hl hd hg hq hn ha hlen =>
      by_cases e : pid' = pid
      · subst e
        rw [if_pos ha, hn, hq, FMap.get_insert_self]
        constructor
        · intro h; simp at h
        · intro r0 l h
          cases hacc0 : acceptedFor pid' b with
          | nil =>
            rw [hacc0] at h
            simp only [List.nil_append, List.cons.injEq] at h
            obtain ⟨rfl, _⟩ := h
            refine ⟨p', hp, rfl, ?_, ?_⟩
            · intro x hx; simp at hx; subst hx; exact ⟨p', hp, rfl⟩
            · intro hdup; rw [hd] at hdup; cases hdup
          | cons r1 l1 =>
            obtain ⟨p0, _, e2, _⟩ := ih2 r1 l1 hacc0
            rw [e2] at hg; cases hg
      · exact keep (by rw [ha]; simpa using e) (by rw [hq, FMap.get_insert_ne _ _ e]) (fun _ => hn)
    | route p' pid' m hp hl hd hg hq hn hm ha hlen =>
      by_cases e : pid' = pid
      · subst e
        rw [if_pos ha, hn, hq, FMap.get_insert_self, qos2Pid_of hp hl]
        constructor
        · intro h; simp at h
        · intro r0 l h
          cases hacc0 : acceptedFor pid' b with
          | nil =>
            rw [hacc0] at h
            simp only [List.nil_append, List.cons.injEq] at h
            obtain ⟨rfl, _⟩ := h
            refine ⟨p', hp, rfl, ?_, ?_⟩
            · intro x hx; simp at hx; subst hx; exact ⟨p', hp, rfl⟩
            · intro _
              rw [(ih1 hacc0).2]
              exact ⟨m, hn, by simp, hm⟩
          | cons r1 l1 =>
            obtain ⟨p0, _, e2, _⟩ := ih2 r1 l1 hacc0
            rw [e2] at hg; cases hg
      · refine keep (by rw [ha]; simpa using e) (by rw [hq, FMap.get_insert_ne _ _ e]) ?_
        intro h; rw [qos2Pid_of hp hl] at h; exact absurd (Option.some.inj h) e

/-- Right after a release the identifier is not stored. -/
theorem released_get {r : Rec} {pid : Pid}
    (hs : r.pre.step cfg ext pr r.env r.before r.ev = some (r.post, r.res))
    (h : r.released = some pid) : r.post.session.qos2.get pid = none := by
  cases q2_cases hs with
  | same ha hr hq hn => rw [hr] at h; cases h
  | repeated p pid' hp hl hd hg hq hn ha =>
    rw [released_none] at h
    · cases h
    · intro pid' hc; simp [Rec.publish?, hc] at hp
  | lostFirst p pid' hp hl hd hg hq hn ha hlen =>
    rw [released_none] at h
    · cases h
    · intro pid' hc; simp [Rec.publish?, hc] at hp
  | route p pid' m hp hl hd hg hq hn hm ha hlen =>
    rw [released_none] at h
    · cases h
    · intro pid' hc; simp [Rec.publish?, hc] at hp
  | release pid' hp ha hr hq hn =>
    rw [hr] at h; cases h
    rw [hq, FMap.get_erase_self]

theorem start_qos2 (cfg : Config) (pr : Proto) (identifier : Str) (id : ClientId) (cp : ConnParams) :
    (Session.start cfg pr identifier id cp).qos2 = [] := by cases pr <;> rfl

theorem start_aliases (cfg : Config) (pr : Proto) (identifier : Str) (id : ClientId)
    (cp : ConnParams) : (Session.start cfg pr identifier id cp).aliases = [] := by cases pr <;> rfl

end

/-- **C20, partial**: whenever a QoS 2 PUBLISH is answered with a PUBREC without error and the first
such PUBLISH accepted since the identifier was last released did not have the DUP flag, then since
that release exactly one message with the identifier was passed on: the one of that first packet,
and the packet answered now has the same content as far as the hash tells.  Missing: first
transmissions with the DUP flag, for which it is false (`C20_false`). -/
theorem C20_pubrec_means_routed_partial {cfg : Config} {ext : Ext} {pr : Proto} {identifier : Str}
    {id : ClientId} {cp : ConnParams} {evs : List (Env × Global × SessEv)} {recs : List Rec}
    (hrun : ({ session := Session.start cfg pr identifier id cp } : Peer).run cfg ext pr evs =
      some recs)
    {a b c : List Rec} {r : Rec} (hsplit : recs = a ++ b ++ r :: c) {pid : Pid}
    (ha : a = [] ∨ ∃ a' x, a = a' ++ [x] ∧ x.released = some pid)
    (hb : ∀ x ∈ b, x.released ≠ some pid) (hr : r.accepted = some pid)
    {r0 : Rec} {p0 : Publish}
    (h0 : (b ++ [r]).find? (fun x => decide (x.accepted = some pid)) = some r0)
    (hp0 : r0.publish? = some p0) (hdup : p0.dup = false) :
    ∃ m, routedFor pid (b ++ [r]) = [m] ∧ r0.res.routed = [m] ∧
      m.payload = p0.payload ∧ m.qos = 2 ∧ m.retain = p0.retain ∧
      (p0.topic ≠ [] → m.topic = p0.topic) ∧
      ∃ p, r.publish? = some p ∧ ext.hash p = ext.hash p0 := by
  have h := isRun_of_run hrun
  have e : a ++ b ++ r :: c = a ++ ((b ++ [r]) ++ c) := by simp
  rw [hsplit, e, isRun_append, isRun_append] at h
  obtain ⟨hA, hBr, _⟩ := h
  have hget : (endOf ({ session := Session.start cfg pr identifier id cp } : Peer) a).session.qos2.get pid
      = none := by
    rcases ha with rfl | ⟨a', x, rfl, hx⟩
    · show (Session.start cfg pr identifier id cp).qos2.get pid = none
      rw [start_qos2]; rfl
    · rw [isRun_append] at hA
      obtain ⟨_, hpre, hst, _⟩ := hA
      rw [endOf_append]
      show x.post.session.qos2.get pid = none
      rw [← hpre] at hst
      exact released_get hst hx
  have hrelr : r.released ≠ some pid := by
    intro hc
    obtain ⟨p, hp⟩ : ∃ p, r.publish? = some p := by
      cases hq : r.publish? with
      | some p => exact ⟨p, rfl⟩
      | none => rw [accepted_none_of_publish? hq] at hr; cases hr
    rw [released_none] at hc
    · cases hc
    · intro pid' hc; simp [Rec.publish?, hc] at hp
  have hB : ∀ x ∈ b ++ [r], x.released ≠ some pid := by
    intro x hx
    rcases List.mem_append.mp hx with h | h
    · exact hb x h
    · simp at h; subst h; exact hrelr
  have hfacts := (accepted_facts hBr pid hget hB).2
  have hhead : (acceptedFor pid (b ++ [r])).head? = some r0 := by
    rw [← h0]; unfold acceptedFor; rw [List.head?_filter]
  cases hacc : acceptedFor pid (b ++ [r]) with
  | nil => rw [hacc] at hhead; cases hhead
  | cons r1 l =>
    rw [hacc] at hhead
    simp only [List.head?_cons, Option.some.injEq] at hhead
    subst hhead
    obtain ⟨p1, e1, _, e3, e4⟩ := hfacts r1 l hacc
    rw [hp0] at e1; cases e1
    obtain ⟨m, f1, f2, f3, f4, f5, f6⟩ := e4 hdup
    refine ⟨m, f2, f1, f3, f4, f5, f6, e3 r ?_⟩
    unfold acceptedFor
    rw [List.mem_filter]
    exact ⟨by simp, by simpa using hr⟩

/-- The hypotheses are met at the second retransmission of the example run (`a = []`, `b` the first
five steps, `r` the sixth). -/
example : ((exPeer .v5).run {} exExt .v5 exQos2Evs).map (fun recs =>
      (recs.map (·.accepted), (recs.take 6).all (fun x => decide (x.released ≠ some 1)),
       (((recs.take 6).find? fun x => decide (x.accepted = some 1)).bind (·.publish?)).map (·.dup))) =
    some ([some 1, some 2, none, none, some 1, some 1, none, some 1], true, some false) := by decide

/-! ## C21 -/

section
variable {cfg : Config} {ext : Ext} {pr : Proto}

theorem unreleased_snoc (l : List Rec) (r : Rec) :
    unreleased (l ++ [r]) =
      match r.accepted with
      | some pid => if pid ∈ unreleased l then unreleased l else pid :: unreleased l
      | none =>
        match r.released with
        | some pid => (unreleased l).filter fun x => x ≠ pid
        | none => unreleased l := by
  unfold unreleased
  rw [List.foldl_append]; rfl

theorem keys_insert_none {m : FMap Pid Nat} {k v : Nat} (h : m.get k = none) :
    (m.insert k v).keys = k :: m.keys := by
  simp [FMap.insert, FMap.erase_eq_self h, FMap.keys]

theorem keys_erase (m : FMap Pid Nat) (k : Pid) :
    (m.erase k).keys = m.keys.filter fun x => x ≠ k := by
  unfold FMap.erase FMap.keys
  rw [List.filter_map]
  rfl

/-- The stored identifiers are the unreleased ones. -/
theorem unreleased_eq {p : Peer} (h0 : p.session.qos2 = []) {l : List Rec}
    (hrun : IsRun cfg ext pr p l) : (endOf p l).session.qos2.keys = unreleased l := by
  induction l using snoc_induction with
  | nil => show p.session.qos2.keys = []; rw [h0]; rfl
  | snoc l r ih =>
    rw [isRun_append] at hrun
    obtain ⟨hl, hpre, hst, _⟩ := hrun
    have ih := ih hl
    rw [← hpre] at ih hst
    rw [endOf_append, unreleased_snoc, ← ih]
    show r.post.session.qos2.keys = _
    cases q2_cases hst with
    | same ha hr hq hn => rw [ha, hr, hq]
    | repeated p' pid' hp hl hd hg hq hn ha =>
      rw [ha, hq]
      simp only
      rw [if_pos ((FMap.get_isSome_iff _ _).mp (by rw [hg]; rfl))]
    | lostFirst p' pid' hp hl hd hg hq hn ha hlen =>
      rw [ha, hq, keys_insert_none hg]
      simp only
      rw [if_neg ((FMap.get_eq_none_iff _ _).mp hg)]
    | route p' pid' m hp hl hd hg hq hn hm ha hlen =>
      rw [ha, hq, keys_insert_none hg]
      simp only
      rw [if_neg ((FMap.get_eq_none_iff _ _).mp hg)]
    | release pid' hp ha hr hq hn =>
      rw [ha, hr, hq, keys_erase]

theorem unreleased_le {p : Peer} (h0 : p.session.qos2 = []) {l : List Rec}
    (hrun : IsRun cfg ext .v5 p l) : (endOf p l).session.qos2.length ≤ cfg.maxInflightServer := by
  induction l using snoc_induction with
  | nil => show p.session.qos2.length ≤ _; rw [h0]; simp
  | snoc l r ih =>
    rw [isRun_append] at hrun
    obtain ⟨hl, hpre, hst, _⟩ := hrun
    have ih := ih hl
    rw [← hpre] at ih hst
    rw [endOf_append]
    show r.post.session.qos2.length ≤ _
    cases q2_cases hst with
    | same ha hr hq hn => rw [hq]; exact ih
    | repeated p' pid' hp hl hd hg hq hn ha => rw [hq]; exact ih
    | lostFirst p' pid' hp hl hd hg hq hn ha hlen =>
      rw [hq, FMap.length_insert_of_none hg]; exact hlen rfl
    | route p' pid' m hp hl hd hg hq hn hm ha hlen =>
      rw [hq, FMap.length_insert_of_none hg]; exact hlen rfl
    | release pid' hp ha hr hq hn =>
      rw [hq]; exact Nat.le_trans (FMap.length_erase_le _ _) ih

end

/-- **C21, bound.**  An MQTT 5 session never has more accepted and unreleased incoming QoS 2
identifiers than the receive maximum of the server, over all its connections. -/
theorem C21_unreleased_bounded {cfg : Config} {ext : Ext} {identifier : Str} {id : ClientId}
    {cp : ConnParams} {evs : List (Env × Global × SessEv)} {recs : List Rec}
    (hrun : ({ session := Session.start cfg .v5 identifier id cp } : Peer).run cfg ext .v5 evs =
      some recs) {a c : List Rec} (hsplit : recs = a ++ c) :
    (unreleased a).length ≤ cfg.maxInflightServer := by
  have h := isRun_of_run hrun
  rw [hsplit, isRun_append] at h
  rw [← unreleased_eq (start_qos2 ..) h.1]
  have := unreleased_le (start_qos2 cfg .v5 identifier id cp) h.1
  simpa [FMap.keys] using this

/-- **C21, rejection.**  A QoS 2 PUBLISH with a new identifier that arrives when the receive maximum
is exhausted is not passed on and the connection is ended with a DISCONNECT. -/
theorem C21_excess_rejected {cfg : Config} {ext : Ext} {identifier : Str} {id : ClientId}
    {cp : ConnParams} {evs : List (Env × Global × SessEv)} {recs : List Rec}
    (hrun : ({ session := Session.start cfg .v5 identifier id cp } : Peer).run cfg ext .v5 evs =
      some recs) {a c : List Rec} {r : Rec} (hsplit : recs = a ++ r :: c) {pid : Pid}
    (hfull : cfg.maxInflightServer ≤ (unreleased a).length) (hnew : pid ∉ unreleased a)
    (hr : r.qos2Pid = some pid) : r.rejects := by
  have h := isRun_of_run hrun
  rw [hsplit, isRun_append] at h
  obtain ⟨hA, hpre, hst, _⟩ := h
  rw [← unreleased_eq (start_qos2 ..) hA, ← hpre] at hfull hnew
  have hlen : cfg.maxInflightServer ≤ r.pre.session.qos2.length := by
    simpa [FMap.keys] using hfull
  have hget := (FMap.get_eq_none_iff _ _).mpr hnew
  rw [← hpre] at hst
  obtain ⟨p, hp, hl⟩ : ∃ p, r.publish? = some p ∧ p.qosPid = .level2 pid := by
    unfold Rec.qos2Pid at hr
    split at hr
    · rename_i p hp
      split at hr
      · cases hr; exact ⟨p, hp, ‹_›⟩
      · cases hr
    · cases hr
  have hrec : r.received = some (.publish p) := by
    unfold Rec.publish? at hp
    split at hp
    · cases hp; assumption
    · cases hp
  obtain ⟨n, r0, st⟩ := step_received hst hrec
  have hc := handle_publish_cases st.handled
  have h1 := st.routed
  have h2 := st.outFail
  have h3 := st.core
  cases hc with
  | rejectV5 hpr s' hs' code =>
    refine ⟨h1, ⟨code, h2 (.inr ⟨rfl, ?_⟩)⟩, ?_⟩
    · simp [failV5, Session.disconnected]
    · rw [ident_disc (ident_of_core h3)]; simp [failV5, Session.disconnected]
  | rejectV3 hpr => cases hpr
  | inUse hpr s1 topic pid' prev hres hl' hg hne =>
    rw [hl] at hl'; cases hl'; rw [hget] at hg; cases hg
  | repeated s1 topic pid' hres hl' hd hg =>
    rw [hl] at hl'; cases hl'; rw [hget] at hg; cases hg
  | lostFirst s1 topic pid' hres hl' hd hg hlen' => have := hlen' rfl; omega
  | route2 s1 topic pid' s' g' n' hres hl' hd hg hlen' hsend => have := hlen' rfl; omega
  | route01 s1 topic s' g' n' hres hl' hsend => rw [hl] at hl'; exact absurd rfl hl'

/-- With a receive maximum of 2, the third identifier is rejected. -/
example : ((exPeer .v5).run { maxInflightServer := 2 } exExt .v5
      [exPkt (exPub2 "a" 1 false [1]), exPkt (exPub2 "b" 2 false [1, 2]),
       exPkt (exPub2 "c" 3 false [3])]).map (fun recs =>
      (unreleased (recs.take 2), recs.map (·.qos2Pid), recs.map (·.res.out),
       recs.map (·.res.routed.length))) =
    some ([2, 1], [some 1, some 2, some 3],
      [[.pubrec 1 .noMatchingSubscribers], [.pubrec 2 .noMatchingSubscribers],
       [.disconnect .receiveMaximumExceeded]], [1, 1, 0]) := by decide

end Akasa
