import Verif.Spec.Alias
import Verif.Proof.Step
import Verif.Proof.PendingOrder
import Verif.Proof.Incoming
/-! Outgoing topic aliases: the table and the client's view of it. -/
namespace Akasa

/-- The alias table is consistent and the client's bindings `d` agree with it. -/
structure AInv (max : Nat) (d : FMap Nat Str) (t : AliasTable) : Prop where
  back : ∀ topic a, t.byTopic.get topic = some a → ∃ k, t.byAlias.get a = some (topic, k)
  forth : ∀ a topic k, t.byAlias.get a = some (topic, k) →
    t.byTopic.get topic = some a ∧ 1 ≤ a ∧ a ≤ max ∧ d.get a = some topic
  wf : t.byAlias.WF
  len : t.byAlias.length ≤ max

theorem AInv.empty (max : Nat) : AInv max [] {} where
  back := by intro t a h; cases h
  forth := by intro a t k h; cases h
  wf := FMap.wf_nil
  len := Nat.zero_le _

theorem oldest_mem {m : FMap Nat (Str × Nat)} (h : m ≠ []) :
    ∃ e, AliasTable.oldest m = some e ∧ e ∈ m := by
  induction m with
  | nil => exact absurd rfl h
  | cons e es ih =>
    unfold AliasTable.oldest
    by_cases hes : es = []
    · subst hes; exact ⟨e, rfl, by simp⟩
    · obtain ⟨m, h1, h2⟩ := ih hes
      rw [h1]
      simp only
      split
      · exact ⟨e, rfl, by simp⟩
      · exact ⟨m, rfl, by simp [h2]⟩

theorem choose_spec {max : Nat} {d : FMap Nat Str} {t : AliasTable} (h : AInv max d t)
    (hmax : max ≠ 0) :
    1 ≤ t.choose max ∧ t.choose max ≤ max ∧
    (t.byAlias.get (t.choose max) = none → t.byAlias.length < max) := by
  unfold AliasTable.choose
  by_cases hlen : t.byAlias.length < max
  · rw [if_pos hlen]
    cases hf : (List.range' 1 max).find? fun a => !t.byAlias.contains a with
    | some a =>
      have := List.mem_of_find?_eq_some hf
      rw [List.mem_range'_1] at this
      simp only [Option.getD_some]
      exact ⟨by omega, by omega, fun _ => hlen⟩
    | none => exact ⟨Nat.le_refl _, by simp only [Option.getD_none]; omega, fun _ => hlen⟩
  · rw [if_neg hlen]
    have hne : t.byAlias ≠ [] := by
      intro he; rw [he] at hlen; simp only [List.length_nil] at hlen; omega
    obtain ⟨e, h1, h2⟩ := oldest_mem hne
    rw [h1]
    simp only [Option.map_some, Option.getD_some]
    have hg := FMap.get_of_mem h.wf (k := e.1) (v := e.2) h2
    obtain ⟨_, h3, h4, _⟩ := h.forth e.1 e.2.1 e.2.2 hg
    exact ⟨h3, h4, fun hn => by rw [hg] at hn; cases hn⟩

/-- The bindings after the client has read a packet with this topic and alias. -/
def rebind (d : FMap Nat Str) (topic : Str) : Option Nat → FMap Nat Str
  | none => d
  | some a => if topic = [] then d else d.insert a topic

theorem assign_spec {max : Nat} {d : FMap Nat Str} {t : AliasTable} (h : AInv max d t)
    (hmax : max ≠ 0) (topic : Str) (htopic : topic ≠ []) :
    let r := t.assign max topic
    1 ≤ r.2.1 ∧ r.2.1 ≤ max ∧
    (r.2.2 = true → AInv max (d.insert r.2.1 topic) r.1) ∧
    (r.2.2 = false → AInv max d r.1 ∧ d.get r.2.1 = some topic) := by
  simp only
  unfold AliasTable.assign
  rw [if_neg hmax]
  simp only
  cases hbt : t.byTopic.get topic with
  | some a =>
    obtain ⟨k, hk⟩ := h.back topic a hbt
    obtain ⟨_, h1, h2, h3⟩ := h.forth a topic k hk
    simp only [hk]
    refine ⟨h1, h2, (by intro hc; cases hc), fun _ => ⟨?_, h3⟩⟩
    constructor
    · intro topic' a' h'
      obtain ⟨k', hk'⟩ := h.back topic' a' h'
      by_cases he : a = a'
      · subst he
        rw [hk] at hk'; simp only [Option.some.injEq, Prod.mk.injEq] at hk'
        exact ⟨_, by rw [FMap.get_insert_self, hk'.1]⟩
      · exact ⟨k', by rw [FMap.get_insert_ne _ _ he]; exact hk'⟩
    · intro a' topic' k' h'
      by_cases he : a = a'
      · subst he
        rw [FMap.get_insert_self] at h'
        simp only [Option.some.injEq, Prod.mk.injEq] at h'
        obtain ⟨h', _⟩ := h'; subst h'
        exact h.forth a topic k hk
      · rw [FMap.get_insert_ne _ _ he] at h'
        exact h.forth a' topic' k' h'
    · exact FMap.wf_insert h.wf _ _
    · show (t.byAlias.insert a (topic, t.tick + 1)).length ≤ max
      rw [FMap.length_insert_of_some h.wf hk]; exact h.len
  | none =>
    obtain ⟨h1, h2, h3⟩ := choose_spec h hmax
    generalize ha : t.choose max = a at h1 h2 h3
    simp only
    refine ⟨h1, h2, fun _ => ?_, (by intro hc; cases hc)⟩
    have hfresh : ∀ x topic' k', t.byAlias.get x = some (topic', k') → topic' ≠ topic := by
      intro x topic' k' hx he
      subst he
      rw [(h.forth x topic' k' hx).1] at hbt; cases hbt
    have hbt' : ∀ topic', (t.release a).get topic' =
        if t.byTopic.get topic' = some a then none else t.byTopic.get topic' := by
      intro topic'
      unfold AliasTable.release
      cases hp : t.byAlias.get a with
      | none =>
        simp only
        rw [if_neg]
        intro hc
        obtain ⟨k, hk⟩ := h.back topic' a hc
        rw [hk] at hp; cases hp
      | some pv =>
        obtain ⟨pt, pk⟩ := pv
        simp only
        rw [FMap.get_erase]
        by_cases he : pt = topic'
        · subst he
          rw [if_pos rfl, if_pos (h.forth a _ _ hp).1]
        · rw [if_neg he, if_neg]
          intro hc
          obtain ⟨k, hk⟩ := h.back topic' a hc
          rw [hk] at hp; simp only [Option.some.injEq, Prod.mk.injEq] at hp
          exact he hp.1.symm
    constructor
    · intro topic' a' h'
      simp only at h'
      by_cases he : topic = topic'
      · subst he
        rw [FMap.get_insert_self] at h'
        simp only [Option.some.injEq] at h'; subst h'
        exact ⟨_, FMap.get_insert_self ..⟩
      · rw [FMap.get_insert_ne _ _ he, hbt'] at h'
        split at h'
        · cases h'
        · rename_i hne
          have : a ≠ a' := by intro hc; subst hc; exact hne h'
          obtain ⟨k, hk⟩ := h.back topic' a' h'
          exact ⟨k, by rw [FMap.get_insert_ne _ _ this, FMap.get_erase_ne _ this]; exact hk⟩
    · intro a' topic' k' h'
      simp only at h' ⊢
      by_cases he : a = a'
      · subst he
        rw [FMap.get_insert_self] at h'
        simp only [Option.some.injEq, Prod.mk.injEq] at h'
        obtain ⟨h', _⟩ := h'; subst h'
        exact ⟨FMap.get_insert_self .., h1, h2, FMap.get_insert_self ..⟩
      · rw [FMap.get_insert_ne _ _ he, FMap.get_erase_ne _ he] at h'
        obtain ⟨f1, f2, f3, f4⟩ := h.forth a' topic' k' h'
        refine ⟨?_, f2, f3, by rw [FMap.get_insert_ne _ _ he]; exact f4⟩
        rw [FMap.get_insert_ne _ _ (Ne.symm (hfresh a' topic' k' h')), hbt', if_neg, f1]
        rw [f1]; intro hc; simp only [Option.some.injEq] at hc; exact he hc.symm
    · exact FMap.wf_insert (FMap.wf_erase h.wf _) _ _
    · show ((t.byAlias.erase a).insert a (topic, t.tick + 1)).length ≤ max
      rw [FMap.length_insert_of_none (FMap.get_erase_self ..)]
      cases hg : t.byAlias.get a with
      | none =>
        have := h3 hg
        have := FMap.length_erase_le t.byAlias a
        omega
      | some v =>
        have := FMap.length_erase_of_get h.wf hg
        have := h.len
        omega

/-- What `apply` puts on the wire is read back as the topic. -/
theorem apply_spec {max : Nat} {d : FMap Nat Str} {t : AliasTable} (h : AInv max d t)
    {topic : Str} (htopic : topic ≠ []) :
    let r := t.apply max topic none
    AInv max (rebind d r.2.1 r.2.2) r.1 ∧
    (r.2.2 = none → r.2.1 = topic) ∧
    (∀ a, r.2.2 = some a → 1 ≤ a ∧ a ≤ max ∧
      (r.2.1 = topic ∨ r.2.1 = [] ∧ d.get a = some topic)) := by
  simp only
  unfold AliasTable.apply
  by_cases hmax : max > 0
  · rw [if_pos hmax]
    obtain ⟨h1, h2, h3, h4⟩ := assign_spec h (by omega) topic htopic
    simp only
    rw [if_pos (by omega)]
    refine ⟨?_, (by intro hc; cases hc), ?_⟩
    · cases hb : (t.assign max topic).2.2
      · simp [rebind]; exact (h4 hb).1
      · simp [rebind, htopic]; exact h3 hb
    · intro a ha
      simp only [Option.some.injEq] at ha; subst ha
      refine ⟨h1, h2, ?_⟩
      cases hb : (t.assign max topic).2.2
      · exact .inr ⟨rfl, (h4 hb).2⟩
      · exact .inl rfl
  · rw [if_neg hmax]
    exact ⟨h, fun _ => rfl, (by intro a ha; cases ha)⟩

theorem apply_plain (t : AliasTable) (topic : Str) (a : Option Nat) :
    t.apply 0 topic a = (t, topic, a) := rfl

/-! ## decoding -/

/-- All aliases in the packets are between 1 and `max`. -/
def AliasesIn (max : Nat) (out : List OutPkt) : Prop :=
  ∀ p a, .publish p ∈ out → p.props.topicAlias = some a → 1 ≤ a ∧ a ≤ max

theorem decodeMany_append {d d1 d2 : FMap Nat Str} {a b a' b' : List OutPkt}
    (h1 : decodeMany d a = some (d1, a')) (h2 : decodeMany d1 b = some (d2, b')) :
    decodeMany d (a ++ b) = some (d2, a' ++ b') := by
  induction a generalizing d a' with
  | nil => simp only [decodeMany, Option.some.injEq, Prod.mk.injEq] at h1; obtain ⟨rfl, rfl⟩ := h1; exact h2
  | cons o os ih =>
    simp only [List.cons_append, decodeMany, bind, Option.bind_eq_some_iff, pure,
      Option.some.injEq, Prod.mk.injEq] at h1 ⊢
    obtain ⟨x, hx, y, hy, rfl, rfl⟩ := h1
    exact ⟨x, hx, _, ih hy, rfl, rfl⟩

/-- Packets without aliases are read unchanged. -/
theorem decodeMany_other {d : FMap Nat Str} {out : List OutPkt}
    (h : ∀ o ∈ out, ∀ p, o ≠ .publish p) : decodeMany d out = some (d, out) := by
  induction out with
  | nil => rfl
  | cons o os ih =>
    have h1 : decodeOne d o = some (d, o) := by
      cases o with
      | publish p => exact absurd rfl (h _ (by simp) p)
      | _ => rfl
    simp [decodeMany, h1, ih (fun o ho => h o (by simp [ho]))]

/-! ## the same session with and without aliases -/

/-- The session of a client that does not want aliases. -/
def Session.plain (s : Session) : Session := { s with aliasMax := 0, outAliases := {} }

/-- Replace the parts that the handling of a received PUBLISH does not touch. -/
def Session.over (x : Sender PubPacket) (t : AliasTable) (m : Nat) (s : Session) : Session :=
  { s with sender := x, outAliases := t, aliasMax := m }

/-- The queue holds only messages with a topic and without alias. -/
def QueueNamed (s : Session) : Prop := ∀ p ∈ s.sender.msgs, WellNamed p.topic p.props

structure Ok (d : FMap Nat Str) (max : Nat) (s : Session) : Prop where
  maxEq : s.aliasMax = max
  inv : AInv max d s.outAliases
  queue : QueueNamed s

/-- The outputs `a` of the session are read as the outputs `b` of the session without aliases. -/
def Sim (d : FMap Nat Str) (max : Nat) (a b : Session × List OutPkt) : Prop :=
  ∃ d', decodeMany d a.2 = some (d', b.2) ∧ b.1 = a.1.plain ∧ Ok d' max a.1 ∧ AliasesIn max a.2

theorem aliasesIn_append {max : Nat} {a b : List OutPkt} (ha : AliasesIn max a)
    (hb : AliasesIn max b) : AliasesIn max (a ++ b) := by
  intro p x h hx
  rcases List.mem_append.mp h with h | h
  · exact ha p x h hx
  · exact hb p x h hx

theorem aliasesIn_nil {max : Nat} : AliasesIn max [] := by intro p a h; cases h

theorem aliasesIn_other {max : Nat} {out : List OutPkt} (h : ∀ o ∈ out, ∀ p, o ≠ .publish p) :
    AliasesIn max out := fun p _ hp _ => absurd rfl (h _ hp p)

/-- Sequencing. -/
theorem Sim.seq {d : FMap Nat Str} {max : Nat} {s s0 : Session} {o o0 : List OutPkt}
    (h : Sim d max (s, o) (s0, o0)) {f : Session → Session × List OutPkt}
    (hf : ∀ d', Ok d' max s → Sim d' max (f s) (f s.plain)) :
    Sim d max ((f s).1, o ++ (f s).2) ((f s0).1, o0 ++ (f s0).2) := by
  obtain ⟨d1, h1, h2, h3, h4⟩ := h
  obtain ⟨d2, g1, g2, g3, g4⟩ := hf d1 h3
  simp only at h1 h2 h3 h4
  subst h2
  exact ⟨d2, decodeMany_append h1 g1, g2, g3, aliasesIn_append h4 g4⟩

theorem sim_quiet {d : FMap Nat Str} {max : Nat} {s s' : Session} (h : Ok d max s)
    (h1 : s'.aliasMax = s.aliasMax) (h2 : s'.outAliases = s.outAliases) (h3 : QueueNamed s')
    {out : List OutPkt} (ho : ∀ o ∈ out, ∀ p, o ≠ .publish p) :
    Sim d max (s', out) (s'.plain, out) :=
  ⟨d, decodeMany_other ho, rfl, ⟨h1.trans h.maxEq, by rw [h2]; exact h.inv, h3⟩, aliasesIn_other ho⟩

/-! ### sending -/

theorem decode_publish {max : Nat} {d : FMap Nat Str} {t : AliasTable} (h : AInv max d t)
    {topic : Str} (htopic : topic ≠ []) {dup : Bool} {qp : QosPid} {retain : Bool} {payload : Bytes}
    {props : PubProps} (hp : props.topicAlias = none) :
    let r := t.apply max topic props.topicAlias
    let o := OutPkt.publish { dup, qosPid := qp, retain, topic := r.2.1, payload,
                              props := { props with topicAlias := r.2.2 } }
    ∃ d', AInv max d' r.1 ∧ AliasesIn max [o] ∧ decodeMany d [o] = some (d', [.publish {
      dup, qosPid := qp, retain, topic, payload, props }]) := by
  simp only
  have hpe : props = { props with topicAlias := none } := by cases props; simp only at hp; subst hp; rfl
  rw [hp]
  obtain ⟨h1, h2, h3⟩ := apply_spec h htopic
  generalize t.apply max topic none = r at h1 h2 h3
  obtain ⟨t', topic', al⟩ := r
  simp only at h1 h2 h3 ⊢
  generalize ho : Publish.mk dup qp retain topic' payload { props with topicAlias := al } = o
  have hnamed : o.named topic = .publish (Publish.mk dup qp retain topic payload props) := by
    rw [← ho, Publish.named]; simp only; rw [hpe]
  have htop : o.topic = topic' := by rw [← ho]
  have hoal : o.props.topicAlias = al := by rw [← ho]
  cases al with
  | none =>
    have := h2 rfl; subst this
    refine ⟨d, h1, ?_, ?_⟩
    · intro p a hm ha
      simp only [List.mem_singleton, OutPkt.publish.injEq] at hm
      subst hm; rw [hoal] at ha; cases ha
    · simp [decodeMany, decodeOne, htop, hoal, htopic, hnamed]
  | some a =>
    obtain ⟨g1, g2, g3⟩ := h3 a rfl
    have hal : AliasesIn max [OutPkt.publish o] := by
      intro p a' hm ha
      simp only [List.mem_singleton, OutPkt.publish.injEq] at hm
      subst hm
      rw [hoal] at ha
      simp only [Option.some.injEq] at ha
      subst ha; exact ⟨g1, g2⟩
    rcases g3 with g3 | ⟨g3, g4⟩
    · subst g3
      simp only [rebind, htopic, if_false] at h1
      exact ⟨_, h1, hal, by simp [decodeMany, decodeOne, htop, hoal, htopic, hnamed]⟩
    · subst g3
      simp only [rebind, if_true] at h1
      exact ⟨d, h1, hal, by simp [decodeMany, decodeOne, htop, hoal, g4, hnamed]⟩

/-- The message of a packet of `handle_pendings` is well named. -/
def SentNamed : Sent PubPacket → Prop
  | .publish _ p _ _ => WellNamed p.topic p.props
  | .pubrel _ => True

theorem toWireAll_plain (t : AliasTable) (xs : List (Sent PubPacket)) :
    (toWireAllV5 0 t xs).1 = t := by
  induction xs generalizing t with
  | nil => rfl
  | cons x xs ih =>
    simp only [toWireAllV5]
    rw [ih]
    cases x with
    | publish pid p dup e => simp only [toWireV5]; split <;> rfl
    | pubrel pid => rfl

theorem toWireAll_spec {max : Nat} {d : FMap Nat Str} {t t0 : AliasTable} (h : AInv max d t)
    {xs : List (Sent PubPacket)} (hxs : ∀ x ∈ xs, SentNamed x) :
    ∃ d', AInv max d' (toWireAllV5 max t xs).1 ∧
      AliasesIn max ((toWireAllV5 max t xs).2.map OutPkt.ofWire) ∧
      decodeMany d ((toWireAllV5 max t xs).2.map OutPkt.ofWire) =
        some (d', (toWireAllV5 0 t0 xs).2.map OutPkt.ofWire) := by
  induction xs generalizing d t t0 with
  | nil => exact ⟨d, h, aliasesIn_nil, rfl⟩
  | cons x xs ih =>
    have hx := hxs x (by simp)
    have hxs' : ∀ x ∈ xs, SentNamed x := fun y hy => hxs y (by simp [hy])
    have key : ∃ d1, AInv max d1 (toWireV5 max t x).1 ∧
        AliasesIn max [OutPkt.ofWire (toWireV5 max t x).2] ∧
        decodeMany d [OutPkt.ofWire (toWireV5 max t x).2] =
          some (d1, [OutPkt.ofWire (toWireV5 0 t0 x).2]) := by
      cases x with
      | publish pid p dup e =>
        obtain ⟨ht, ha⟩ := hx
        cases dup
        · exact decode_publish h ht (props := { p.props with messageExpiry := e }) ha
        · refine ⟨d, h, ?_, ?_⟩
          · intro q a hm hq
            simp only [toWireV5, OutPkt.ofWire, List.mem_singleton, OutPkt.publish.injEq] at hm
            subst hm
            simp [ha] at hq
          · simp [toWireV5, OutPkt.ofWire, decodeMany, decodeOne, ha, ht, Publish.named]
      | pubrel pid => exact ⟨d, h, aliasesIn_other (by simp [toWireV5, OutPkt.ofWire]), rfl⟩
    obtain ⟨d1, k1, k2, k3⟩ := key
    obtain ⟨d2, j1, j2, j3⟩ := ih (t0 := (toWireV5 0 t0 x).1) k1 hxs'
    simp only [toWireAllV5, List.map_cons]
    exact ⟨d2, j1, aliasesIn_append k2 j2, decodeMany_append k3 j3⟩

theorem msgs_sent {exp : PubPacket → Option Nat} {clk : Clock} {s : Session} (h : QueueNamed s) :
    ∀ x ∈ (s.sender.pending.handlePendings exp clk).2, SentNamed x := by
  intro x hx
  rw [handlePendings_sent] at hx
  cases x with
  | pubrel pid => trivial
  | publish pid p dup e =>
    have h1 := sweep_allSent exp s.sender.pending.timeout clk s.sender.pending.cleanComplete.window
      0 0 s.sender.pending.cleanComplete.packets
    have h2 : p ∈ allSent (s.sender.pending.swept exp clk).2.1 := by
      generalize (s.sender.pending.swept exp clk).2.1 = l at hx
      induction l with
      | nil => cases hx
      | cons y l ih =>
        rcases List.mem_cons.mp hx with rfl | hx'
        · simp [allSent]
        · cases y <;> simp [allSent, ih hx']
    have h3 := h1.subset h2
    simp only [Pending.cleanComplete] at h3
    rw [filterMap_dropWhile _ rfl] at h3
    exact h p h3

theorem sim_pendings {d : FMap Nat Str} {max : Nat} {s : Session} (h : Ok d max s) (clk : Clock) :
    Sim d max (handlePendingsV5 clk s) (handlePendingsV5 clk s.plain) := by
  obtain ⟨d', h1, h2, h3⟩ := toWireAll_spec (t0 := {}) h.inv (msgs_sent (clk := clk) (exp := expiryV5) h.queue)
  rw [← h.maxEq] at h1 h2 h3
  refine ⟨d', h3, ?_, ⟨h.maxEq, ?_, ?_⟩, ?_⟩
  · unfold handlePendingsV5 Session.plain
    simp only [toWireAll_plain]
  · rw [← h.maxEq]; exact h1
  · intro p hp
    have := (step_msgs expiryV5 s.sender (.pass clk)).subset hp
    simp only [delivered, List.append_nil] at this
    exact h.queue p this
  · rw [← h.maxEq]; exact h2

/-- A result of `recv_publish` as session and packets. -/
def outOf (r : Session × Option (QoS × Option OutPkt)) : Session × List OutPkt :=
  (r.1, (r.2.bind (·.2)).toList)

theorem queue_enqueue {s : Session} (h : QueueNamed s) (now : Nat) (p : PubPacket)
    (hp : WellNamed p.topic p.props) : QueueNamed (s.enqueue now p) := by
  intro q hq
  have := (step_msgs expiryV5 s.sender (.deliver now p)).subset hq
  simp only [delivered, List.mem_append, List.mem_singleton] at this
  rcases this with this | this
  · exact h q this
  · subst this; exact hp

/-- Both runs agree on the QoS, and on the packets as the client reads them. -/
def Sim' (d : FMap Nat Str) (max : Nat) (a b : Session × Option (QoS × Option OutPkt)) : Prop :=
  b.2.map (·.1) = a.2.map (·.1) ∧ Sim d max (outOf a) (outOf b)

theorem sim_none {d : FMap Nat Str} {max : Nat} {s : Session} (h : Ok d max s) :
    Sim' d max (s, none) (s.plain, none) :=
  ⟨rfl, sim_quiet h rfl rfl h.queue (by simp)⟩

theorem sim_deliver {d : FMap Nat Str} {max : Nat} {s : Session} (h : Ok d max s) (now : Nat)
    (m : RecvPub) (props : PubProps) (hm : WellNamed m.topic props) :
    Sim' d max (deliverV5 now s m props) (deliverV5 now s.plain m props) := by
  unfold deliverV5
  simp only
  split
  · show Sim' d max (if m.encodeLen > s.maxPacketSize then _ else _)
      (if m.encodeLen > s.maxPacketSize then _ else _)
    split
    · exact sim_none h
    · refine ⟨rfl, ?_⟩
      generalize hp : PubPacket.mk m.topic (min m.qos m.subQos) m.retain m.payload props = p
      show Sim d max (s.enqueue now p, []) ((s.enqueue now p).plain, [])
      exact sim_quiet (s' := s.enqueue now p) h rfl rfl
        (queue_enqueue h.queue _ _ (by rw [← hp]; exact hm)) (by simp)
  · show Sim' d max (if (!s.clientDisconnected && !s.serverDisconnected) = true then _ else _)
      (if (!s.clientDisconnected && !s.serverDisconnected) = true then _ else _)
    by_cases hd : (!s.clientDisconnected && !s.serverDisconnected) = true
    · rw [if_pos hd, if_pos hd]
      generalize (if m.qos > 0 then m.encodeLen - 2 else m.encodeLen) = len
      show Sim' d max (if len > s.maxPacketSize then _ else _)
        (if len > s.maxPacketSize then _ else _)
      by_cases hl : len > s.maxPacketSize
      · rw [if_pos hl, if_pos hl]; exact sim_none h
      · rw [if_neg hl, if_neg hl]
        obtain ⟨d', h1, h2, h3⟩ := decode_publish (dup := false) (qp := .level0)
          (retain := m.retain) (payload := m.payload) h.inv hm.1 hm.2
        rw [← h.maxEq] at h1 h2 h3
        exact ⟨rfl, d', h3, rfl, ⟨h.maxEq, by rw [← h.maxEq]; exact h1, h.queue⟩,
          by rw [← h.maxEq]; exact h2⟩
    · rw [if_neg hd, if_neg hd]; exact sim_none h

theorem sim_recv {d : FMap Nat Str} {max : Nat} {s : Session} (h : Ok d max s) (now : Nat)
    (m : RecvPub) (hm : WellNamed m.topic (m.props.getD {})) :
    Sim' d max (recvPublishV5 now s m) (recvPublishV5 now s.plain m) := by
  unfold recvPublishV5
  simp only
  cases m.ids with
  | precomputed ids => exact sim_deliver h now m _ hm
  | lookup f =>
    simp only
    show Sim' d max (match s.subscribes.get f with | none => _ | some sub => _)
      (match s.subscribes.get f with | none => _ | some sub => _)
    cases s.subscribes.get f with
    | none => exact sim_none h
    | some sub => exact sim_deliver h now m _ hm

theorem gather_plain (s : Session) (fs : List Str) (acc : Bool × Bool × List Nat) :
    gatherSubs s.plain fs acc = gatherSubs s fs acc := by
  induction fs generalizing acc with
  | nil => rfl
  | cons f fs ih =>
    obtain ⟨a, b, c⟩ := acc
    simp only [gatherSubs]
    show (match s.subscribes.get f with | none => _ | some sub => _) = _
    cases s.subscribes.get f with
    | none => exact ih _
    | some sub => exact ih _

theorem sim_normal {d : FMap Nat Str} {max : Nat} {s : Session} (h : Ok d max s) (cfg : Config)
    (now : Nat) (m : NormalMsg) (hm : m.wellNamed) :
    Sim' d max (handleNormalV5 cfg now s m) (handleNormalV5 cfg now s.plain m) := by
  cases m with
  | publishV3 retain qos topic payload filter subQos encodeLen =>
    simp only [handleNormalV5]
    show Sim' d max (match s.subscribes.get filter with | none => _ | some sub => _)
      (match s.subscribes.get filter with | none => _ | some sub => _)
    cases s.subscribes.get filter with
    | none => exact sim_none h
    | some sub => exact sim_recv h now _ ⟨hm, rfl⟩
  | publishV5 retain qos topic payload filters subQos props encodeLen =>
    simp only [handleNormalV5, gather_plain]
    split
    · exact sim_none h
    · exact sim_recv h now _ hm

theorem sim_onNormal {d : FMap Nat Str} {max : Nat} {s : Session} (h : Ok d max s) (cfg : Config)
    (env : Env) (g : Global) (m : NormalMsg) (hm : m.wellNamed) :
    Sim d max ((onNormal cfg .v5 env g s m).session, (onNormal cfg .v5 env g s m).out)
      ((onNormal cfg .v5 env g s.plain m).session, (onNormal cfg .v5 env g s.plain m).out) := by
  obtain ⟨h1, h2⟩ := sim_normal h cfg (env.now 0 0) m hm
  unfold onNormal
  simp only [handleNormalOf]
  generalize handleNormalV5 cfg (env.now 0 0) s m = a at h1 h2
  generalize handleNormalV5 cfg (env.now 0 0) s.plain m = b at h1 h2
  obtain ⟨a1, a2⟩ := a
  obtain ⟨b1, b2⟩ := b
  cases a2 with
  | none =>
    cases b2 with
    | none => exact h2
    | some x => cases h1
  | some x =>
    cases b2 with
    | none => cases h1
    | some y =>
      obtain ⟨q, o⟩ := x
      obtain ⟨q', o'⟩ := y
      simp only [Option.map_some, Option.some.injEq] at h1
      subst h1
      simp only
      split
      · exact h2.seq (f := handlePendingsV5 (env.clk 0)) (fun d' hd' => sim_pendings hd' _)
      · exact h2

/-! ### subscribing -/

theorem sim_sendRetained {d : FMap Nat Str} {max : Nat} {s : Session} (h : Ok d max s)
    (now : Nat → Nat) (filter : Str) (opts : SubOpts) (granted : QoS) (j : Nat)
    (cs : List RetainContent) (hcs : ∀ c ∈ cs, WellNamed c.topic (c.props.getD {})) :
    let a := sendRetainedV5 now filter opts granted j s cs
    let b := sendRetainedV5 now filter opts granted j s.plain cs
    Sim d max (a.1, a.2.1) (b.1, b.2.1) ∧ a.2.2 = b.2.2 := by
  induction cs generalizing d s j with
  | nil => exact ⟨sim_quiet h rfl rfl h.queue (by simp [sendRetainedV5]), rfl⟩
  | cons c cs ih =>
    have hcs' : ∀ c ∈ cs, WellNamed c.topic (c.props.getD {}) := fun x hx => hcs x (by simp [hx])
    simp only [sendRetainedV5]
    by_cases hn : (opts.noLocal && decide (c.publisher = s.identifier)) = true
    · have hn' : (opts.noLocal && decide (c.publisher = s.plain.identifier)) = true := hn
      rw [if_pos hn, if_pos hn']
      exact ih h _ hcs'
    · have hn' : ¬ (opts.noLocal && decide (c.publisher = s.plain.identifier)) = true := hn
      rw [if_neg hn, if_neg hn']
      generalize hm : RecvPub.mk c.topic c.qos opts.retainAsPublished c.payload c.props
        (.lookup filter) granted (match c.props with
          | none => c.encodeLen + 1
          | some _ => c.encodeLen) = m
      have hmn : WellNamed m.topic (m.props.getD {}) := by rw [← hm]; exact hcs c (by simp)
      obtain ⟨h1, h2⟩ := sim_recv h (now j) m hmn
      generalize recvPublishV5 (now j) s m = a at h1 h2
      generalize recvPublishV5 (now j) s.plain m = b at h1 h2
      obtain ⟨a1, a2⟩ := a
      obtain ⟨b1, b2⟩ := b
      obtain ⟨d1, e1, e2, e3, e4⟩ := h2
      simp only [outOf] at e1 e2 e3 e4
      subst e2
      obtain ⟨⟨d2, i1, i2, i3, i4⟩, i5⟩ := ih e3 (j + 1) hcs'
      simp only at i1 i2 i3 i4
      cases a2 with
      | none =>
        cases b2 with
        | none =>
          simp only [Option.bind_none, Option.toList_none] at e1
          exact ⟨⟨d2, decodeMany_append e1 i1, i2, i3, i4⟩, i5⟩
        | some x => cases h1
      | some x =>
        cases b2 with
        | none => cases h1
        | some y =>
          obtain ⟨q, o⟩ := x
          obtain ⟨q', o'⟩ := y
          simp only [Option.map_some, Option.some.injEq] at h1
          subst h1
          simp only [Option.bind_some] at e1 e4 ⊢
          exact ⟨⟨d2, decodeMany_append e1 i1, i2, i3, aliasesIn_append e4 i4⟩, by rw [i5]⟩

/-- All retained messages are well named. -/
def RetNamed (t : RetainTable) : Prop :=
  ∀ f cs, t.getMatches f = some cs → ∀ c ∈ cs, WellNamed c.topic (c.props.getD {})

theorem sim_accept {d : FMap Nat Str} {max : Nat} {s : Session} (h : Ok d max s) (cfg : Config)
    (env : Env) (i : Nat) (g : Global) (hg : RetNamed g.retain) (filter : Str) (opts : SubOpts)
    (id : Option Nat) {s' : Session} {g' : Global} {out : List OutPkt}
    (hr : acceptV5 cfg env i g s filter opts id = some (s', g', out)) :
    ∃ s0 out0, acceptV5 cfg env i g s.plain filter opts id = some (s0, g', out0) ∧
      Sim d max (s', out) (s0, out0) ∧ g'.retain = g.retain := by
  unfold acceptV5 at hr ⊢
  simp only at hr ⊢
  generalize hgr : min opts.maxQos cfg.maxAllowedQos = granted at hr ⊢
  generalize hs1 : ({ s with subscribes := (s.subscribes.insert filter
    { opts := { opts with maxQos := granted }, id := id }) } : Session) = s1 at hr
  have hp1 : ({ s.plain with subscribes := (s.plain.subscribes.insert filter
    { opts := { opts with maxQos := granted }, id := id }) } : Session) = s1.plain := by
    rw [← hs1]; rfl
  have hok : Ok d max s1 := by
    rw [← hs1]; exact ⟨h.maxEq, h.inv, h.queue⟩
  rw [hp1]
  have hc : s.plain.clientId = s.clientId := rfl
  rw [hc]
  cases hsub : g.route.subscribe filter s.clientId granted with
  | none => rw [hsub] at hr; cases hr
  | some route =>
    rw [hsub] at hr
    simp only at hr ⊢
    have hex : s.plain.subscribes.contains filter = s.subscribes.contains filter := rfl
    rw [hex]
    split at hr
    · rename_i hret
      rw [if_pos hret]
      split at hr
      · cases hr
      · rename_i cs hcs
        obtain ⟨hsim, hflag⟩ := sim_sendRetained hok (env.now i) filter
          { opts with maxQos := granted } granted 0 cs (hg _ _ hcs)
        rw [← hflag]
        split at hr
        · rename_i hf
          rw [if_pos hf]
          cases hr
          exact ⟨_, _, rfl, hsim.seq (f := handlePendingsV5 (env.clk i))
            (fun d' hd' => sim_pendings hd' _), rfl⟩
        · rename_i hf
          rw [if_neg hf]
          cases hr
          exact ⟨_, _, rfl, hsim, rfl⟩
    · rename_i hret
      rw [if_neg hret]
      cases hr
      exact ⟨_, _, rfl, sim_quiet hok rfl rfl hok.queue (by simp), rfl⟩

theorem sim_subscribeLoop {d : FMap Nat Str} {max : Nat} {s : Session} (h : Ok d max s)
    (cfg : Config) (env : Env) (id : Option Nat) (i : Nat) (g : Global) (hg : RetNamed g.retain)
    (ts : List (Str × SubOpts)) {s' : Session} {g' : Global} {out : List OutPkt}
    {codes : List Reason} (hr : subscribeLoopV5 cfg env id i g s ts = some (s', g', out, codes)) :
    ∃ s0 out0, subscribeLoopV5 cfg env id i g s.plain ts = some (s0, g', out0, codes) ∧
      Sim d max (s', out) (s0, out0) := by
  induction ts generalizing d s i g s' g' out codes with
  | nil =>
    simp only [subscribeLoopV5, Option.some.injEq, Prod.mk.injEq] at hr
    obtain ⟨rfl, rfl, rfl, rfl⟩ := hr
    exact ⟨_, _, rfl, sim_quiet h rfl rfl h.queue (by simp)⟩
  | cons t ts ih =>
    obtain ⟨f, o⟩ := t
    simp only [subscribeLoopV5] at hr ⊢
    split at hr
    · rename_i q hq
      split at hr
      · cases hr
      · rename_i s1 g1 out1 ha
        simp only [Option.map_eq_some_iff, Prod.mk.injEq] at hr
        obtain ⟨⟨s2, g2, out2, c2⟩, h1, rfl, rfl, rfl, rfl⟩ := hr
        obtain ⟨s0, out0, b1, b2, b3⟩ := sim_accept h cfg env i g hg f o id ha
        obtain ⟨d1, e1, e2, e3, e4⟩ := b2
        simp only at e1 e2 e3 e4
        subst e2
        obtain ⟨s0', out0', k1, d2, k2, k3, k4, k5⟩ := ih e3 (i + 1) g1 (by rw [b3]; exact hg) h1
        rw [b1]
        simp only [k1, Option.map_some]
        exact ⟨_, _, rfl, d2, decodeMany_append e1 k2, k3, k4, aliasesIn_append e4 k5⟩
    · rename_i hq
      simp only [Option.map_eq_some_iff, Prod.mk.injEq] at hr
      obtain ⟨⟨s2, g2, out2, c2⟩, h1, rfl, rfl, rfl, rfl⟩ := hr
      obtain ⟨s0', out0', k1, k2⟩ := ih h (i + 1) g hg h1
      simp only [k1, Option.map_some]
      exact ⟨_, _, rfl, k2⟩

/-! ### handlers that do not send -/

theorem pushFold_over (x : Sender PubPacket) (t : AliasTable) (m : Nat) (reg : ClientId → Bool)
    (cs : List (ClientId × NormalMsg)) (s : Session) :
    cs.foldl (fun s c => s.pushCopy reg c.1 c.2) (s.over x t m) =
      (cs.foldl (fun s c => s.pushCopy reg c.1 c.2) s).over x t m := by
  induction cs generalizing s with
  | nil => rfl
  | cons c cs ih =>
    simp only [List.foldl_cons]
    rw [← ih]
    congr 1
    unfold Session.pushCopy
    show (match s.bcast.get c.1 with | some q => _ | none => _) = _
    cases s.bcast.get c.1 with
    | some q => rfl
    | none => simp only; split <;> rfl

theorem addClients_over (x : Sender PubPacket) (t : AliasTable) (m : Nat) (s : Session) (f : Str)
    (cs : List (ClientId × QoS)) (r : Receivers) :
    addClients (s.over x t m) f cs r = addClients s f cs r := by
  induction cs generalizing r with
  | nil => rfl
  | cons c cs ih => obtain ⟨i, q⟩ := c; simp only [addClients]; rw [ih]; rfl

theorem collect_over (x : Sender PubPacket) (t : AliasTable) (m : Nat) (s : Session)
    (pick : Str → Str → Nat) (cs : List RouteContent) (r : Receivers) :
    collectV5 (s.over x t m) pick cs r = collectV5 s pick cs r := by
  induction cs generalizing r with
  | nil => rfl
  | cons c cs ih =>
    simp only [collectV5]
    split
    · rfl
    · rw [addClients_over]
      split
      · rfl
      · exact ih _

theorem send_over (x : Sender PubPacket) (t : AliasTable) (m : Nat) (env : Env) (g : Global)
    (s : Session) (p : SendPub) :
    sendPublishV5 env g (s.over x t m) p =
      (sendPublishV5 env g s p).map fun r => (r.1.over x t m, r.2) := by
  unfold sendPublishV5
  simp only [collect_over]
  cases collectV5 s env.pick (g.route.getMatches p.topic) [] with
  | none => rfl
  | some rs =>
    simp only [Option.map_some, Option.some.injEq, Prod.mk.injEq]
    refine ⟨?_, rfl, trivial⟩
    unfold Session.pushCopies
    exact pushFold_over x t m _ _ { s with bcastCnt := s.bcastCnt + _ }

/-- `over` on results. -/
def Res.over (x : Sender PubPacket) (t : AliasTable) (m : Nat) (r : Res) : Res :=
  { r with session := r.session.over x t m }

theorem resolve_over (x : Sender PubPacket) (t : AliasTable) (m : Nat) (cfg : Config) (s : Session)
    (p : Publish) : resolveAlias cfg (s.over x t m) p =
      match resolveAlias cfg s p with
      | .error c => .error c
      | .ok (s', n) => .ok (s'.over x t m, n) := by
  unfold resolveAlias
  split
  · split
    · rfl
    · split
      · rfl
      · split
        · show (match s.aliases.get _ with | some name => _ | none => _) = _
          cases s.aliases.get _ <;> rfl
        · rfl
  · split <;> rfl

theorem check_over (x : Sender PubPacket) (t : AliasTable) (m : Nat) (cfg : Config) (ext : Ext)
    (s : Session) (p : Publish) : checkQos2V5 cfg ext (s.over x t m) p =
      match checkQos2V5 cfg ext s p with
      | .proceed s' => .proceed (s'.over x t m)
      | .inUse pid => .inUse pid
      | .fail c => .fail c := by
  unfold checkQos2V5
  cases p.qosPid with
  | level0 => rfl
  | level1 pid => rfl
  | level2 pid =>
    simp only
    show (match s.qos2.get pid with | some previous => _ | none => _) = _
    cases s.qos2.get pid with
    | some previous =>
      simp only
      split
      · rfl
      · split <;> rfl
    | none =>
      simp only
      show (if s.qos2.length ≥ cfg.maxInflightServer then _ else _) = _
      split <;> rfl

theorem publish_over (x : Sender PubPacket) (t : AliasTable) (m : Nat) (cfg : Config) (ext : Ext)
    (env : Env) (g : Global) (s : Session) (p : Publish) :
    handlePublishV5 cfg ext env g (s.over x t m) p =
      (handlePublishV5 cfg ext env g s p).map (Res.over x t m) := by
  unfold handlePublishV5
  split
  · rfl
  · split
    · rfl
    · rw [resolve_over]
      cases resolveAlias cfg s p with
      | error c => rfl
      | ok r =>
        obtain ⟨s1, n⟩ := r
        simp only
        split
        · rfl
        · rw [check_over]
          cases checkQos2V5 cfg ext s1 p with
          | inUse pid => rfl
          | fail c => rfl
          | proceed s2 =>
            simp only
            split
            · rfl
            · rw [send_over]
              cases sendPublishV5 env g s2 _ with
              | none => rfl
              | some r => rfl

theorem unsubscribe_over (x : Sender PubPacket) (t : AliasTable) (m : Nat) (g : Global)
    (s : Session) (ts : List Str) :
    unsubscribeLoopV5 g (s.over x t m) ts =
      (unsubscribeLoopV5 g s ts).map fun r => (r.1.over x t m, r.2) := by
  induction ts generalizing g s with
  | nil => rfl
  | cons f fs ih =>
    simp only [unsubscribeLoopV5]
    show (match g.route.unsubscribe f s.clientId with | none => _ | some route => _) = _
    cases g.route.unsubscribe f s.clientId with
    | none => rfl
    | some route =>
      simp only
      have := ih { g with route } { s with subscribes := s.subscribes.erase f }
      have e : ({ s.over x t m with subscribes := (s.over x t m).subscribes.erase f } : Session) =
        ({ s with subscribes := s.subscribes.erase f } : Session).over x t m := rfl
      rw [e, this, Option.map_map, Option.map_map]
      rfl

/-- A handler that commutes with `over` and sends no PUBLISH. -/
theorem sim_over {d : FMap Nat Str} {max : Nat} {s : Session} (h : Ok d max s)
    {f : Session → Option Res}
    (hf : ∀ x t m s, f (s.over x t m) = (f s).map (Res.over x t m))
    {r : Res} (hr : f s = some r) (ho : ∀ o ∈ r.out, ∀ p, o ≠ .publish p) :
    ∃ r0, f s.plain = some r0 ∧ Sim d max (r.session, r.out) (r0.session, r0.out) ∧
      r0.closed = r.closed := by
  have e : s = s.over s.sender s.outAliases s.aliasMax := rfl
  have e0 : s.plain = s.over s.sender {} 0 := rfl
  have hr' := hr
  rw [e, hf, hr, Option.map_some, Option.some.injEq] at hr'
  rw [e0, hf, hr]
  refine ⟨_, rfl, ?_, rfl⟩
  have h1 : r.session = r.session.over s.sender s.outAliases s.aliasMax :=
    (congrArg Res.session hr').symm
  have h2 : r.session.sender = s.sender := by rw [h1]; rfl
  have h3 : (Res.over s.sender {} 0 r).session = r.session.plain := by
    show r.session.over s.sender {} 0 = r.session.plain
    unfold Session.over Session.plain; rw [h2]
  rw [h3]
  exact sim_quiet h (by rw [h1]; rfl) (by rw [h1]; rfl)
    (by unfold QueueNamed; rw [h2]; exact h.queue) ho

/-! ### packets -/

theorem queue_step {s : Session} (h : QueueNamed s) (op : SendOp PubPacket)
    (hop : delivered [op] = []) :
    QueueNamed { s with sender := (s.sender.step expiryV5 op).1 } := by
  intro p hp
  have := (step_msgs expiryV5 s.sender op).subset hp
  rw [hop, List.append_nil] at this
  exact h p this

theorem publish_out {cfg : Config} {ext : Ext} {env : Env} {g : Global} {s : Session} {p : Publish}
    {r : Res} (h : handlePublishV5 cfg ext env g s p = some r) :
    ∀ o ∈ r.out, ∀ q, o ≠ .publish q := by
  have hack : ∀ n, ∀ o ∈ ackV5 p n, ∀ q, o ≠ .publish q := by
    intro n o ho q
    unfold ackV5 at ho
    cases hq : p.qosPid with
    | level0 => simp [hq] at ho
    | level1 pid => simp [hq] at ho; subst ho; simp
    | level2 pid => simp [hq] at ho; subst ho; simp
  unfold handlePublishV5 at h
  split at h
  · cases h; simp [failV5]
  · split at h
    · cases h; simp [failV5]
    · split at h
      · cases h; simp [failV5]
      · split at h
        · cases h; simp [failV5]
        · split at h
          · cases h; simp
          · cases h; simp [failV5]
          · split at h
            · cases h; exact hack 1
            · simp only at h
              split at h
              · cases h
              · cases h; exact hack _

theorem sim_packet {d : FMap Nat Str} {max : Nat} {s : Session} (h : Ok d max s) (cfg : Config)
    (ext : Ext) (env : Env) (g : Global) (hg : RetNamed g.retain) (n : Nat) (pkt : InPkt) {r : Res}
    (hr : handlePacketV5 cfg ext env g s n pkt = some r) :
    ∃ r0, handlePacketV5 cfg ext env g s.plain n pkt = some r0 ∧
      Sim d max (r.session, r.out) (r0.session, r0.out) ∧ r0.closed = r.closed := by
  unfold handlePacketV5 at hr ⊢
  by_cases hn : n > cfg.maxPacketSizeServer
  · rw [if_pos hn] at hr ⊢
    exact sim_over (f := fun s => some (failV5 s g .packetTooLarge)) h (by intros; rfl) hr
      (by cases hr; simp [failV5])
  · rw [if_neg hn] at hr ⊢
    cases pkt with
    | publish p =>
      exact sim_over (f := fun s => handlePublishV5 cfg ext env g s p) h
        (by intros; exact publish_over ..) hr (publish_out hr)
    | puback pid =>
      cases hr
      exact ⟨_, rfl, sim_quiet (s' := { s with sender := (s.sender.step expiryV5 (.puback pid)).1 })
        h rfl rfl (queue_step h.queue _ rfl) (by simp [handleComplete]), rfl⟩
    | pubrec pid =>
      cases hr
      exact ⟨_, rfl, sim_quiet
        (s' := { s with sender := (s.sender.step expiryV5 (.pubrec (env.now 0 0) pid)).1 })
        h rfl rfl (queue_step h.queue _ rfl) (by simp [handlePubrecV5]), rfl⟩
    | pubcomp pid =>
      cases hr
      exact ⟨_, rfl, sim_quiet (s' := { s with sender := (s.sender.step expiryV5 (.pubcomp pid)).1 })
        h rfl rfl (queue_step h.queue _ rfl) (by simp [handleComplete]), rfl⟩
    | pubrel pid =>
      exact sim_over (f := fun s => some (handlePubrelV5 g s pid)) h (by intros; rfl) hr
        (by cases hr; simp [handlePubrelV5])
    | subscribe pid topics id =>
      simp only [handleSubscribeV5] at hr ⊢
      split at hr
      · rename_i hc
        rw [if_pos hc]
        exact sim_over (f := fun s => some (failV5 s g .protocolError)) h (by intros; rfl) hr
          (by cases hr; simp)
      · rename_i hc
        rw [if_neg hc]
        split at hr
        · rename_i hc
          rw [if_pos hc]
          cases hr
          exact ⟨_, rfl, sim_quiet h rfl rfl h.queue (by simp), rfl⟩
        · rename_i hc
          rw [if_neg hc]
          rw [Option.map_eq_some_iff] at hr
          obtain ⟨⟨s', g', out, codes⟩, h1, rfl⟩ := hr
          obtain ⟨s0, out0, k1, d', k2, k3, k4, k5⟩ := sim_subscribeLoop h cfg env id 0 g hg topics h1
          rw [k1]
          refine ⟨_, rfl, ⟨d', decodeMany_append k2 (decodeMany_other (by simp)), k3, k4,
            aliasesIn_append k5 (aliasesIn_other (by simp))⟩, rfl⟩
    | unsubscribe pid topics =>
      refine sim_over (f := fun s => handleUnsubscribeV5 g s pid topics) h ?_ hr ?_
      · intro x t m s
        simp only [handleUnsubscribeV5, unsubscribe_over, Option.map_map]
        rfl
      · simp only [handleUnsubscribeV5, Option.map_eq_some_iff] at hr
        obtain ⟨a, _, rfl⟩ := hr
        simp
    | pingreq =>
      exact sim_over (f := fun s => some { session := s, global := g, out := [.pingresp] }) h
        (by intros; rfl) hr (by cases hr; simp)
    | disconnect reason expiry =>
      refine sim_over (f := fun s => some (handleDisconnectV5 g s reason expiry)) h ?_ hr ?_
      · intro x t m s
        unfold handleDisconnectV5
        cases expiry with
        | none => rfl
        | some v =>
          simp only
          show some (if s.expiryInterval = 0 ∧ v > 0 then _ else _) = _
          split <;> rfl
      · cases hr
        unfold handleDisconnectV5
        split
        · split <;> simp [failV5]
        · simp
    | invalid =>
      exact sim_over (f := fun s => some { session := s, global := g, closed := true }) h
        (by intros; rfl) hr (by cases hr; simp)

theorem sim_onPacket {d : FMap Nat Str} {max : Nat} {s : Session} (h : Ok d max s) (cfg : Config)
    (ext : Ext) (env : Env) (after : Clock) (g : Global) (hg : RetNamed g.retain) (n : Nat)
    (pkt : InPkt) {r : Res} (hr : onPacket cfg ext .v5 env after g s n pkt = some r) :
    ∃ r0, onPacket cfg ext .v5 env after g s.plain n pkt = some r0 ∧
      Sim d max (r.session, r.out) (r0.session, r0.out) ∧ r0.closed = r.closed := by
  unfold onPacket handlePacket at hr ⊢
  simp only at hr ⊢
  split at hr
  · cases hr
  · rename_i r1 h1
    obtain ⟨r0, k1, k2, k3⟩ := sim_packet h cfg ext env g hg n pkt h1
    rw [k1]
    simp only
    rw [k3]
    split at hr
    · rename_i hc
      rw [if_pos hc]
      cases hr
      exact ⟨_, rfl, k2, k3⟩
    · rename_i hc
      rw [if_neg hc]
      cases hr
      refine ⟨_, rfl, ?_, rfl⟩
      refine k2.seq (f := afterPacket .v5 after) ?_
      intro d' hd'
      unfold afterPacket
      simp only
      show Sim d' max (if r1.session.disconnected = true then _ else _)
        (if r1.session.disconnected = true then _ else _)
      split
      · exact sim_quiet hd' rfl rfl hd'.queue (by simp)
      · exact sim_pendings hd' _

/-! ### runs -/

/-- The peer of a client that does not want aliases. -/
def Peer.plain (p : Peer) : Peer := { p with session := p.session.plain }

/-- Invariant of a run; while there is no connection the bindings are those of an imagined
client. -/
def PeerOk (d : FMap Nat Str) (p : Peer) : Prop :=
  ∃ d', Ok d' p.session.aliasMax p.session ∧ (p.online = true → d' = d)

theorem Sim.toOk {d : FMap Nat Str} {max : Nat} {a b : Session × List OutPkt} (h : Sim d max a b) :
    ∃ d', decodeMany d a.2 = some (d', b.2) ∧ b.1 = a.1.plain ∧ Ok d' a.1.aliasMax a.1 ∧
      AliasesIn a.1.aliasMax a.2 := by
  obtain ⟨d', h1, h2, h3, h4⟩ := h
  have := h3.maxEq
  subst this
  exact ⟨d', h1, h2, h3, h4⟩

theorem sim_step {cfg : Config} {ext : Ext} {d : FMap Nat Str} {p p' : Peer} {env : Env}
    {g : Global} {ev : SessEv} {r : Res} (hp : PeerOk d p) (he : EvWellNamed (env, g, ev))
    (hs : p.step cfg ext .v5 env g ev = some (p', r)) :
    ∃ r0 d', p.plain.step cfg ext .v5 env g ev.noAlias = some (p'.plain, r0) ∧
      decodeMany (match ev with | .resume _ => [] | _ => d) r.out = some (d', r0.out) ∧
      PeerOk d' p' ∧ AliasesIn p'.session.aliasMax r.out := by
  obtain ⟨d0, hok, hon⟩ := hp
  have idle : ∀ {q : Peer}, PeerOk d q → ∃ d', decodeMany d [] = some (d', []) ∧ PeerOk d' q ∧
      AliasesIn q.session.aliasMax [] := fun hq => ⟨d, rfl, hq, aliasesIn_nil⟩
  cases ev with
  | packet after n pkt =>
    simp only [Peer.step, SessEv.noAlias] at hs ⊢
    have hcond : (p.plain.online && !p.plain.session.disconnected) =
      (p.online && !p.session.disconnected) := rfl
    rw [hcond]
    split at hs
    · rename_i hc
      rw [if_pos hc]
      rw [Bool.and_eq_true] at hc
      have := hon hc.1; subst this
      simp only [Option.map_eq_some_iff, Prod.mk.injEq] at hs
      obtain ⟨r1, h1, rfl, rfl⟩ := hs
      obtain ⟨r0, k1, k2, k3⟩ := sim_onPacket hok cfg ext env after g he.1 n pkt h1
      obtain ⟨d', e1, e2, e3, e4⟩ := k2.toOk
      simp only at e1 e2 e3 e4
      have : p.plain.session = p.session.plain := rfl
      rw [this, k1]
      refine ⟨r0, d', ?_, e1, ⟨d', e3, fun _ => rfl⟩, e4⟩
      simp only [Option.map_some, e2, k3]
      rfl
    · rename_i hc
      rw [if_neg hc]
      cases hs
      obtain ⟨d', i1, i2, i3⟩ := idle ⟨d0, hok, hon⟩
      exact ⟨_, d', rfl, i1, i2, i3⟩
  | normal m =>
    simp only [Peer.step, SessEv.noAlias] at hs ⊢
    have hcond : (p.plain.online && !p.plain.session.disconnected) =
      (p.online && !p.session.disconnected) := rfl
    rw [hcond]
    split at hs
    · rename_i hc
      rw [if_pos hc]
      rw [Bool.and_eq_true] at hc
      have := hon hc.1; subst this
      cases hs
      have k2 := sim_onNormal hok cfg env g m (he.2 m (.inl rfl))
      obtain ⟨d', e1, e2, e3, e4⟩ := k2.toOk
      simp only at e1 e2 e3 e4
      refine ⟨_, d', ?_, e1, ⟨d', e3, fun _ => rfl⟩, e4⟩
      have : p.plain.session = p.session.plain := rfl
      rw [this, e2]
      rfl
    · rename_i hc
      rw [if_neg hc]
      cases hs
      obtain ⟨d', i1, i2, i3⟩ := idle ⟨d0, hok, hon⟩
      exact ⟨_, d', rfl, i1, i2, i3⟩
  | offline m =>
    simp only [Peer.step, SessEv.noAlias] at hs ⊢
    have hcond : p.plain.online = p.online := rfl
    rw [hcond]
    split at hs
    · rename_i hc
      rw [if_pos hc]
      cases hs
      obtain ⟨d', i1, i2, i3⟩ := idle ⟨d0, hok, hon⟩
      exact ⟨_, d', rfl, i1, i2, i3⟩
    · rename_i hc
      rw [if_neg hc]
      cases hs
      obtain ⟨_, k2⟩ := sim_normal hok cfg (env.now 0 0) m (he.2 m (.inr rfl))
      obtain ⟨d', e1, e2, e3, e4⟩ := k2.toOk
      simp only [outOf] at e2 e3
      refine ⟨{ session := (handleNormalV5 cfg (env.now 0 0) p.session m).1.plain, global := g }, d,
        ?_, rfl, ⟨d', e3, fun h => absurd h hc⟩, aliasesIn_nil⟩
      simp only [handleNormalOf]
      have : p.plain.session = p.session.plain := rfl
      rw [this, e2]
      rfl
  | passed b n =>
    cases hs
    exact ⟨_, d, rfl, rfl, ⟨d0, ⟨hok.1, hok.2, hok.3⟩, hon⟩, aliasesIn_nil⟩
  | lost =>
    cases hs
    exact ⟨_, d, rfl, rfl, ⟨d0, hok, fun h => by cases h⟩, aliasesIn_nil⟩
  | resume c =>
    simp only [Peer.step, SessEv.noAlias, handlePendingsOf] at hs ⊢
    cases hs
    have hok' : Ok [] c.aliasMax (p.session.resume cfg .v5 c) := by
      refine ⟨rfl, AInv.empty _, ?_⟩
      intro q hq
      have := (step_msgs expiryV5 p.session.sender (.reconnect (some c.receiveMax))).subset hq
      simp only [delivered, List.append_nil] at this
      exact hok.queue q this
    obtain ⟨d', e1, e2, e3, e4⟩ := (sim_pendings hok' (env.clk 0)).toOk
    have : p.plain.session.resume cfg .v5 c.noAlias = (p.session.resume cfg .v5 c).plain := rfl
    rw [this, e2]
    exact ⟨_, d', rfl, e1, ⟨d', e3, fun _ => rfl⟩, e4⟩

theorem sim_run {cfg : Config} {ext : Ext} {d : FMap Nat Str} {p : Peer}
    {evs : List (Env × Global × SessEv)} {recs : List Rec} (hp : PeerOk d p)
    (he : ∀ e ∈ evs, EvWellNamed e) (hr : p.run cfg ext .v5 evs = some recs) :
    ∃ recs0, p.plain.run cfg ext .v5 (evs.map fun e => (e.1, e.2.1, e.2.2.noAlias)) = some recs0 ∧
      clientView d recs = some (recs0.map (·.res.out)) ∧
      ∀ r ∈ recs, AliasesIn r.post.session.aliasMax r.res.out ∧
        r.post.session.outAliases.byAlias.length ≤ r.post.session.aliasMax := by
  induction evs generalizing d p recs with
  | nil => cases hr; exact ⟨[], rfl, rfl, by simp⟩
  | cons e evs ih =>
    obtain ⟨env, g, ev⟩ := e
    rw [Peer.run] at hr
    split at hr
    · cases hr
    · rename_i p' r hs
      rw [Option.map_eq_some_iff] at hr
      obtain ⟨l, h1, rfl⟩ := hr
      obtain ⟨r0, d', k1, k2, k3, k4⟩ := sim_step hp (he _ (by simp)) hs
      obtain ⟨recs0, j1, j2, j3⟩ := ih k3 (fun e he' => he e (by simp [he'])) h1
      simp only [List.map_cons]
      rw [Peer.run, k1]
      simp only [j1, Option.map_some]
      refine ⟨_, rfl, ?_, ?_⟩
      · simp only [clientView]
        cases ev <;> simp_all
      · intro r' hr'
        rcases List.mem_cons.mp hr' with rfl | hr'
        · obtain ⟨d1, hk, _⟩ := k3
          exact ⟨k4, hk.inv.len⟩
        · exact j3 r' hr'

end Akasa
