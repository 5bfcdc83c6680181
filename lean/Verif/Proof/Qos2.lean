import Verif.Proof.Incoming
import Verif.Proof.Copies
/-! Steps of a session seen through the packets received; QoS 2 reception. -/
namespace Akasa

theorem ofWire_isDelivery (x : Publish ⊕ Pid) : (OutPkt.ofWire x).isDelivery = true := by
  cases x <;> rfl

theorem pendings_isDelivery (pr : Proto) (clk : Clock) (s : Session) :
    ∀ o ∈ (handlePendingsOf pr clk s).2, o.isDelivery = true := by
  intro o ho
  cases pr
  · simp only [handlePendingsOf, handlePendingsV3, List.mem_map] at ho
    obtain ⟨x, _, rfl⟩ := ho; exact ofWire_isDelivery _
  · simp only [handlePendingsOf, handlePendingsV5, List.mem_map] at ho
    obtain ⟨x, _, rfl⟩ := ho; exact ofWire_isDelivery _

theorem after_isDelivery (pr : Proto) (clk : Clock) (s : Session) :
    ∀ o ∈ (afterPacket pr clk s).2, o.isDelivery = true := by
  cases pr
  · exact pendings_isDelivery .v3 clk s
  · simp only [afterPacket]
    split
    · simp
    · exact pendings_isDelivery .v5 clk s

theorem deliverV5_isDelivery {now : Nat} {s : Session} {m : RecvPub} {props : PubProps} {q : QoS}
    {o : OutPkt} (h : (deliverV5 now s m props).2 = some (q, some o)) : o.isDelivery = true := by
  unfold deliverV5 at h
  simp only at h
  split at h
  · split at h <;> simp at h
  · split at h
    · split at h <;> split at h <;> simp at h <;> (rw [← h.2]; rfl)
    · simp at h

theorem recvV5_isDelivery {now : Nat} {s : Session} {m : RecvPub} {q : QoS}
    {o : OutPkt} (h : (recvPublishV5 now s m).2 = some (q, some o)) : o.isDelivery = true := by
  unfold recvPublishV5 at h
  simp only at h
  split at h
  · exact deliverV5_isDelivery h
  · split at h
    · simp at h
    · exact deliverV5_isDelivery h

theorem recvV3_isDelivery {now : Nat} {s : Session} {topic qos retain payload filter subQos}
    {q : QoS} {o : OutPkt}
    (h : (recvPublishV3 now s topic qos retain payload filter subQos).2 = some (q, some o)) :
    o.isDelivery = true := by
  unfold recvPublishV3 at h
  simp only at h
  split at h
  · simp at h
  · split at h
    · simp at h
    · split at h
      · simp at h; rw [← h.2]; rfl
      · simp at h

theorem normal_isDelivery {cfg : Config} {pr : Proto} {now : Nat} {s : Session} {m : NormalMsg}
    {q : QoS} {o : OutPkt} (h : (handleNormalOf cfg pr now s m).2 = some (q, some o)) :
    o.isDelivery = true := by
  cases pr <;> cases m <;> simp only [handleNormalOf, handleNormalV3, handleNormalV5] at h
  · exact recvV3_isDelivery h
  · split at h
    · simp at h
    · exact recvV3_isDelivery h
  · split at h
    · simp at h
    · exact recvV5_isDelivery h
  · split at h
    · simp at h
    · exact recvV5_isDelivery h

theorem onNormal_out (cfg : Config) (pr : Proto) (env : Env) (g : Global) (s : Session)
    (m : NormalMsg) : ∀ o ∈ (onNormal cfg pr env g s m).out, o.isDelivery = true := by
  unfold onNormal
  simp only
  split
  · simp
  · rename_i q out hr
    have hout : ∀ o ∈ out.toList, o.isDelivery = true := by
      intro o ho
      cases out with
      | none => simp at ho
      | some x => simp at ho; subst ho; exact normal_isDelivery hr
    split
    · intro o ho
      rcases List.mem_append.mp ho with h | h
      · exact hout o h
      · exact pendings_isDelivery _ _ _ o h
    · exact hout

theorem onNormal_frame (cfg : Config) (pr : Proto) (env : Env) (g : Global) (s : Session)
    (m : NormalMsg) : (onNormal cfg pr env g s m).routed = [] ∧
      (onNormal cfg pr env g s m).global = g := by
  unfold onNormal
  simp only
  split
  · exact ⟨rfl, rfl⟩
  · split <;> exact ⟨rfl, rfl⟩

theorem resume_qos2 (cfg : Config) (pr : Proto) (c : ConnParams) (s : Session) :
    (s.resume cfg pr c).qos2 = s.qos2 := by cases pr <;> rfl

theorem resume_aliases (cfg : Config) (pr : Proto) (c : ConnParams) (s : Session) :
    (s.resume cfg pr c).aliases = [] := by cases pr <;> rfl

section
variable {cfg : Config} {ext : Ext} {pr : Proto}

/-- A step in which a packet was received. -/
structure Step1 (cfg : Config) (ext : Ext) (pr : Proto) (r : Rec) (pkt : InPkt) (n : Nat)
    (r0 : Res) : Prop where
  handled : handlePacket cfg ext pr r.env r.before r.pre.session n pkt = some r0
  routed : r.res.routed = r0.routed
  glob : r.res.global = r0.global
  core : r.post.session.core = r0.session.core
  online : r.post.online = !r0.closed
  out : ∃ rest, r.res.out = r0.out ++ rest ∧ ∀ o ∈ rest, o.isDelivery = true
  outFail : r0.closed = true ∨ (pr = .v5 ∧ r0.session.disconnected = true) → r.res.out = r0.out
  isEv : ∃ after, r.ev = .packet after n pkt
  on : r.pre.online = true
  connected : r.pre.session.disconnected = false
  sess : r.res.session = r.post.session
  copies : r.post.session.copies = r0.session.copies

theorem step_received {r : Rec} {pkt : InPkt}
    (hs : r.pre.step cfg ext pr r.env r.before r.ev = some (r.post, r.res))
    (hr : r.received = some pkt) : ∃ n r0, Step1 cfg ext pr r pkt n r0 := by
  obtain ⟨ev, env, before, pre, post, res⟩ := r
  simp only at hs
  cases ev with
  | packet after n p =>
    simp only [Rec.received] at hr
    by_cases hon : (pre.online && !pre.session.disconnected) = true
    · rw [if_pos hon] at hr
      cases hr
      simp only [Peer.step] at hs
      rw [if_pos hon, Option.map_eq_some_iff] at hs
      obtain ⟨a, ha, hb⟩ := hs
      simp only [Prod.mk.injEq] at hb
      obtain ⟨rfl, rfl⟩ := hb
      simp only [Bool.and_eq_true, Bool.not_eq_true'] at hon
      unfold onPacket at ha
      split at ha
      · cases ha
      · rename_i r0 h0
        refine ⟨n, r0, ?_⟩
        split at ha
        · cases ha
          exact ⟨h0, rfl, rfl, rfl, rfl, ⟨[], by simp, by simp⟩, fun _ => rfl, ⟨_, rfl⟩, hon.1,
            hon.2, rfl, rfl⟩
        · rename_i hc
          simp only [Option.some.injEq] at ha
          subst ha
          refine ⟨h0, rfl, rfl, core_after .., rfl, ⟨_, rfl, after_isDelivery _ _ _⟩, ?_,
            ⟨_, rfl⟩, hon.1, hon.2, rfl, copies_after ..⟩
          rintro (h | ⟨h1, h2⟩)
          · exact absurd h hc
          · subst h1
            simp [afterPacket, h2]
    · rw [if_neg hon] at hr; cases hr
  | normal m => cases hr
  | offline m => cases hr
  | passed b n => cases hr
  | lost => cases hr
  | resume c => cases hr

/-- A step in which no packet was received. -/
theorem step_idle {r : Rec}
    (hs : r.pre.step cfg ext pr r.env r.before r.ev = some (r.post, r.res))
    (hr : r.received = none) :
    r.res.routed = [] ∧ r.res.global = r.before ∧ r.post.session.qos2 = r.pre.session.qos2 ∧
      (∀ o ∈ r.res.out, o.isDelivery = true) ∧
      ((∀ c, r.ev ≠ .resume c) → r.post.session.core = r.pre.session.core ∧
        (r.post.online = true → r.pre.online = true)) := by
  cases hev : r.ev with
  | packet after n p =>
    unfold Rec.received at hr
    rw [hev] at hr hs
    simp only [Peer.step] at hs
    by_cases hon : (r.pre.online && !r.pre.session.disconnected) = true
    · simp only [hon, if_true] at hr; cases hr
    · rw [if_neg hon] at hs
      simp only [Option.some.injEq, Prod.mk.injEq] at hs
      rw [← hs.1, ← hs.2]
      exact ⟨rfl, rfl, rfl, by simp, fun _ => ⟨rfl, id⟩⟩
  | normal m =>
    rw [hev] at hs
    simp only [Peer.step] at hs
    split at hs
    · simp only [Option.some.injEq, Prod.mk.injEq] at hs
      rw [← hs.1, ← hs.2]
      have hc := core_onNormal cfg pr r.env r.before r.pre.session m
      exact ⟨(onNormal_frame ..).1, (onNormal_frame ..).2, ident_qos2 (ident_of_core hc),
        onNormal_out _ _ _ _ _ _, fun _ => ⟨hc, id⟩⟩
    · simp only [Option.some.injEq, Prod.mk.injEq] at hs
      rw [← hs.1, ← hs.2]
      exact ⟨rfl, rfl, rfl, by simp, fun _ => ⟨rfl, id⟩⟩
  | offline m =>
    rw [hev] at hs
    simp only [Peer.step] at hs
    split at hs
    · simp only [Option.some.injEq, Prod.mk.injEq] at hs
      rw [← hs.1, ← hs.2]
      exact ⟨rfl, rfl, rfl, by simp, fun _ => ⟨rfl, id⟩⟩
    · simp only [Option.some.injEq, Prod.mk.injEq] at hs
      rw [← hs.1, ← hs.2]
      have hc := core_normal cfg pr (r.env.now 0 0) r.pre.session m
      exact ⟨rfl, rfl, ident_qos2 (ident_of_core hc), by simp, fun _ => ⟨hc, id⟩⟩
  | passed b n =>
    rw [hev] at hs
    simp only [Peer.step, Option.some.injEq, Prod.mk.injEq] at hs
    rw [← hs.1, ← hs.2]
    exact ⟨rfl, rfl, rfl, by simp, fun _ => ⟨rfl, id⟩⟩
  | lost =>
    rw [hev] at hs
    simp only [Peer.step, Option.some.injEq, Prod.mk.injEq] at hs
    rw [← hs.1, ← hs.2]
    exact ⟨rfl, rfl, rfl, by simp, fun _ => ⟨rfl, by simp⟩⟩
  | resume c =>
    rw [hev] at hs
    simp only [Peer.step, Option.some.injEq, Prod.mk.injEq] at hs
    rw [← hs.1, ← hs.2]
    have hc := core_pendings pr (r.env.clk 0) (r.pre.session.resume cfg pr c)
    exact ⟨rfl, rfl, (ident_qos2 (ident_of_core hc)).trans (resume_qos2 ..),
      pendings_isDelivery _ _ _, fun h => absurd rfl (h c)⟩

/-- The effect of a step on the stored incoming QoS 2 identifiers. -/
inductive Q2Case (cfg : Config) (ext : Ext) (pr : Proto) (r : Rec) : Prop
  | same (ha : r.accepted = none) (hr : r.released = none)
      (hq : r.post.session.qos2 = r.pre.session.qos2)
      (hn : ∀ pid, r.qos2Pid = some pid → r.res.routed = [])
  | repeated (p : Publish) (pid : Pid) (hp : r.publish? = some p) (hl : p.qosPid = .level2 pid)
      (hd : p.dup = true) (hg : r.pre.session.qos2.get pid = some (ext.hash p))
      (hq : r.post.session.qos2 = r.pre.session.qos2) (hn : r.res.routed = [])
      (ha : r.accepted = some pid)
  | lostFirst (p : Publish) (pid : Pid) (hp : r.publish? = some p) (hl : p.qosPid = .level2 pid)
      (hd : p.dup = true) (hg : r.pre.session.qos2.get pid = none)
      (hq : r.post.session.qos2 = r.pre.session.qos2.insert pid (ext.hash p))
      (hn : r.res.routed = []) (ha : r.accepted = some pid)
      (hlen : pr = .v5 → r.pre.session.qos2.length < cfg.maxInflightServer)
  | route (p : Publish) (pid : Pid) (m : SendPub) (hp : r.publish? = some p)
      (hl : p.qosPid = .level2 pid)
      (hd : p.dup = false) (hg : r.pre.session.qos2.get pid = none)
      (hq : r.post.session.qos2 = r.pre.session.qos2.insert pid (ext.hash p))
      (hn : r.res.routed = [m]) (hm : m.payload = p.payload ∧ m.qos = 2 ∧ m.retain = p.retain ∧
        (p.topic ≠ [] → m.topic = p.topic)) (ha : r.accepted = some pid)
      (hlen : pr = .v5 → r.pre.session.qos2.length < cfg.maxInflightServer)
  | release (pid : Pid) (hp : r.received = some (.pubrel pid)) (ha : r.accepted = none)
      (hr : r.released = some pid) (hq : r.post.session.qos2 = r.pre.session.qos2.erase pid)
      (hn : r.res.routed = [])

theorem qos2Pid_of {r : Rec} {p : Publish} {pid : Pid} (hp : r.publish? = some p)
    (hl : p.qosPid = .level2 pid) : r.qos2Pid = some pid := by
  simp [Rec.qos2Pid, hp, hl]

theorem publish?_of {r : Rec} {p : Publish} (h : r.received = some (.publish p)) :
    r.publish? = some p := by simp [Rec.publish?, h]

theorem publish?_none {r : Rec} {pkt : InPkt} (h : r.received = some pkt)
    (hp : ∀ p, pkt ≠ .publish p) : r.publish? = none := by
  cases pkt <;> simp [Rec.publish?, h]
  case publish p => exact absurd rfl (hp p)

theorem accepted_none_of_publish? {r : Rec} (h : r.publish? = none) : r.accepted = none := by
  simp [Rec.accepted, Rec.qos2Pid, h]

theorem released_none {r : Rec} (h : ∀ pid, r.received ≠ some (.pubrel pid)) :
    r.released = none := by
  unfold Rec.released
  split
  · rename_i pid hr; exact absurd hr (h pid)
  · rfl

theorem released_of_publish {r : Rec} {p : Publish} (h : r.received = some (.publish p)) :
    r.released = none := released_none (by rw [h]; intro pid hc; cases hc)

theorem not_pubrecOk_of_delivery {o : OutPkt} (h : o.isDelivery = true) (pid : Pid) :
    o.isPubrecOk pid = false := by cases o <;> simp_all [OutPkt.isDelivery, OutPkt.isPubrecOk]

theorem not_pubcomp_of_delivery {o : OutPkt} (h : o.isDelivery = true) (pid : Pid) :
    o.isPubcomp pid = false := by cases o <;> simp_all [OutPkt.isDelivery, OutPkt.isPubcomp]

theorem any_pubrecOk {a rest : List OutPkt} (pid : Pid) (h : ∀ o ∈ rest, o.isDelivery = true) :
    (a ++ rest).any (·.isPubrecOk pid) = a.any (·.isPubrecOk pid) := by
  rw [List.any_append]
  have : rest.any (·.isPubrecOk pid) = false := by
    rw [List.any_eq_false]; intro o ho; rw [not_pubrecOk_of_delivery (h o ho)]; simp
  rw [this, Bool.or_false]

theorem any_pubcomp {a rest : List OutPkt} (pid : Pid) (h : ∀ o ∈ rest, o.isDelivery = true) :
    (a ++ rest).any (·.isPubcomp pid) = a.any (·.isPubcomp pid) := by
  rw [List.any_append]
  have : rest.any (·.isPubcomp pid) = false := by
    rw [List.any_eq_false]; intro o ho; rw [not_pubcomp_of_delivery (h o ho)]; simp
  rw [this, Bool.or_false]

theorem accepted_of {r : Rec} {p : Publish} {pid : Pid} {a rest : List OutPkt}
    (hp : r.publish? = some p) (hl : p.qosPid = .level2 pid) (ho : r.res.out = a ++ rest)
    (hrest : ∀ o ∈ rest, o.isDelivery = true) (ha : a.any (·.isPubrecOk pid) = true) :
    r.accepted = some pid := by
  simp only [Rec.accepted, qos2Pid_of hp hl, ho, any_pubrecOk pid hrest, ha, if_true]

theorem accepted_none_of {r : Rec} {a rest : List OutPkt}
    (ho : r.res.out = a ++ rest)
    (hrest : ∀ o ∈ rest, o.isDelivery = true) (ha : ∀ pid, a.any (·.isPubrecOk pid) = false) :
    r.accepted = none := by
  unfold Rec.accepted
  split
  · rename_i pid _
    rw [if_neg (by rw [ho, any_pubrecOk pid hrest, ha]; simp)]
  · rfl

theorem replyOf_ok {p : Publish} {pid : Pid} (hl : p.qosPid = .level2 pid) (n : Nat) :
    (replyOf pr p n).any (·.isPubrecOk pid) = true := by
  cases pr
  · simp [replyOf, ackV3, hl, OutPkt.isPubrecOk]
  · simp only [replyOf, ackV5, hl]
    by_cases h : n > 0
    · simp [h, OutPkt.isPubrecOk]
    · simp [h, OutPkt.isPubrecOk]

theorem toSend_facts {p : Publish} {pid : Pid} (hl : p.qosPid = .level2 pid) {s s1 : Session}
    {topic : Str} (h : Resolved cfg pr s p s1 topic) :
    (toSend ext pr p topic).payload = p.payload ∧ (toSend ext pr p topic).qos = 2 ∧
      (toSend ext pr p topic).retain = p.retain ∧
      (p.topic ≠ [] → (toSend ext pr p topic).topic = p.topic) := by
  have ht : p.topic ≠ [] → topic = p.topic := by
    intro hne
    rcases resolved_topic h with ⟨_, h, _⟩ | ⟨_, h, _⟩
    · exact h
    · exact absurd h hne
  cases pr
  · exact ⟨rfl, by simp [toSend, hl, QosPid.qos], rfl, ht⟩
  · exact ⟨rfl, by simp [toSend, hl, QosPid.qos], rfl, ht⟩

theorem core_qos2 {a b : Session} (h : a.core = b.core) : a.qos2 = b.qos2 :=
  ident_qos2 (ident_of_core h)

theorem q2_cases {r : Rec}
    (hs : r.pre.step cfg ext pr r.env r.before r.ev = some (r.post, r.res)) :
    Q2Case cfg ext pr r := by
  cases hr : r.received with
  | none =>
    obtain ⟨h1, _, h3, h4, _⟩ := step_idle hs hr
    refine .same (accepted_none_of_publish? (by simp [Rec.publish?, hr])) ?_ h3 (fun _ _ => h1)
    exact released_none (by rw [hr]; simp)
  | some pkt =>
    obtain ⟨n, r0, st⟩ := step_received hs hr
    obtain ⟨rest, ho, hrest⟩ := st.out
    have hcore := core_qos2 st.core
    by_cases hpub : ∃ p, pkt = .publish p
    · obtain ⟨p, rfl⟩ := hpub
      have hp := publish?_of hr
      have hrel := released_of_publish hr
      have hc := handle_publish_cases st.handled
      have hrt := st.routed
      generalize r0 = x at *
      cases hc with
      | rejectV5 hpr s' hs' code =>
        have hq : s'.qos2 = r.pre.session.qos2 := by rw [resolvedOr_eq hs']
        refine .same (accepted_none_of ho hrest ?_) hrel (hcore.trans hq) (fun _ _ => hrt)
        intro pid; simp [failV5, OutPkt.isPubrecOk]
      | rejectV3 hpr =>
        exact .same (accepted_none_of ho hrest (by simp [failV3])) hrel hcore (fun _ _ => hrt)
      | inUse hpr s1 topic pid prev hres hl hg hne =>
        refine .same (accepted_none_of ho hrest ?_) hrel (hcore.trans (resolved_qos2 hres))
          (fun _ _ => hrt)
        intro pid; simp [OutPkt.isPubrecOk]
      | repeated s1 topic pid hres hl hd hg =>
        exact .repeated p pid hp hl hd hg (hcore.trans (resolved_qos2 hres)) hrt
          (accepted_of hp hl ho hrest (by simp [OutPkt.isPubrecOk]))
      | lostFirst s1 topic pid hres hl hd hg hlen =>
        exact .lostFirst p pid hp hl hd hg hcore hrt
          (accepted_of hp hl ho hrest (by simp [OutPkt.isPubrecOk])) hlen
      | route2 s1 topic pid s' g' n hres hl hd hg hlen hsend =>
        exact .route p pid _ hp hl hd hg (hcore.trans (core_qos2 (core_sendOf hsend))) hrt
          (toSend_facts hl hres) (accepted_of hp hl ho hrest (replyOf_ok hl n)) hlen
      | route01 s1 topic s' g' n hres hl hsend =>
        have hnot : r.qos2Pid = none := by
          simp only [Rec.qos2Pid, hp]
          split
          · rename_i pid h; exact absurd (by rw [h]; rfl) hl
          · rfl
        refine .same (by simp [Rec.accepted, hnot]) hrel
          (hcore.trans ((core_qos2 (core_sendOf hsend)).trans (resolved_qos2 hres))) ?_
        intro pid h; rw [hnot] at h; cases h
    · have hnp : ∀ p, pkt ≠ .publish p := fun p h => hpub ⟨p, h⟩
      obtain ⟨h1, _, h3, _⟩ := handle_other hnp st.handled
      have hrt := st.routed.trans h1
      have hacc := accepted_none_of_publish? (publish?_none hr hnp)
      by_cases hrel : ∃ pid, pkt = .pubrel pid
      · obtain ⟨pid, rfl⟩ := hrel
        rcases handle_pubrel st.handled with ⟨ha, ⟨code, hb⟩, _⟩ | ⟨ha, hb, _⟩
        · refine .release pid hr hacc ?_ (hcore.trans ha) hrt
          simp only [Rec.released, hr, ho, any_pubcomp pid hrest, hb]
          simp [OutPkt.isPubcomp]
        · refine .same hacc ?_ (hcore.trans ha) (fun _ _ => hrt)
          simp only [Rec.released, hr, ho, any_pubcomp pid hrest]
          rw [if_neg]
          rw [Bool.not_eq_true, List.any_eq_false]
          intro o h
          obtain ⟨c, rfl⟩ := hb o h
          simp [OutPkt.isPubcomp]
      · have hnr : ∀ pid, pkt ≠ .pubrel pid := fun p h => hrel ⟨p, h⟩
        exact .same hacc (released_none (by rw [hr]; intro pid h; cases h; exact hnr pid rfl))
          (hcore.trans (h3 hnr)) (fun _ _ => hrt)

end

end Akasa
