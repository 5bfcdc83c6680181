import Verif.Spec.Publisher
import Verif.Proof.Qos2
import Verif.Proof.Subscribe
/-! # What a step of a session means for a client that publishes -/
namespace Akasa

variable {cfg : Config} {ext : Ext} {pr : Proto}

/-- The session has a connection that goes on. -/
def Peer.talking (p : Peer) : Bool := p.online && !p.session.disconnected

/-- The packets that answer a client that publishes. -/
def OutPkt.isAck : OutPkt → Bool
  | .puback _ _ => true
  | .pubrec _ _ => true
  | .pubcomp _ _ => true
  | _ => false

theorem delivery_not_ack {o : OutPkt} (h : o.isDelivery = true) : o.isAck = false := by
  cases o <;> first | rfl | cases h

theorem filter_ack_append {a rest : List OutPkt} (h : ∀ o ∈ rest, o.isDelivery = true) :
    (a ++ rest).filter OutPkt.isAck = a.filter OutPkt.isAck := by
  rw [List.filter_append]
  have : rest.filter OutPkt.isAck = [] := by
    rw [List.filter_eq_nil_iff]
    intro o ho
    rw [delivery_not_ack (h o ho)]
    decide
  rw [this, List.append_nil]

/-- Packets other than PUBLISH and PUBREL are answered otherwise. -/
theorem handle_not_ack {env : Env} {g : Global} {s : Session} {n : Nat} {pkt : InPkt} {r : Res}
    (h : handlePacket cfg ext pr env g s n pkt = some r) (hpub : ∀ q, pkt ≠ .publish q)
    (hrel : ∀ k, pkt ≠ .pubrel k) : ∀ o ∈ r.out, o.isAck = false := by
  intro o ho
  cases pr with
  | v3 =>
    simp only [handlePacket, handlePacketV3] at h
    split at h
    · cases h; cases ho
    · cases pkt with
      | publish q => exact absurd rfl (hpub q)
      | unsubscribe pid fs =>
        simp only [handleUnsubscribeV3, Option.map_eq_some_iff] at h
        obtain ⟨x, hx, rfl⟩ := h
        rw [List.mem_singleton.1 ho]; rfl
      | subscribe a b c =>
        simp only [handleSubscribeV3, Option.map_eq_some_iff] at h
        obtain ⟨x, hx, rfl⟩ := h
        split at ho
        · cases ho
        · have h5 := (subscribeLoopV3_effect hx).2.2.2
          rcases List.mem_append.1 ho with ho | ho
          · exact delivery_not_ack (h5 o ho)
          · rw [List.mem_singleton.1 ho]; rfl
      | pubrec pid =>
        cases h
        simp only [handlePubrecV3, List.mem_singleton] at ho
        subst ho; rfl
      | puback pid => cases h; cases ho
      | pubcomp pid => cases h; cases ho
      | pubrel pid => exact absurd rfl (hrel pid)
      | disconnect a b => cases h; cases ho
      | pingreq => cases h; rw [List.mem_singleton.1 ho]; rfl
      | invalid => cases h; cases ho
  | v5 =>
    simp only [handlePacket, handlePacketV5] at h
    split at h
    · cases h; rw [List.mem_singleton.1 ho]; rfl
    · cases pkt with
      | publish q => exact absurd rfl (hpub q)
      | unsubscribe pid fs =>
        simp only [handleUnsubscribeV5, Option.map_eq_some_iff] at h
        obtain ⟨x, hx, rfl⟩ := h
        rw [List.mem_singleton.1 ho]; rfl
      | subscribe a b c =>
        simp only [handleSubscribeV5] at h
        split at h
        · cases h; rw [List.mem_singleton.1 ho]; rfl
        · split at h
          · cases h; rw [List.mem_singleton.1 ho]; rfl
          · rename_i href
            rw [Option.map_eq_some_iff] at h
            obtain ⟨x, hx, rfl⟩ := h
            have h5 := (subscribeLoopV5_effect (by
              unfold RefusesId; simpa [Option.isSome_iff_ne_none] using href) hx).2.2
            rcases List.mem_append.1 ho with ho | ho
            · exact delivery_not_ack (h5 o ho)
            · rw [List.mem_singleton.1 ho]; rfl
      | pubrec pid =>
        cases h
        simp only [handlePubrecV5, List.mem_singleton] at ho
        subst ho; rfl
      | puback pid => cases h; cases ho
      | pubcomp pid => cases h; cases ho
      | pubrel pid => exact absurd rfl (hrel pid)
      | disconnect a b =>
        cases h
        unfold handleDisconnectV5 at ho
        split at ho
        · split at ho
          · rw [List.mem_singleton.1 ho]; rfl
          · cases ho
        · cases ho
      | pingreq => cases h; rw [List.mem_singleton.1 ho]; rfl
      | invalid => cases h; cases ho

theorem toSend_passed {p : Publish} {s s1 : Session} {topic : Str}
    (h : Resolved cfg pr s p s1 topic) : IsPassed pr p (toSend ext pr p topic) := by
  have ht : p.topic ≠ [] → topic = p.topic := by
    intro hne
    rcases resolved_topic h with ⟨_, h, _⟩ | ⟨_, h, _⟩
    · exact h
    · exact absurd h hne
  cases pr <;> exact ⟨rfl, rfl, rfl, ht, rfl⟩

/-- What a step means for a client that publishes. -/
inductive Reads (ext : Ext) (pr : Proto) (r : Rec) : Prop
  | resume (c : ConnParams) (he : r.ev = .resume c)
      (hq : r.post.session.qos2 = r.pre.session.qos2)
      (ha : r.res.out.filter OutPkt.isAck = []) (hr : r.res.routed = [])
  | other (he : ∀ c, r.ev ≠ .resume c) (hx : ∀ x, r.received = some x → x.publishes = false)
      (hq : r.post.session.qos2 = r.pre.session.qos2)
      (ha : r.res.out.filter OutPkt.isAck = []) (hr : ∀ m ∈ r.res.routed, m.qos = 0)
      (ht : r.post.talking = true → r.pre.talking = true)
  | reject (x : InPkt) (hx : r.received = some x) (hp : x.publishes = true)
      (hq : r.post.session.qos2 = r.pre.session.qos2)
      (ha : r.res.out.filter OutPkt.isAck = []) (hr : r.res.routed = [])
      (ht : r.post.talking = false)
  | one (p : Publish) (k : Pid) (code : Reason) (m : SendPub) (hx : r.received = some (.publish p))
      (hp : p.qosPid = .level1 k) (hq : r.post.session.qos2 = r.pre.session.qos2)
      (ha : r.res.out.filter OutPkt.isAck = [.puback k code]) (hr : r.res.routed = [m])
      (hm : IsPassed pr p m)
  | inUse (p : Publish) (k : Pid) (prev : Nat) (hpr : pr = .v5) (hx : r.received = some (.publish p))
      (hp : p.qosPid = .level2 k) (hg : r.pre.session.qos2.get k = some prev)
      (hne : ext.hash p ≠ prev) (hq : r.post.session.qos2 = r.pre.session.qos2)
      (ha : r.res.out.filter OutPkt.isAck = [.pubrec k .packetIdentifierInUse])
      (hr : r.res.routed = [])
  | repeated (p : Publish) (k : Pid) (hx : r.received = some (.publish p))
      (hp : p.qosPid = .level2 k) (hd : p.dup = true)
      (hg : r.pre.session.qos2.get k = some (ext.hash p))
      (hq : r.post.session.qos2 = r.pre.session.qos2)
      (ha : r.res.out.filter OutPkt.isAck = [.pubrec k .success]) (hr : r.res.routed = [])
  | late (p : Publish) (k : Pid) (hx : r.received = some (.publish p))
      (hp : p.qosPid = .level2 k) (hd : p.dup = true) (hg : r.pre.session.qos2.get k = none)
      (hq : r.post.session.qos2 = r.pre.session.qos2.insert k (ext.hash p))
      (ha : r.res.out.filter OutPkt.isAck = [.pubrec k .success]) (hr : r.res.routed = [])
  | two (p : Publish) (k : Pid) (code : Reason) (m : SendPub) (hx : r.received = some (.publish p))
      (hp : p.qosPid = .level2 k) (hd : p.dup = false) (hg : r.pre.session.qos2.get k = none)
      (hq : r.post.session.qos2 = r.pre.session.qos2.insert k (ext.hash p))
      (ha : r.res.out.filter OutPkt.isAck = [.pubrec k code]) (hc : code.takes = true)
      (hr : r.res.routed = [m]) (hm : IsPassed pr p m)
  | release (k : Pid) (code : Reason) (hx : r.received = some (.pubrel k))
      (hv : pr = .v3 → (r.pre.session.qos2.get k).isSome = true)
      (hq : r.post.session.qos2 = r.pre.session.qos2.erase k)
      (ha : r.res.out.filter OutPkt.isAck = [.pubcomp k code]) (hr : r.res.routed = [])

theorem reply_one {p : Publish} {k : Pid} (h : p.qosPid = .level1 k) (n : Nat) :
    ∃ code, (replyOf pr p n).filter OutPkt.isAck = [.puback k code] := by
  cases pr
  · exact ⟨_, by simp only [replyOf, ackV3, h]; rfl⟩
  · exact ⟨_, by simp only [replyOf, ackV5, h]; rfl⟩

theorem reply_two {p : Publish} {k : Pid} (h : p.qosPid = .level2 k) (n : Nat) :
    ∃ code, (replyOf pr p n).filter OutPkt.isAck = [.pubrec k code] ∧ code.takes = true := by
  cases pr
  · exact ⟨.success, by simp only [replyOf, ackV3, h]; rfl, rfl⟩
  · refine ⟨_, by simp only [replyOf, ackV5, h]; rfl, ?_⟩
    split <;> rfl

theorem reply_zero {p : Publish} (h : p.qosPid = .level0) (n : Nat) :
    (replyOf pr p n).filter OutPkt.isAck = [] := by
  cases pr
  · simp only [replyOf, ackV3, h]; rfl
  · simp only [replyOf, ackV5, h]; rfl

theorem received_resume {r : Rec} {x : InPkt} (h : r.received = some x) : ∀ c, r.ev ≠ .resume c := by
  intro c hc
  unfold Rec.received at h
  rw [hc] at h
  cases h

theorem reads {r : Rec} (hs : r.pre.step cfg ext pr r.env r.before r.ev = some (r.post, r.res)) :
    Reads ext pr r := by
  cases hr : r.received with
  | none =>
    obtain ⟨h1, _, h3, h4, h5⟩ := step_idle hs hr
    have ha : r.res.out.filter OutPkt.isAck = [] := by
      have := filter_ack_append (a := []) h4
      rwa [List.nil_append, List.filter_nil] at this
    by_cases he : ∃ c, r.ev = .resume c
    · obtain ⟨c, he⟩ := he
      exact .resume c he h3 ha h1
    · have he : ∀ c, r.ev ≠ .resume c := fun c hc => he ⟨c, hc⟩
      obtain ⟨h6, h7⟩ := h5 he
      refine .other he (fun x hx => by rw [hr] at hx; cases hx) h3 ha (by rw [h1]; simp) ?_
      intro ht
      unfold Peer.talking at ht ⊢
      rw [Bool.and_eq_true] at ht ⊢
      exact ⟨h7 ht.1, by rw [← ident_disc (ident_of_core h6)]; exact ht.2⟩
  | some pkt =>
    obtain ⟨n, r0, st⟩ := step_received hs hr
    obtain ⟨rest, ho, hrest⟩ := st.out
    have hack : r.res.out.filter OutPkt.isAck = r0.out.filter OutPkt.isAck := by
      rw [ho]; exact filter_ack_append hrest
    have hcore := core_qos2 st.core
    have hrt := st.routed
    have he := received_resume hr
    have htalk : r.pre.talking = true := by
      unfold Peer.talking; rw [st.on, st.connected]; rfl
    have hpost : r.post.talking = (!r0.closed && !r0.session.disconnected) := by
      unfold Peer.talking
      rw [st.online, ident_disc (ident_of_core st.core)]
    by_cases hpub : ∃ p, pkt = .publish p
    · obtain ⟨p, rfl⟩ := hpub
      have hc := handle_publish_cases st.handled
      generalize r0 = x at *
      cases hc with
      | rejectV5 hpr s' hs' code =>
        have hq : s'.qos2 = r.pre.session.qos2 := by rw [resolvedOr_eq hs']
        have ht : r.post.talking = false := by
          rw [hpost]; simp [failV5, Session.disconnected]
        by_cases hp : p.qosPid = .level0
        · refine .other he (fun x hx => ?_) (hcore.trans hq) hack (by rw [hrt]; simp [failV5])
            (fun _ => htalk)
          rw [hr] at hx; cases hx; simp [InPkt.publishes, hp]
        · exact .reject _ hr (by simp [InPkt.publishes, hp]) (hcore.trans hq) hack hrt ht
      | rejectV3 hpr =>
        have ht : r.post.talking = false := by rw [hpost]; simp [failV3]
        by_cases hp : p.qosPid = .level0
        · refine .other he (fun x hx => ?_) hcore hack (by rw [hrt]; simp [failV3])
            (fun _ => htalk)
          rw [hr] at hx; cases hx; simp [InPkt.publishes, hp]
        · exact .reject _ hr (by simp [InPkt.publishes, hp]) hcore hack hrt ht
      | inUse hpr s1 topic pid prev hres hl hg hne =>
        exact .inUse p pid prev hpr hr hl hg hne (hcore.trans (resolved_qos2 hres)) hack hrt
      | repeated s1 topic pid hres hl hd hg =>
        exact .repeated p pid hr hl hd hg (hcore.trans (resolved_qos2 hres)) hack hrt
      | lostFirst s1 topic pid hres hl hd hg hlen =>
        exact .late p pid hr hl hd hg hcore hack hrt
      | route2 s1 topic pid s' g' n hres hl hd hg hlen hsend =>
        obtain ⟨code, h1, h2⟩ := reply_two (pr := pr) hl n
        exact .two p pid code _ hr hl hd hg (hcore.trans (core_qos2 (core_sendOf hsend)))
          (hack.trans h1) h2 hrt (toSend_passed hres)
      | route01 s1 topic s' g' n hres hl hsend =>
        have hq := hcore.trans ((core_qos2 (core_sendOf hsend)).trans (resolved_qos2 hres))
        cases hp : p.qosPid with
        | level0 =>
          refine .other he (fun x hx => ?_) hq (hack.trans (reply_zero hp n)) ?_ (fun _ => htalk)
          · rw [hr] at hx; cases hx; simp [InPkt.publishes, hp]
          · rw [hrt]
            intro m hm
            rw [List.mem_singleton.1 hm, (toSend_passed hres).1, hp]; rfl
        | level1 k =>
          obtain ⟨code, h1⟩ := reply_one (pr := pr) hp n
          exact .one p k code _ hr hp hq (hack.trans h1) hrt (toSend_passed hres)
        | level2 k => rw [hp] at hl; exact absurd rfl hl
    · have hnp : ∀ p, pkt ≠ .publish p := fun p h => hpub ⟨p, h⟩
      obtain ⟨h1, _, h3, _⟩ := handle_other hnp st.handled
      have hrt := hrt.trans h1
      by_cases hrel : ∃ pid, pkt = .pubrel pid
      · obtain ⟨pid, rfl⟩ := hrel
        rcases handle_pubrel st.handled with ⟨ha, ⟨code, hb⟩, hcl, _⟩ | ⟨ha, hb, hcl⟩
        · refine .release pid code hr ?_ (hcore.trans ha) (hack.trans (by rw [hb]; rfl)) hrt
          intro hv
          subst hv
          have h := st.handled
          simp only [handlePacket, handlePacketV3] at h
          split at h
          · cases h; cases hcl
          · cases h
            unfold handlePubrelV3 at hcl
            split at hcl
            · assumption
            · cases hcl
        · refine .reject _ hr rfl (hcore.trans ha) (hack.trans ?_) hrt ?_
          · rw [List.filter_eq_nil_iff]
            intro o h
            obtain ⟨c, rfl⟩ := hb o h
            exact Bool.false_ne_true
          · rw [hpost]
            rcases hcl with h | h <;> simp [h]
      · have hnr : ∀ pid, pkt ≠ .pubrel pid := fun p h => hrel ⟨p, h⟩
        refine .other he (fun x hx => ?_) (hcore.trans (h3 hnr)) (hack.trans ?_) (by rw [hrt]; simp)
          (fun _ => htalk)
        · rw [hr] at hx
          cases hx
          cases pkt <;> first | rfl | exact absurd rfl (hnp _) | exact absurd rfl (hnr _)
        · rw [List.filter_eq_nil_iff]
          intro o h
          rw [handle_not_ack st.handled hnp hnr o h]
          decide

end Akasa
