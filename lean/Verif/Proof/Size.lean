import Verif.Spec.Size
import Verif.Proof.DeliverLog
import Verif.Proof.WorldFrame
/-! # Where sent packets come from, and their sizes -/
namespace Akasa

variable {cfg : Config} {ext : Ext} {pr : Proto}

/-! ## The maximum packet size -/

theorem limit_publish {env : Env} {g : Global} {s : Session} {p : Publish} {r : Res}
    (h : PubCase cfg ext pr env g s p r) : r.session.maxPacketSize = s.maxPacketSize := by
  have hres : ∀ {s1 t}, Resolved cfg pr s p s1 t → s1.maxPacketSize = s.maxPacketSize := by
    intro s1 t h
    rw [resolved_ident h]
  cases h with
  | rejectV5 hpr s' hs code =>
    rcases hs with rfl | ⟨t, hs⟩
    · rfl
    · exact (hres hs :)
  | rejectV3 => rfl
  | inUse _ s1 t pid prev h => exact hres h
  | repeated s1 t pid h => exact hres h
  | lostFirst s1 t pid h => exact (hres h :)
  | route2 s1 t pid s' g' n h hp hd hg hlen hs =>
    have := hres h
    exact (ident_maxPacketSize (ident_of_core (core_sendOf hs))).trans this
  | route01 s1 t s' g' n h hp hs =>
    exact (ident_maxPacketSize (ident_of_core (core_sendOf hs))).trans (hres h)

theorem limit_packet {env : Env} {g : Global} {s : Session} {n : Nat} {p : InPkt} {r : Res}
    (h : handlePacket cfg ext .v5 env g s n p = some r) :
    r.session.maxPacketSize = s.maxPacketSize := by
  by_cases hp : ∃ q, p = .publish q
  · obtain ⟨q, rfl⟩ := hp
    exact limit_publish (handle_publish_cases h)
  simp only [handlePacket, handlePacketV5] at h
  split at h
  · cases h; rfl
  cases p with
  | publish q => exact absurd ⟨q, rfl⟩ hp
  | subscribe pid ts id =>
    simp only [handleSubscribeV5] at h
    split at h
    · cases h; rfl
    split at h
    · cases h; rfl
    rw [Option.map_eq_some_iff] at h
    obtain ⟨a, h1, rfl⟩ := h
    exact (ident_maxPacketSize (ident_subscribeLoopV5 h1) :)
  | unsubscribe pid ts =>
    simp only [handleUnsubscribeV5, Option.map_eq_some_iff] at h
    obtain ⟨a, h1, rfl⟩ := h
    exact (ident_maxPacketSize (ident_unsubscribeLoopV5 h1) :)
  | pubrel pid =>
    cases h
    unfold handlePubrelV5
    split <;> rfl
  | disconnect c e =>
    cases h
    unfold handleDisconnectV5
    split
    · split <;> rfl
    · rfl
  | _ => cases h; rfl

theorem limit_step {r : Rec} (hs : r.pre.step cfg ext .v5 r.env r.before r.ev = some (r.post, r.res)) :
    r.post.session.maxPacketSize =
      match r.ev with | .resume c => c.maxPacketSize | _ => r.pre.session.maxPacketSize := by
  obtain ⟨ev, env, before, pre, post, res⟩ := r
  simp only at hs
  cases ev with
  | packet after n p =>
    simp only [Peer.step] at hs
    split at hs
    · rw [Option.map_eq_some_iff] at hs
      obtain ⟨a, ha, hb⟩ := hs
      simp only [Prod.mk.injEq] at hb
      obtain ⟨rfl, rfl⟩ := hb
      obtain ⟨r0, h0, hc, -⟩ := onPacket_handled ha
      exact (ident_maxPacketSize (ident_of_core hc)).trans (limit_packet h0)
    · simp only [Option.some.injEq, Prod.mk.injEq] at hs
      rw [← hs.1]
  | normal m =>
    simp only [Peer.step] at hs
    split at hs
    · simp only [Option.some.injEq, Prod.mk.injEq] at hs
      rw [← hs.1]
      exact ident_maxPacketSize (ident_of_core (core_onNormal ..))
    · simp only [Option.some.injEq, Prod.mk.injEq] at hs
      rw [← hs.1]
  | offline m =>
    simp only [Peer.step] at hs
    split at hs
    · simp only [Option.some.injEq, Prod.mk.injEq] at hs
      rw [← hs.1]
    · simp only [Option.some.injEq, Prod.mk.injEq] at hs
      rw [← hs.1]
      exact ident_maxPacketSize (ident_of_core (core_normal ..))
  | passed b n =>
    simp only [Peer.step, Option.some.injEq, Prod.mk.injEq] at hs
    rw [← hs.1]
  | lost =>
    simp only [Peer.step, Option.some.injEq, Prod.mk.injEq] at hs
    rw [← hs.1]
  | resume c =>
    simp only [Peer.step, Option.some.injEq, Prod.mk.injEq] at hs
    rw [← hs.1]
    rfl

theorem limit_run {i : Str} {id : ClientId} {c : ConnParams} {recs : List Rec}
    (h : IsRun cfg ext .v5 { session := Session.start cfg .v5 i id c } recs) :
    (endOf { session := Session.start cfg .v5 i id c } recs).session.maxPacketSize =
      announced c recs := by
  induction recs using snoc_induction with
  | nil => rfl
  | snoc recs r ih =>
    rw [isRun_append] at h
    obtain ⟨h1, h2, h3, _⟩ := h
    rw [← h2] at h3
    rw [endOf_append]
    show r.post.session.maxPacketSize = _
    rw [limit_step h3, h2]
    unfold announced
    rw [List.foldl_append, List.foldl_cons, List.foldl_nil]
    cases r.ev <;> first | rfl | exact ih h1

/-! ## Where a sent packet comes from -/

theorem CarriesAll.mem {xs : List (Sent PubPacket)} {os : List OutPkt} (h : CarriesAll pr xs os)
    {o : OutPkt} (ho : o ∈ os) : ∃ x ∈ xs, Carries pr x o := by
  induction h with
  | nil => cases ho
  | @cons x o' xs os hx _ ih =>
    rcases List.mem_cons.mp ho with rfl | ho
    · exact ⟨x, by simp, hx⟩
    · obtain ⟨y, hy, h⟩ := ih ho
      exact ⟨y, by simp [hy], h⟩

theorem mem_messagesOf {ops : List OutOp} {p : PubPacket} (h : p ∈ messagesOf ops) :
    p ∈ (ops.filterMap OutOp.input).filterMap Input.message? := by
  unfold messagesOf at h
  rw [List.mem_filterMap] at h
  obtain ⟨op, h1, h2⟩ := h
  rw [List.mem_filterMap]
  refine ⟨.message p, List.mem_filterMap.mpr ⟨op, h1, ?_⟩, rfl⟩
  cases op with
  | direct q => cases h2; rfl
  | queue o => cases o <;> simp_all [OutOp.message?, OutOp.input]

theorem mem_delivered_queue {ops : List OutOp} {p : PubPacket} (h : p ∈ delivered (queueOps ops)) :
    p ∈ messagesOf ops := by
  induction ops with
  | nil => cases h
  | cons op ops ih =>
    unfold messagesOf at *
    rw [List.filterMap_cons]
    cases op with
    | direct q => exact List.mem_cons_of_mem _ (ih h)
    | queue o =>
      cases o with
      | deliver now q =>
        rcases List.mem_cons.mp h with rfl | h
        · exact List.mem_cons_self ..
        · exact List.mem_cons_of_mem _ (ih h)
      | _ => exact ih h

/-- A packet sent by some operations has a message in the queue or one of theirs; with QoS 0 only
one of theirs. -/
theorem sends_from {exp : PubPacket → Option Nat} {s : Sender PubPacket} {ops : List OutOp} {pid : Pid}
    {p : PubPacket} {d : Bool} {x : Option Nat} (h : .publish pid p d x ∈ sends exp s ops) :
    (p ∈ s.msgs ∨ p ∈ messagesOf ops) ∧
    ((.direct p ∈ ops ∧ x = p.props.messageExpiry) ∨
      (x = none ↔ exp p = none) ∧ ∀ v v', exp p = some v → x = some v' → v' ≤ v) := by
  induction ops generalizing s with
  | nil => cases h
  | cons op ops ih =>
    cases op with
    | direct q =>
      simp only [sends, List.mem_cons] at h
      rcases h with h | h
      · cases h
        exact ⟨.inr (by simp [messagesOf, OutOp.message?]), .inl ⟨by simp, rfl⟩⟩
      · obtain ⟨h1, h2⟩ := ih h
        refine ⟨h1.imp_right fun h => ?_, h2.imp_left fun h => ⟨by simp [h.1], h.2⟩⟩
        unfold messagesOf at *
        rw [List.filterMap_cons]
        exact List.mem_cons_of_mem _ h
    | queue o =>
      simp only [sends, List.mem_append] at h
      rcases h with h | h
      · refine ⟨.inl ((step_allSent exp s o).subset (sent_mem_allSent h)), .inr ?_⟩
        cases o with
        | pass clk =>
          obtain ⟨a, l, k, _, h1, h2, _⟩ := pass_sent h
          refine ⟨⟨fun hx => ?_, h1⟩, fun v v' hv hx => ?_⟩
          · cases he : exp p with
            | none => rfl
            | some v => rw [(h2 v he).1] at hx; cases hx
          · rw [(h2 v hv).1] at hx
            cases hx
            exact Nat.sub_le ..
        | _ => simp [Sender.step] at h
      · obtain ⟨h1, h2⟩ := ih h
        refine ⟨?_, h2.imp_left fun h => ⟨by simp [h.1], h.2⟩⟩
        have hm : ∀ {p}, p ∈ messagesOf ops → p ∈ messagesOf (.queue o :: ops) := by
          intro p hp
          unfold messagesOf at *
          rw [List.filterMap_cons]
          split
          · exact hp
          · exact List.mem_cons_of_mem _ hp
        rcases h1 with h1 | h1
        · have h3 := (exec_msgs exp s [o]).subset (by rw [show s.exec exp [o] = (s.step exp o).1 from rfl]; exact h1)
          rw [List.mem_append] at h3
          rcases h3 with h3 | h3
          · exact .inl h3
          · have := mem_delivered_queue (ops := [.queue o]) h3
            right
            unfold messagesOf at *
            rw [List.filterMap_cons] at this ⊢
            split at this
            · cases this
            · rename_i q hq
              rw [List.filterMap_nil, List.mem_singleton] at this
              subst this
              simp
        · exact .inr (hm h1)

/-! ## Sizes -/

theorem varintLen_mono {a b : Nat} (h : a ≤ b) : varintLen a ≤ varintLen b := by
  unfold varintLen
  repeat' split
  all_goals omega

theorem wireSize_le {a b : Publish} (k : Nat) (h : a.remaining + k ≤ b.remaining) :
    a.wireSize + k ≤ b.wireSize := by
  have := varintLen_mono (show a.remaining ≤ b.remaining by omega)
  unfold Publish.wireSize
  omega

theorem props_bare_size {a b : PubProps} (h1 : a.payloadIsUtf8 = b.payloadIsUtf8)
    (h2 : a.messageExpiry = none ↔ b.messageExpiry = none) (h3 : a.responseTopic = b.responseTopic)
    (h4 : a.correlationData = b.correlationData) (h5 : a.userProperties = b.userProperties)
    (h6 : a.contentType = b.contentType) : a.bare.wireSize = b.bare.wireSize := by
  unfold PubProps.wireSize PubProps.bare
  simp only [h1, h3, h4, h5, h6]
  by_cases h : a.messageExpiry = none
  · rw [if_pos h, if_pos (h2.mp h)]
  · rw [if_neg h, if_neg fun hb => h (h2.mpr hb)]

theorem qosPid_qos_cases (q : QosPid) : (q = .level0 ∧ q.qos = 0) ∨ (q ≠ .level0 ∧ q.qos ≠ 0) := by
  cases q
  · exact .inl ⟨rfl, rfl⟩
  · exact .inr ⟨by simp, by simp [QosPid.qos]⟩
  · exact .inr ⟨by simp, by simp [QosPid.qos]⟩

/-- A packet with a message whose size was right, after the QoS was reduced. -/
theorem size_reduced {size limit : Nat} {topic : Str} {payload : Bytes} {q f : QoS} {props : PubProps}
    (hc : SizeCovers size topic payload q props) (hf : f ≤ q) (hl : ¬ limit < sizeAt size q f)
    {w : Publish} (ht : w.topic = topic ∨ w.topic = []) (hp : w.payload = payload)
    (hq : w.qosPid.qos = f) (hs : w.props.bare.wireSize = props.bare.wireSize) :
    w.bare.wireSize ≤ limit := by
  have hqp : ∃ qp : QosPid, qp.qos = q := by
    by_cases h0 : q = 0
    · exact ⟨.level0, h0.symm⟩
    · by_cases h1 : q = 1
      · exact ⟨.level1 0, h1.symm⟩
      · refine ⟨.level2 0, ?_⟩
        show (2 : Fin 3) = q
        have := q.isLt
        apply Fin.ext
        have h2 : q.val ≠ 0 := fun h => h0 (Fin.ext h)
        have h3 : q.val ≠ 1 := fun h => h1 (Fin.ext h)
        show 2 = q.val
        omega
  obtain ⟨qp, hqp⟩ := hqp
  have hv := hc { dup := false, retain := false, qosPid := qp, topic, payload, props := props.bare }
    rfl rfl rfl hqp
  have htl : textLen w.topic ≤ textLen topic := by
    rcases ht with ht | ht <;> rw [ht]
    · exact Nat.le_refl _
    · exact Nat.zero_le _
  have key : ∀ k, (w.qosPid = .level0 → qp = .level0 ∧ k = 0 ∨ qp ≠ .level0 ∧ k = 2) →
      (w.qosPid ≠ .level0 → qp ≠ .level0 ∧ k = 0) → w.bare.wireSize + k ≤ size := by
    intro k h1 h2
    refine Nat.le_trans (wireSize_le k ?_) hv
    unfold Publish.remaining Publish.bare
    simp only [hs, hp]
    by_cases h0 : w.qosPid = .level0
    · rw [if_pos h0]
      rcases h1 h0 with ⟨h, rfl⟩ | ⟨h, rfl⟩
      · rw [if_pos h]; omega
      · rw [if_neg h]; omega
    · obtain ⟨h, rfl⟩ := h2 h0
      rw [if_neg h0, if_neg h]; omega
  have hq0 : ∀ {q : QosPid}, q = .level0 ↔ q.qos = 0 := by
    intro q
    rcases qosPid_qos_cases q with h | h
    · exact ⟨fun _ => h.2, fun _ => h.1⟩
    · exact ⟨fun e => absurd e h.1, fun e => absurd e h.2⟩
  unfold sizeAt at hl
  by_cases h0 : f = 0 ∧ q ≠ 0
  · rw [if_pos h0] at hl
    have := key 2 (fun _ => .inr ⟨fun h => h0.2 (hqp ▸ hq0.mp h), rfl⟩)
      (fun h => absurd (hq0.mpr (hq.trans h0.1)) h)
    omega
  · rw [if_neg h0] at hl
    have := key 0
      (fun h => .inl ⟨hq0.mpr (hqp.trans (Classical.byContradiction fun hn =>
        h0 ⟨hq.symm.trans (hq0.mp h), hn⟩)), rfl⟩)
      (fun h => ⟨fun hn => h (hq0.mpr (hq.trans (by
        have h1 : q = 0 := hqp.symm.trans (hq0.mp hn)
        rw [h1] at hf
        exact Fin.ext (Nat.le_zero.mp hf)))), rfl⟩)
    omega

/-- A packet with a message due to the client is, without what the broker adds, as small as the
client wants. -/
theorem message_size {r : Rec} (hr : r.sizesRight) {p : PubPacket} (hp : p ∈ r.messages cfg .v5)
    {pid : Pid} {dup : Bool} {expiry : Option Nat} {w : Publish}
    (hc : Carries .v5 (.publish pid p dup expiry) (.publish w))
    (he : expiry = none ↔ p.props.messageExpiry = none) :
    w.bare.wireSize ≤ r.pre.session.maxPacketSize := by
  obtain ⟨-, hq, -, hpay, htop, hprops⟩ := hc
  have hq : w.qosPid.qos = p.qos := by
    rw [hq]
    unfold PubPacket.qosPid
    split
    · rename_i h; exact h.symm
    · split
      · rename_i h; exact h.symm
      · rename_i h0 h1
        show (2 : Fin 3) = p.qos
        have := p.qos.isLt
        have h2 : p.qos.val ≠ 0 := fun h => h0 (Fin.ext h)
        have h3 : p.qos.val ≠ 1 := fun h => h1 (Fin.ext h)
        apply Fin.ext
        show 2 = p.qos.val
        omega
  have htop : w.topic = p.topic ∨ w.topic = [] := htop.imp_right And.left
  have hsz : w.props.bare.wireSize = p.props.bare.wireSize := by
    rw [hprops]
    exact props_bare_size rfl he rfl rfl rfl rfl
  have hdue : ∀ {m : NormalMsg}, m.sizeRight → dueOf cfg .v5 r.pre.session m = some p →
      w.bare.wireSize ≤ r.pre.session.maxPacketSize := by
    intro m hm hd
    simp only [dueOf, dueV5] at hd
    split at hd
    · cases hd
    · split at hd
      · cases hd
      · rename_i hlim
        cases hd
        exact size_reduced hm (Std.min_le_left) hlim htop hpay hq (hsz.trans rfl)
  unfold Rec.messages Rec.inputs at hp
  rw [List.mem_filterMap] at hp
  obtain ⟨inp, hin, hmsg⟩ := hp
  cases inp with
  | message p' =>
    cases hmsg
    cases hev : r.ev with
    | packet after n pkt =>
      rw [hev] at hin
      simp only at hin
      split at hin
      · cases pkt with
        | subscribe sid topics sub =>
          simp only [InPkt.inputs] at hin
          split at hin
          · cases hin
          · rw [List.mem_map] at hin
            obtain ⟨p', hin, hpp⟩ := hin
            cases hpp
            suffices ∀ ts earlier, p ∈ retainedDueV5 cfg r.before r.pre.session sub earlier ts →
                w.bare.wireSize ≤ r.pre.session.maxPacketSize from this _ _ hin
            intro ts
            induction ts with
            | nil => intro earlier h; cases h
            | cons t ts ih =>
              obtain ⟨F, o⟩ := t
              intro earlier h
              rw [retainedDueV5, List.mem_append] at h
              rcases h with h | h
              · unfold retainedV5 at h
                split at h
                · rw [List.mem_filterMap] at h
                  obtain ⟨rc, h1, h2⟩ := h
                  unfold retainedCopyV5 at h2
                  split at h2
                  · cases h2
                  · split at h2
                    · cases h2
                    · rename_i hlim
                      cases h2
                      exact size_reduced (hr.1 F rc h1) (Std.min_le_left) hlim htop hpay hq
                        (hsz.trans rfl)
                · cases h
              · exact ih _ h
        | _ => simp [InPkt.inputs] at hin
      · cases hin
    | normal m =>
      rw [hev] at hin
      simp only at hin
      split at hin
      · rw [Option.mem_toList, Option.map_eq_some_iff] at hin
        obtain ⟨p', hd, hpp⟩ := hin
        cases hpp
        exact hdue (hr.2 m (.inl hev)) hd
      · cases hin
    | offline m =>
      rw [hev] at hin
      simp only at hin
      split at hin
      · cases hin
      · rw [Option.mem_toList, Option.map_eq_some_iff] at hin
        obtain ⟨p', hd, hpp⟩ := hin
        cases hpp
        rw [Option.filter_eq_some_iff] at hd
        exact hdue (hr.2 m (.inr hev)) hd.1
    | resume c' => rw [hev] at hin; simp at hin
    | _ => rw [hev] at hin; cases hin
  | _ => cases hmsg

/-! ## Sizes written down -/

theorem level0_iff {q : QosPid} : q = .level0 ↔ q.qos = 0 := by
  rcases qosPid_qos_cases q with h | h
  · exact ⟨fun _ => h.2, fun _ => h.1⟩
  · exact ⟨fun e => absurd e h.1, fun e => absurd e h.2⟩

theorem sizeCovers_of {size : Nat} {topic : Str} {payload : Bytes} {q : QoS} {props : PubProps}
    {qp : QosPid} (hq : qp.qos = q)
    (h : ({ dup := false, retain := false, qosPid := qp, topic, payload, props := props.bare } :
      Publish).wireSize ≤ size) : SizeCovers size topic payload q props := by
  intro p h1 h2 h3 h4
  refine Nat.le_trans ?_ h
  have : (p.qosPid = .level0) = (qp = .level0) := by
    rw [level0_iff, level0_iff, h4, hq]
  unfold Publish.wireSize Publish.remaining
  simp only [h1, h2, h3, this]
  exact Nat.le_refl _

theorem props_size_bare (p : PubProps) : p.bare.wireSize ≤ p.wireSize := by
  unfold PubProps.wireSize PubProps.bare
  simp only [List.map_nil, List.sum_nil, ite_true]
  omega

/-- Leaving out properties makes a packet smaller. -/
theorem wireSize_bare_le (p : Publish) :
    ({ dup := false, retain := false, qosPid := p.qosPid, topic := p.topic, payload := p.payload
       props := ({ p.props with topicAlias := none } : PubProps).bare } : Publish).wireSize ≤
      p.wireSize := by
  refine wireSize_le 0 ?_
  have h1 := props_size_bare p.props
  have h2 := varintLen_mono h1
  show 2 + textLen p.topic + (if p.qosPid = .level0 then 0 else 2) +
    (varintLen p.props.bare.wireSize + p.props.bare.wireSize) + p.payload.length + 0 ≤ _
  unfold Publish.remaining
  omega

theorem resolved_given {s s1 : Session} {p : Publish} {t : Str} (h : Resolved cfg pr s p s1 t)
    (hp : p.topic ≠ []) : t = p.topic := by
  rcases resolved_topic h with h | h
  · exact h.2.1
  · exact absurd h.2.1 hp

theorem routed_publish {env : Env} {g : Global} {s : Session} {p : Publish} {r : Res}
    (h : PubCase cfg ext pr env g s p r) {m : SendPub} (hm : m ∈ r.routed) :
    ∃ s1 t, Resolved cfg pr s p s1 t ∧ m = toSend ext pr p t := by
  cases h with
  | route2 s1 t pid s' g' n h => exact ⟨s1, t, h, List.mem_singleton.mp hm⟩
  | route01 s1 t s' g' n h => exact ⟨s1, t, h, List.mem_singleton.mp hm⟩
  | _ => cases hm

end Akasa
