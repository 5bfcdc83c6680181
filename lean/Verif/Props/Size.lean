import Verif.Proof.Size
import Verif.Props.Deliver
/-!
# Where sent packets come from (C57) and maximum packet sizes (C55)
-/
namespace Akasa

variable {cfg : Config} {ext : Ext} {pr : Proto} {evs : List (Env × Global × SessEv)}
  {recs : List Rec} {i : Str} {id : ClientId} {c : ConnParams}

/-- **C57, nothing is made up.**  Every PUBLISH that a session sends, with whatever QoS and DUP
flag, carries a message that was due to the client in this step or before. -/
theorem C57_origin
    (hrun : ({ session := Session.start cfg pr i id c } : Peer).run cfg ext pr evs = some recs)
    {A B : List Rec} {r : Rec} (hsplit : recs = A ++ r :: B) {w : Publish}
    (hw : .publish w ∈ r.res.out) :
    ∃ r' ∈ A ++ [r], ∃ p ∈ r'.messages cfg pr, ∃ pid dup expiry,
      Carries pr (.publish pid p dup expiry) (.publish w) ∧
      (p.qos = 0 → p ∈ r.messages cfg pr) ∧
      (pr = .v5 → (expiry = none ↔ p.props.messageExpiry = none) ∧
        ∀ v v', p.props.messageExpiry = some v → expiry = some v' → v' ≤ v) := by
  have h := isRun_of_run hrun
  rw [hsplit, isRun_append] at h
  obtain ⟨hA, hpre, hst, _⟩ := h
  rw [← hpre] at hst
  obtain ⟨ops, hw'⟩ := worksOff_step hst
  obtain ⟨ops0, hl, he⟩ := log_of_isRun hA
  have hopen : r.res.closed = false := by
    cases hc : r.res.closed with
    | false => rfl
    | true => rw [hw'.lost hc] at hw; cases hw
  obtain ⟨x, hx, hcar⟩ := (hw'.wire hopen).mem (List.mem_filter.mpr ⟨hw, rfl⟩)
  cases x with
  | pubrel pid => exact absurd hcar (by simp [Carries])
  | publish pid p d e =>
    obtain ⟨h1, h2⟩ := sends_from hx
    have hin : p ∈ messagesOf ops → p ∈ r.messages cfg pr := by
      intro h
      have := mem_messagesOf h
      rw [hw'.inputs] at this
      exact this
    -- what is in the queue before was due before and has a packet identifier
    have hold : p ∈ r.pre.session.sender.msgs →
        p ∈ A.flatMap (Rec.messages cfg pr) ∧ p.qos ≠ 0 := by
      intro h
      rw [hpre, he] at h
      have h3 := (exec_msgs _ _ _).subset h
      rw [List.mem_append] at h3
      rcases h3 with h3 | h3
      · rw [show (Session.start cfg pr i id c).sender =
          Sender.new (windowOf cfg pr c) cfg.maxInMemPending cfg.inflightTimeout from
            start_sender cfg pr i id c] at h3
        cases h3
      · rw [hl.delivered_eq, List.mem_filter] at h3
        exact ⟨h3.1, of_decide_eq_true h3.2⟩
    have hexp : pr = .v5 → (e = none ↔ p.props.messageExpiry = none) ∧
        ∀ v v', p.props.messageExpiry = some v → e = some v' → v' ≤ v := by
      rintro rfl
      rcases h2 with ⟨_, rfl⟩ | h2
      · exact ⟨Iff.rfl, fun v v' h h' => by rw [h] at h'; cases h'; exact Nat.le_refl _⟩
      · exact h2
    rcases h1 with h1 | h1
    · obtain ⟨h3, h4⟩ := hold h1
      rw [List.mem_flatMap] at h3
      obtain ⟨r', h5, h6⟩ := h3
      exact ⟨r', by simp [h5], p, h6, pid, d, e, hcar, fun h => absurd h h4, hexp⟩
    · exact ⟨r, by simp, p, hin h1, pid, d, e, hcar, fun _ => hin h1, hexp⟩

/-- Two messages, one sent again after a reconnect. -/
example : ∃ recs, exDeliverPeer.run exDeliverCfg exExt .v3 exDeliverEvs = some recs ∧
    recs.any (fun r => r.res.out.any fun o => match o with | .publish w => w.dup | _ => false) = true :=
  ⟨_, rfl, by decide⟩

/-! ## C55 -/

/-- **C55**, the full claim: no PUBLISH is larger than the maximum packet size of the connection
(provided that the sizes written down for the messages are right). -/
def NoneTooLarge (cfg : Config) (ext : Ext) : Prop :=
  ∀ (i : Str) (id : ClientId) (c : ConnParams) (evs : List (Env × Global × SessEv))
    (recs : List Rec),
    ({ session := Session.start cfg .v5 i id c } : Peer).run cfg ext .v5 evs = some recs →
    (∀ r ∈ recs, r.sizesRight) →
    ∀ A r B, recs = A ++ r :: B → ∀ w, .publish w ∈ r.res.out →
      w.wireSize ≤ announced c (A ++ [r])

/-- **C55**, the part that holds: every PUBLISH, without the topic alias and the subscription
identifiers that the broker adds, is no larger than the maximum packet size of the connection at
the time when the message became due to the client.  This is the present connection for QoS 0.
Missing (false, see below): the topic alias, the subscription identifiers, and messages that are
still in the queue when the client connects again with a smaller maximum. -/
theorem C55_partial
    (hrun : ({ session := Session.start cfg .v5 i id c } : Peer).run cfg ext .v5 evs = some recs)
    (hsizes : ∀ r ∈ recs, r.sizesRight)
    {A B : List Rec} {r : Rec} (hsplit : recs = A ++ r :: B) {w : Publish}
    (hw : .publish w ∈ r.res.out) :
    ∃ A' B' r', A ++ [r] = A' ++ r' :: B' ∧ w.bare.wireSize ≤ announced c A' ∧
      (w.qosPid = .level0 → B' = []) := by
  obtain ⟨r', hr', p, hp, pid, dup, x, hc, h0, hx⟩ := C57_origin hrun hsplit hw
  have h := isRun_of_run hrun
  have e : A ++ r :: B = (A ++ [r]) ++ B := by simp
  rw [hsplit, e, isRun_append] at h
  have fin : ∀ {A' B' r'}, A ++ [r] = A' ++ r' :: B' → p ∈ r'.messages cfg .v5 →
      w.bare.wireSize ≤ announced c A' := by
    intro A' B' r' he hp'
    have h1 := h.1
    rw [he, isRun_append] at h1
    rw [← limit_run h1.1, ← h1.2.1]
    exact message_size (hsizes r' (by rw [hsplit, e, he]; simp)) hp' hc (hx rfl).1
  by_cases hq : p.qos = 0
  · exact ⟨A, [], r, rfl, fin (B' := []) rfl (h0 hq), fun _ => rfl⟩
  · obtain ⟨A', B', he⟩ := List.append_of_mem hr'
    refine ⟨A', B', r', he, fin he hp, fun hl => ?_⟩
    rw [hc.2.1] at hl
    exact absurd hl (by
      unfold PubPacket.qosPid
      rw [if_neg hq]
      split <;> simp)

/-- **C55**, the part that holds, for one connection or several of which none allows more than
`M`: a PUBLISH without topic alias and subscription identifiers is no larger than `M`. -/
theorem C55_bounded_partial
    (hrun : ({ session := Session.start cfg .v5 i id c } : Peer).run cfg ext .v5 evs = some recs)
    (hsizes : ∀ r ∈ recs, r.sizesRight) {M : Nat} (hc : c.maxPacketSize ≤ M)
    (hM : ∀ r ∈ recs, ∀ c', r.ev = .resume c' → c'.maxPacketSize ≤ M)
    {r : Rec} (hr : r ∈ recs) {w : Publish} (hw : .publish w ∈ r.res.out)
    (ha : w.props.topicAlias = none) (hi : w.props.subscriptionIds = []) : w.wireSize ≤ M := by
  obtain ⟨A, B, hsplit⟩ := List.append_of_mem hr
  obtain ⟨A', B', r', he, hs, _⟩ := C55_partial hrun hsizes hsplit hw
  have hb : w.bare = w := by
    unfold Publish.bare PubProps.bare
    rw [← ha, ← hi]
  rw [hb] at hs
  refine Nat.le_trans hs ?_
  have hsub : ∀ x ∈ A', x ∈ recs := by
    intro x hx
    have : x ∈ A ++ [r] := by rw [he]; simp [hx]
    rw [hsplit]
    simp only [List.mem_append, List.mem_cons, List.not_mem_nil, or_false] at this ⊢
    rcases this with h | h
    · exact .inl h
    · exact .inr (.inl h)
  unfold announced
  clear hs he hsplit hb
  revert hc
  generalize c.maxPacketSize = n
  intro hn
  induction A' generalizing n with
  | nil => exact hn
  | cons x xs ih =>
    rw [List.foldl_cons]
    refine ih (fun y hy => hsub y (by simp [hy])) _ ?_
    split
    · rename_i c' hev
      exact hM x (hsub x (by simp)) c' hev
    · exact hn

/-- A message with QoS 1 whose packet has nine bytes. -/
def exNine : NormalMsg := .publishV5 false 1 (str "a") [1] [str "a"] 1 {} 9

theorem exNine_right : exNine.sizeRight :=
  sizeCovers_of (qp := .level1 1) rfl (by decide)

/-- Subscribe with a subscription identifier or without, get the message, connect again. -/
def exSized (sub : Option Nat) (again : ConnParams) : List (Env × Global × SessEv) :=
  [exAt (.packet (Clock.const 100) 10 (.subscribe 1 [(str "a", { maxQos := 2 })] sub)),
   exAt (.normal exNine), exAt .lost, exAt (.resume again)]

theorem stored_empty (f : Str) : exGlobal.stored f = [] := by
  unfold Global.stored RetainTable.getMatches
  unfold RetainNode.getMatches
  simp only [exGlobal, RetainTable.empty, RetainNode.new, RetainNode.nodes]
  split
  · split
    · rfl
    · rfl
  · split
    · split <;> rfl
    · rfl

theorem exSized_right {sub again recs} {p : Peer}
    (h : p.run {} exExt .v5 (exSized sub again) = some recs) : ∀ r ∈ recs, r.sizesRight := by
  have key : ∀ {evs : List (Env × Global × SessEv)} {p : Peer} {recs},
      (∀ e ∈ evs, e.2.1 = exGlobal ∧ ∀ m, (e.2.2 = .normal m ∨ e.2.2 = .offline m) → m = exNine) →
      p.run {} exExt .v5 evs = some recs → ∀ r ∈ recs, r.sizesRight := by
    intro evs
    induction evs with
    | nil => intro p recs _ h r hr; cases h; cases hr
    | cons e evs ih =>
      obtain ⟨env, g, ev⟩ := e
      intro p recs he h r hr
      rw [Peer.run] at h
      split at h
      · cases h
      · rw [Option.map_eq_some_iff] at h
        obtain ⟨l, h1, rfl⟩ := h
        rcases List.mem_cons.mp hr with rfl | hr
        · have := he (env, g, ev) (by simp)
          refine ⟨fun f c hc => ?_, fun m hm => by rw [this.2 m hm]; exact exNine_right⟩
          simp only at this hc
          rw [this.1] at hc
          have hnone : (exGlobal.stored f) = [] := stored_empty f
          rw [hnone] at hc
          cases hc
        · exact ih (fun e h => he e (by simp [h])) h1 r hr
  refine key ?_ h
  intro e he
  simp only [exSized, List.mem_cons, List.not_mem_nil, or_false] at he
  rcases he with rfl | rfl | rfl | rfl
  all_goals refine ⟨rfl, fun m hm => ?_⟩; rcases hm with hm | hm <;> cases hm
  rfl

/-- A client that allows nine bytes gets nine bytes. -/
example : ∃ recs, ({ session := Session.start {} .v5 (str "me") 7 { maxPacketSize := 9 } } :
      Peer).run {} exExt .v5 (exSized none { maxPacketSize := 9 }) = some recs ∧
    (∀ r ∈ recs, r.sizesRight) ∧
    recs.map (fun r => r.res.out.filterMap fun o =>
      match o with | .publish w => some w.wireSize | _ => none) = [[], [9], [], [9]] :=
  let p : Peer := { session := Session.start {} .v5 (str "me") 7 { maxPacketSize := 9 } }
  have h : ∃ recs, p.run {} exExt .v5 (exSized none { maxPacketSize := 9 }) = some recs ∧
      recs.map (fun r => r.res.out.filterMap fun o =>
        match o with | .publish w => some w.wireSize | _ => none) = [[], [9], [], [9]] :=
    ⟨_, rfl, by decide⟩
  let ⟨recs, h1, h2⟩ := h
  ⟨recs, h1, exSized_right h1, h2⟩

theorem too_large {sub : Option Nat} {again : ConnParams} {c : ConnParams} (k : Nat) {recs : List Rec}
    (h : ({ session := Session.start {} .v5 (str "me") 7 c } : Peer).run {} exExt .v5
      (exSized sub again) = some recs)
    (hk : (recs[k]?.map fun r => r.res.out.any fun o =>
      match o with
      | .publish w => decide (announced c (recs.take k ++ [r]) < w.wireSize)
      | _ => false) = some true) : ¬ NoneTooLarge {} exExt := by
  intro hall
  rw [Option.map_eq_some_iff] at hk
  obtain ⟨r, hr, hany⟩ := hk
  rw [List.any_eq_true] at hany
  obtain ⟨o, ho, hlt⟩ := hany
  cases o with
  | publish w =>
    obtain ⟨hlt', hget⟩ := List.getElem?_eq_some_iff.mp hr
    have hsplit : recs = recs.take k ++ r :: recs.drop (k + 1) := by
      rw [← hget, List.getElem_cons_drop, List.take_append_drop]
    have := hall _ _ _ _ _ h (exSized_right h) _ _ _ hsplit w ho
    have hlt := of_decide_eq_true hlt
    omega
  | _ => cases hlt

/-- **C55** is false: the subscription identifier is added after the size was checked.  The client
allows nine bytes and gets eleven. -/
theorem C55_ids_false : ¬ NoneTooLarge {} exExt :=
  too_large (sub := some 5) (again := {}) (c := { maxPacketSize := 9 }) 1 rfl (by decide)

/-- **C55** is false: so is the topic alias. -/
theorem C55_alias_false : ¬ NoneTooLarge {} exExt :=
  too_large (sub := none) (again := {}) (c := { maxPacketSize := 9, aliasMax := 1 }) 1 rfl (by decide)

/-- **C55** is false: messages in the queue are not checked again when the client connects with a
smaller maximum packet size. -/
theorem C55_resume_false : ¬ NoneTooLarge {} exExt :=
  too_large (sub := none) (again := { maxPacketSize := 8 }) (c := { maxPacketSize := 9 }) 3 rfl
    (by decide)

/-! ### Whether the size written down for a message is right -/

/-- **C55**, where the sizes come from, MQTT 5: if the topic name was in the packet, the size
written down for the message is right. -/
theorem C55_source_v5_partial {env : Env} {g : Global} {s : Session} {n : Nat} {p : Publish} {r : Res}
    (h : handlePacket cfg ext .v5 env g s n (.publish p) = some r) (hlen : ext.encLen p = p.wireSize)
    (htop : p.topic ≠ []) {m : SendPub} (hm : m ∈ r.routed) :
    SizeCovers m.encodeLen m.topic m.payload m.qos m.props := by
  have hroute : ∀ {s1 t}, Resolved cfg .v5 s p s1 t →
      SizeCovers (ext.encLen p) t p.payload p.qosPid.qos { p.props with topicAlias := none } := by
    intro s1 t hres
    have ht : t = p.topic := resolved_given hres htop
    rw [ht]
    refine sizeCovers_of (qp := p.qosPid) rfl ?_
    rw [hlen]
    exact wireSize_bare_le p
  have hm' := routed_publish (handle_publish_cases h) hm
  obtain ⟨s1, t, hres, rfl⟩ := hm'
  exact hroute hres

/-- **C55**, where the sizes come from, MQTT 3: the size is right if the remaining length does not
need another byte when the empty properties are added. -/
theorem C55_source_v3_partial {env : Env} {g : Global} {s : Session} {n : Nat} {p : Publish} {r : Res}
    (h : handlePacket cfg ext .v3 env g s n (.publish p) = some r)
    (hlen : ext.encLen p = p.wireSizeV3)
    (hedge : varintLen (p.remainingV3 + 1) = varintLen p.remainingV3)
    {m : SendPub} (hm : m ∈ r.routed) :
    SizeCovers (m.encodeLen + 1) m.topic m.payload m.qos {} := by
  obtain ⟨s1, t, hres, rfl⟩ := routed_publish (handle_publish_cases h) hm
  obtain ⟨_, _, rfl, _⟩ := hres
  refine sizeCovers_of (qp := p.qosPid) rfl ?_
  show _ ≤ ext.encLen p + 1
  rw [hlen]
  have h1 : (({ dup := false, retain := false, qosPid := p.qosPid, topic := p.topic
                payload := p.payload, props := ({} : PubProps).bare } : Publish)).remaining =
      p.remainingV3 + 1 := by
    show 2 + textLen p.topic + (if p.qosPid = .level0 then 0 else 2) + (varintLen 0 + 0) +
      p.payload.length = _
    unfold Publish.remainingV3
    have : varintLen 0 = 1 := rfl
    omega
  refine Nat.le_of_eq ?_
  refine Eq.trans (b := 1 + varintLen (p.remainingV3 + 1) + (p.remainingV3 + 1)) ?_ ?_
  · rw [← h1]; rfl
  rw [hedge]
  unfold Publish.wireSizeV3
  omega

/-- Both kinds of packets that are passed on. -/
example : ∃ r r3 m m3,
    handlePacket {} { exExt with encLen := Publish.wireSize } .v5 {} exGlobal (exPeer .v5).session 10
      (.publish { dup := false, retain := false, qosPid := .level1 3, topic := str "a"
                  payload := [1] }) = some r ∧ r.routed = [m] ∧ m.encodeLen = 9 ∧
    handlePacket {} { exExt with encLen := Publish.wireSizeV3 } .v3 {} exGlobal (exPeer .v3).session 10
      (.publish { dup := false, retain := false, qosPid := .level1 3, topic := str "a"
                  payload := [1] }) = some r3 ∧ r3.routed = [m3] ∧ m3.encodeLen = 8 :=
  ⟨_, _, _, _, rfl, rfl, rfl, rfl, rfl, rfl⟩

/-- The sizes are not always right.  MQTT 5: if the topic name is given by an alias, it is not
counted. -/
theorem C55_source_v5_false : ¬ ∀ (s : Session) (p : Publish) (r : Res),
    handlePacket { topicAliasMax := 5 } { exExt with encLen := Publish.wireSize } .v5 {} exGlobal s 10
      (.publish p) = some r →
    ∀ m ∈ r.routed, SizeCovers m.encodeLen m.topic m.payload m.qos m.props := by
  intro h
  have h1 := h { (exPeer .v5).session with aliases := [(1, str "a-long-topic")] }
    { dup := false, retain := false, qosPid := .level0, topic := [], payload := []
      props := { topicAlias := some 1 } } _ rfl _ (List.mem_singleton.mpr rfl)
    { dup := false, retain := false, qosPid := .level0, topic := str "a-long-topic", payload := [] }
    rfl rfl rfl rfl
  revert h1
  decide

/-- The sizes are not always right.  MQTT 3: 127 bytes after the fixed header become 128 with the
empty properties, so that the remaining length needs two bytes. -/
theorem C55_source_v3_false : ¬ ∀ (s : Session) (p : Publish) (r : Res),
    handlePacket {} { exExt with encLen := Publish.wireSizeV3 } .v3 {} exGlobal s 10
      (.publish p) = some r →
    ∀ m ∈ r.routed, SizeCovers (m.encodeLen + 1) m.topic m.payload m.qos {} := by
  intro h
  have h1 := h (exPeer .v3).session
    { dup := false, retain := false, qosPid := .level0, topic := str "a"
      payload := List.replicate 124 0 } _ rfl _ (List.mem_singleton.mpr rfl)
    { dup := false, retain := false, qosPid := .level0, topic := str "a"
      payload := List.replicate 124 0 }
    rfl rfl rfl rfl
  revert h1
  decide +kernel

end Akasa
