import Verif.Proof.OnceOps
/-! # Runs of a session, the network and the client -/
namespace Akasa

variable {cfg : Config} {ext : Ext} {pr : Proto}
variable {keep live : Bool} {D : List PubPacket} {s : Sender PubPacket} {r : Receiver}

theorem quiet_of_level0 {w : Publish} (h : w.qosPid = .level0) : (OutPkt.publish w).Quiet := by
  constructor
  · intro k hk
    have := pubIn_one.1 hk
    rw [h] at this
    cases this
  · intro k c h
    cases h

theorem Once.ops {ops : List OutOp} (hin : ∀ i ∈ ops.filterMap OutOp.input, ∃ p, i = .message p)
    (hway : RightWay ops) (hr : Space keep pr D s (delivered (queueOps ops)))
    (h : Once keep true pr D s r) {os : List OutPkt}
    (hcar : CarriesAll pr (sends (expiryOf pr) s ops) os) :
    Once keep true pr (D ++ delivered (queueOps ops)) (s.exec (expiryOf pr) (queueOps ops))
      { r with down := r.down ++ os } := by
  induction ops generalizing s r D os with
  | nil =>
    cases hcar
    have he : ({ r with down := r.down ++ [] } : Receiver) = r := by rw [List.append_nil]
    rw [he]
    show Once keep true pr (D ++ []) s r
    rw [List.append_nil]
    exact h
  | cons op ops ih =>
    have hin' : ∀ i ∈ ops.filterMap OutOp.input, ∃ p, i = .message p := by
      intro i hi
      refine hin i ?_
      rw [List.filterMap_cons]
      split
      · exact hi
      · exact List.mem_cons_of_mem _ hi
    cases op with
    | direct p =>
      have h0 := hway.1 p (by simp)
      rw [sends] at hcar
      cases hcar with
      | @cons _ o _ os h1 h2 =>
        have ho : o.Quiet := by
          cases o with
          | publish w =>
            refine quiet_of_level0 ?_
            rw [h1.2.1, PubPacket.qosPid, if_pos h0]
          | _ => cases h1
        have h3 : Once keep true pr D s { r with down := r.down ++ [o] } :=
          Once.insert (r := r) (a := r.down) (b := []) (by simpa using h) ho
        have := ih hin' hway.tail hr h3 h2
        simp only [queueOps]
        simpa using this
    | queue op =>
      simp only [sends] at hcar
      obtain ⟨os1, os2, rfl, hc1, hc2⟩ := hcar.split
      simp only [queueOps] at hr ⊢
      rw [exec_cons, delivered_cons, ← List.append_assoc]
      cases op with
      | deliver now p =>
        cases hc1
        rw [List.nil_append]
        exact ih hin' hway.tail hr.tail (h.deliver (ds := delivered (queueOps ops)) (by
          simpa [delivered] using hr)) hc2
      | pass clk =>
        have h3 := ih hin' hway.tail hr.tail (by simpa [delivered] using h.pass hc1) hc2
        rw [← List.append_assoc]
        exact h3
      | puback pid => obtain ⟨p, h⟩ := hin (.puback pid) (by simp [OutOp.input]); cases h
      | pubrec now pid => obtain ⟨p, h⟩ := hin (.pubrec pid) (by simp [OutOp.input]); cases h
      | pubcomp pid => obtain ⟨p, h⟩ := hin (.pubcomp pid) (by simp [OutOp.input]); cases h
      | reconnect m => obtain ⟨p, h⟩ := hin (.reconnect m) (by simp [OutOp.input]); cases h

/-- The same when nothing of it reaches the client. -/
theorem Once.opsWeak {ops : List OutOp} (hin : ∀ i ∈ ops.filterMap OutOp.input, ∃ p, i = .message p)
    (hr : Space keep pr D s (delivered (queueOps ops))) (h : Once keep false pr D s r) :
    Once keep false pr (D ++ delivered (queueOps ops)) (s.exec (expiryOf pr) (queueOps ops)) r := by
  induction ops generalizing s D with
  | nil =>
    show Once keep false pr (D ++ []) s r
    rw [List.append_nil]
    exact h
  | cons op ops ih =>
    have hin' : ∀ i ∈ ops.filterMap OutOp.input, ∃ p, i = .message p := by
      intro i hi
      refine hin i ?_
      rw [List.filterMap_cons]
      split
      · exact hi
      · exact List.mem_cons_of_mem _ hi
    cases op with
    | direct p => exact ih hin' hr h
    | queue op =>
      simp only [queueOps] at hr ⊢
      rw [exec_cons, delivered_cons, ← List.append_assoc]
      cases op with
      | deliver now p =>
        exact ih hin' hr.tail (h.deliver (ds := delivered (queueOps ops)) (by
          simpa [delivered] using hr))
      | pass clk => exact ih hin' hr.tail (by simpa [delivered] using h.passWeak)
      | puback pid => obtain ⟨p, h⟩ := hin (.puback pid) (by simp [OutOp.input]); cases h
      | pubrec now pid => obtain ⟨p, h⟩ := hin (.pubrec pid) (by simp [OutOp.input]); cases h
      | pubcomp pid => obtain ⟨p, h⟩ := hin (.pubcomp pid) (by simp [OutOp.input]); cases h
      | reconnect m => obtain ⟨p, h⟩ := hin (.reconnect m) (by simp [OutOp.input]); cases h

/-- The broker reads an answer. -/
theorem sees_answer {pk : InPkt} {r2 : Receiver} (ha : pk.isAnswer = true)
    (h : r.sees (.received pk) = some r2) : ∃ rest, r.up = pk :: rest ∧ r2 = { r with up := rest } := by
  simp only [Receiver.sees] at h
  rw [if_pos ha] at h
  cases hu : r.up with
  | nil => rw [hu] at h; cases h
  | cons q rest =>
    rw [hu] at h
    simp only at h
    split at h
    · rename_i hq
      cases h
      exact ⟨rest, by rw [hq], rfl⟩
    · cases h

theorem sees_other {pk : InPkt} {r2 : Receiver} (ha : pk.isAnswer = false)
    (h : r.sees (.received pk) = some r2) : r2 = r := by
  simp only [Receiver.sees] at h
  rw [ha] at h
  cases h
  rfl

/-- After the first operation. -/
theorem Once.afterFirst {o : SendOp PubPacket} {ops : List OutOp} {r2 : Receiver}
    (hin : ∀ i ∈ ops.filterMap OutOp.input, ∃ p, i = .message p) (hway : RightWay ops)
    (hr : Space keep pr D s (delivered (queueOps (.queue o :: ops)))) (hd : delivered [o] = [])
    {os : List OutPkt} (h1 : ∀ os1, CarriesAll pr (s.step (expiryOf pr) o).2 os1 →
      Once keep true pr D (s.step (expiryOf pr) o).1 { r2 with down := r2.down ++ os1 })
    (hcar : CarriesAll pr (sends (expiryOf pr) s (.queue o :: ops)) os) :
    Once keep true pr (D ++ delivered (queueOps (.queue o :: ops)))
      (s.exec (expiryOf pr) (queueOps (.queue o :: ops))) { r2 with down := r2.down ++ os } := by
  rw [sends_cons] at hcar
  obtain ⟨os1, os2, rfl, hc1, hc2⟩ := hcar.split
  have hr1 := Space.tail (ops := queueOps ops) (op := o) hr
  rw [hd, List.append_nil] at hr1
  have he : delivered (queueOps (.queue o :: ops)) = delivered (queueOps ops) := by
    show delivered (o :: queueOps ops) = _
    rw [delivered_cons, hd]; rfl
  rw [he]
  have := Once.ops hin hway hr1 (h1 os1 hc1) hc2
  rw [← List.append_assoc]
  exact this

theorem Once.afterFirstWeak {o : SendOp PubPacket} {ops : List OutOp} {r2 : Receiver}
    (hin : ∀ i ∈ ops.filterMap OutOp.input, ∃ p, i = .message p)
    (hr : Space keep pr D s (delivered (queueOps (.queue o :: ops)))) (hd : delivered [o] = [])
    (h1 : Once keep false pr D (s.step (expiryOf pr) o).1 r2) :
    Once keep false pr (D ++ delivered (queueOps (.queue o :: ops)))
      (s.exec (expiryOf pr) (queueOps (.queue o :: ops))) r2 := by
  have hr1 := Space.tail (ops := queueOps ops) (op := o) hr
  rw [hd, List.append_nil] at hr1
  have he : delivered (queueOps (.queue o :: ops)) = delivered (queueOps ops) := by
    show delivered (o :: queueOps ops) = _
    rw [delivered_cons, hd]; rfl
  rw [he]
  exact Once.opsWeak hin hr1 h1

/-- A packet that is acted on. -/
theorem Once.packet {pk : InPkt} {g : Global} {ss : Session} {ops : List OutOp} {r2 : Receiver}
    (hin : ops.filterMap OutOp.input = pk.inputs cfg pr g ss)
    (hpr : ∀ i ∈ pk.inputs cfg pr g ss, (∃ p, i = .message p) ∨
      ∃ op rest, ops = op :: rest ∧ op.input = some i)
    (hway : RightWay ops) (hr : Space keep pr D s (delivered (queueOps ops)))
    (h : Once keep true pr D s r) (hsee : r.sees (.received pk) = some r2) :
    (∀ os, CarriesAll pr (sends (expiryOf pr) s ops) os →
      Once keep true pr (D ++ delivered (queueOps ops)) (s.exec (expiryOf pr) (queueOps ops))
        { r2 with down := r2.down ++ os }) ∧
    Once keep false pr (D ++ delivered (queueOps ops)) (s.exec (expiryOf pr) (queueOps ops)) r2 := by
  have hfirst : ∀ i, pk.inputs cfg pr g ss = [i] → (∀ p, i ≠ .message p) →
      ∃ o rest, ops = OutOp.queue o :: rest ∧ (OutOp.queue o).input = some i ∧
        ∀ j ∈ rest.filterMap OutOp.input, ∃ p, j = .message p := by
    intro i hi hm
    rcases hpr i (by rw [hi]; simp) with ⟨p, hp⟩ | ⟨op, rest, he, ho⟩
    · exact absurd hp (hm p)
    · cases op with
      | direct p => simp only [OutOp.input, Option.some.injEq] at ho; exact absurd ho.symm (hm p)
      | queue o =>
        refine ⟨o, rest, he, ho, ?_⟩
        rw [he, hi] at hin
        exact first_in hin ho
  rcases talk_cases cfg pr g ss pk with (⟨pid, rfl⟩ | ⟨pid, rfl⟩ | ⟨pid, rfl⟩) | ⟨hm, hno⟩
  · obtain ⟨o, rest, rfl, ho, hrest⟩ := hfirst (.puback pid) rfl (fun _ h => by cases h)
    obtain rfl : o = .puback pid := by
      cases o <;> simp [OutOp.input] at ho
      rw [ho]
    obtain ⟨up, hu, rfl⟩ := sees_answer rfl hsee
    have h1 : Once keep true pr D (s.step (expiryOf pr) (.puback pid)).1 { r with up := up } :=
      h.puback (h.acked pid (by rw [hu]; simp)) rfl rfl rfl
        (fun x hx => by rw [hu]; exact List.mem_cons_of_mem _ hx)
    refine ⟨fun os hcar => ?_, Once.afterFirstWeak hrest hr rfl h1.weaken⟩
    exact Once.afterFirst (r2 := { r with up := up }) hrest hway.tail hr rfl
      (fun os1 hc => by rw [carries_nil hc, List.append_nil]; exact h1) hcar
  · obtain ⟨o, rest, rfl, ho, hrest⟩ := hfirst (.pubrec pid) rfl (fun _ h => by cases h)
    obtain ⟨now, rfl⟩ : ∃ now, o = .pubrec now pid := by
      cases o <;> simp [OutOp.input] at ho
      exact ⟨_, by rw [ho]⟩
    obtain ⟨up, hu, rfl⟩ := sees_answer rfl hsee
    have hmem : InPkt.pubrec pid ∈ r.up := by rw [hu]; simp
    have h1 : Once keep true pr D (s.step (expiryOf pr) (.pubrec now pid)).1 { r with up := up } :=
      h.pubrec (h.received pid hmem) rfl rfl rfl
        (fun x hx => by rw [hu]; exact List.mem_cons_of_mem _ hx)
    refine ⟨fun os hcar => ?_, Once.afterFirstWeak hrest hr rfl h1.weaken⟩
    refine Once.afterFirst (r2 := { r with up := up }) hrest hway.tail hr rfl (fun os1 hc => ?_) hcar
    cases hc with
    | @cons _ o _ os h2 h3 =>
      rw [carries_nil h3]
      refine h1.pubrel (h.released hmem) (h.received pid hmem) ?_
      cases o with
      | pubrel q c => cases h2; exact ⟨_, rfl⟩
      | _ => cases h2
  · obtain ⟨o, rest, rfl, ho, hrest⟩ := hfirst (.pubcomp pid) rfl (fun _ h => by cases h)
    obtain rfl : o = .pubcomp pid := by
      cases o <;> simp [OutOp.input] at ho
      rw [ho]
    obtain ⟨up, hu, rfl⟩ := sees_answer rfl hsee
    have h1 : Once keep true pr D (s.step (expiryOf pr) (.pubcomp pid)).1 { r with up := up } :=
      h.pubcomp rfl rfl rfl (fun x hx => by rw [hu]; exact List.mem_cons_of_mem _ hx)
    refine ⟨fun os hcar => ?_, Once.afterFirstWeak hrest hr rfl h1.weaken⟩
    exact Once.afterFirst (r2 := { r with up := up }) hrest hway.tail hr rfl
      (fun os1 hc => by rw [carries_nil hc, List.append_nil]; exact h1) hcar
  · rw [← hin] at hm
    obtain rfl : r2 = r := by
      refine sees_other ?_ hsee
      cases pk with
      | puback pid => exact absurd rfl (hno pid).1
      | pubrec pid => exact absurd rfl (hno pid).2.1
      | pubcomp pid => exact absurd rfl (hno pid).2.2
      | _ => rfl
    exact ⟨fun os hcar => Once.ops hm hway hr h hcar, Once.opsWeak hm hr h.weaken⟩

/-- The client, when the broker has read a packet and not acted on it. -/
theorem Once.unread {pk : InPkt} {r2 : Receiver} (h : Once keep live pr D s r)
    (hsee : r.sees (.received pk) = some r2) : Once keep false pr D s r2 := by
  cases ha : pk.isAnswer with
  | false => rw [sees_other ha hsee]; exact h.weaken
  | true =>
    obtain ⟨up, hu, rfl⟩ := sees_answer ha hsee
    refine h.shrink rfl rfl rfl (fun x hx => by rw [hu]; exact List.mem_cons_of_mem _ hx) rfl
      (List.Sublist.refl _) (fun a l k p d hk => ⟨_, _, _, hk⟩) h.marked (fun h => by cases h)
      (fun _ k hk => .inl hk)

/-- A session and its client. -/
structure Onceness (keep : Bool) (pr : Proto) (D : List PubPacket) (p : Peer) (r : Receiver) : Prop where
  weak : Once keep false pr D p.session.sender r
  held : p.online = true → p.session.disconnected = false → Once keep true pr D p.session.sender r

/-- The rest of what is seen of a step. -/
def Rec.tailObs (r : Rec) : List Obs :=
  r.taken.toList.map .took ++ (r.res.routed.map .routed ++ r.res.out.map .sent)

theorem tailObs_plain (r : Rec) : ∀ o ∈ r.tailObs, o.plain = true := by
  intro o ho
  simp only [Rec.tailObs, List.mem_append, List.mem_map] at ho
  rcases ho with ⟨_, _, rfl⟩ | ⟨_, _, rfl⟩ | ⟨_, _, rfl⟩ <;> rfl

theorem tailObs_out (r : Rec) : r.tailObs.filterMap Obs.out? = r.res.out := by
  have h1 : ∀ {α : Type} (xs : List α) (f : α → Obs), (∀ a, (f a).out? = none) →
      (xs.map f).filterMap Obs.out? = [] := by
    intro α xs f hf
    induction xs with
    | nil => rfl
    | cons a xs ih => rw [List.map_cons, List.filterMap_cons, hf]; exact ih
  unfold Rec.tailObs
  rw [List.filterMap_append, List.filterMap_append, h1 _ _ (fun _ => rfl), h1 _ _ (fun _ => rfl)]
  simp only [List.nil_append]
  generalize r.res.out = l
  induction l with
  | nil => rfl
  | cons a l ih => simp [Obs.out?, ih]

theorem once_step {rec : Rec} {r r' : Receiver}
    (hs : rec.pre.step cfg ext pr rec.env rec.before rec.ev = some (rec.post, rec.res))
    (hroom : Space keep pr D rec.pre.session.sender (rec.due cfg pr))
    (h : Onceness keep pr D rec.pre r) (hm : Receiver.Moves r rec.obs r') :
    Onceness keep pr (D ++ rec.due cfg pr) rec.post r' := by
  obtain ⟨ops, hw⟩ := worksOff_step hs
  have hdel : delivered (queueOps ops) = rec.due cfg pr := by
    rw [delivered_queueOps hw.way, hw.inputs]; rfl
  rw [← hdel] at hroom ⊢
  have hq := hw.queue
  have hin := hw.inputs
  have htail : ∀ {r2 : Receiver} {lv : Bool} {DD : List PubPacket} {S : Sender PubPacket},
      Receiver.Moves r2 rec.tailObs r' →
      Once keep lv pr DD S { r2 with down := r2.down ++ rec.res.out } → Once keep lv pr DD S r' :=
    fun h1 h2 => Once.moves h1 (tailObs_plain rec) (by rw [tailObs_out]; exact h2)
  -- nothing happens
  have hidle : rec.obs = rec.tailObs → rec.res.out = [] →
      rec.post.session.sender = rec.pre.session.sender →
      (rec.post.online = true → rec.post.session.disconnected = false →
        rec.pre.online = true ∧ rec.pre.session.disconnected = false) →
      delivered (queueOps ops) = [] → Onceness keep pr (D ++ delivered (queueOps ops)) rec.post r' := by
    intro h1 h2 h3 h4 h5
    rw [h5, List.append_nil]
    rw [h1] at hm
    constructor
    · rw [h3]; exact htail hm (by rw [h2, List.append_nil]; exact h.weak)
    · intro a b
      rw [h3]
      exact htail hm (by rw [h2, List.append_nil]; exact h.held (h4 a b).1 (h4 a b).2)
  cases hev : rec.ev with
  | packet after n pk =>
    by_cases hon : (rec.pre.online && !rec.pre.session.disconnected) = true
    · have hrec : rec.received = some pk := by simp only [Rec.received, hev]; rw [if_pos hon]
      have hobs : rec.obs = .received pk :: rec.tailObs := by
        unfold Rec.obs
        rw [hev, hrec]
        rfl
      rw [hobs] at hm
      obtain ⟨r1, r2, m1, m2, m3⟩ := moves_cons hm
      have hon' := hon
      simp only [Bool.and_eq_true, Bool.not_eq_true'] at hon'
      have ha := (h.held hon'.1 hon'.2).settle m1
      by_cases hn : n ≤ cfg.maxPacketSizeServer
      · have hinp : rec.inputs cfg pr = pk.inputs cfg pr rec.before rec.pre.session := by
          unfold Rec.inputs
          rw [hev]
          simp only [hon, hn, decide_true, Bool.and_true, if_true]
        rw [hinp] at hin
        have hpr := hw.prompt
        rw [hinp] at hpr
        obtain ⟨k1, k2⟩ := Once.packet hin hpr hw.way hroom ha m2
        cases hcl : rec.res.closed with
        | true =>
          have := htail m3 (by rw [hw.lost hcl, List.append_nil]; exact k2)
          refine ⟨by rw [hq]; exact this, fun h1 _ => ?_⟩
          rw [step_closed hs hcl] at h1
          cases h1
        | false =>
          have := htail m3 (Once.unfilter _ (k1 _ (hw.wire hcl)))
          exact ⟨by rw [hq]; exact this.weaken, fun _ _ => by rw [hq]; exact this⟩
      · have hinp : rec.inputs cfg pr = [] := by
          unfold Rec.inputs
          rw [hev]
          simp only [hon, hn, decide_false, Bool.and_false, Bool.false_eq_true, if_false]
        rw [hinp] at hin
        obtain ⟨k1, k2⟩ := long_silent hs hev hon (by omega)
        have h2 := Once.opsWeak (by rw [hin]; exact fun i hi => by cases hi) hroom (ha.unread m2)
        have := htail m3 (Once.unfilter _ (by rw [k1, List.append_nil]; exact h2))
        exact ⟨by rw [hq]; exact this, fun h1 h2 => absurd ⟨h1, h2⟩ k2⟩
    · have hrec : rec.received = none := by simp only [Rec.received, hev]; rw [if_neg hon]
      have hs' := hs
      rw [hev] at hs'
      simp only [Peer.step] at hs'
      rw [if_neg hon] at hs'
      simp only [Option.some.injEq, Prod.mk.injEq] at hs'
      refine hidle (by unfold Rec.obs; rw [hev, hrec]; rfl) (by rw [← hs'.2]) (by rw [← hs'.1])
        (by rw [← hs'.1]; exact fun a b => ⟨a, b⟩) ?_
      have hinp : rec.inputs cfg pr = [] := by
        unfold Rec.inputs
        rw [hev]
        simp only
        rw [Bool.not_eq_true] at hon
        rw [hon]
        rfl
      rw [hdel, Rec.due, Rec.messages, hinp]
      rfl
  | normal m =>
    have hrec : rec.received = none := by simp [Rec.received, hev]
    have hobs : rec.obs = rec.tailObs := by unfold Rec.obs; rw [hev, hrec]; rfl
    by_cases hon : (rec.pre.online && !rec.pre.session.disconnected) = true
    · have hinp : rec.inputs cfg pr =
          ((dueOf cfg pr rec.pre.session m).map Input.message).toList := by
        unfold Rec.inputs
        rw [hev]
        simp only [hon, if_true]
      have hon' := hon
      simp only [Bool.and_eq_true, Bool.not_eq_true'] at hon'
      have ha := h.held hon'.1 hon'.2
      have hall : ∀ i ∈ ops.filterMap OutOp.input, ∃ p, i = .message p := by
        rw [hin, hinp]
        intro i hi
        cases hd : dueOf cfg pr rec.pre.session m with
        | none => rw [hd] at hi; cases hi
        | some p => rw [hd] at hi; exact ⟨p, List.mem_singleton.1 hi⟩
      have hcl : rec.res.closed = false := by
        cases hcl : rec.res.closed with
        | false => rfl
        | true =>
          have h1 := step_closed hs hcl
          rw [hev] at hs
          simp only [Peer.step] at hs
          rw [if_pos hon] at hs
          simp only [Option.some.injEq, Prod.mk.injEq] at hs
          rw [← hs.1] at h1
          rw [hon'.1] at h1
          cases h1
      rw [hobs] at hm
      have := htail hm (Once.unfilter _ (Once.ops hall hw.way hroom ha (hw.wire hcl)))
      exact ⟨by rw [hq]; exact this.weaken, fun _ _ => by rw [hq]; exact this⟩
    · have hs' := hs
      rw [hev] at hs'
      simp only [Peer.step] at hs'
      rw [if_neg hon] at hs'
      simp only [Option.some.injEq, Prod.mk.injEq] at hs'
      refine hidle hobs (by rw [← hs'.2]) (by rw [← hs'.1])
        (by rw [← hs'.1]; exact fun a b => ⟨a, b⟩) ?_
      have hinp : rec.inputs cfg pr = [] := by
        unfold Rec.inputs
        rw [hev]
        simp only
        rw [if_neg hon]
      rw [hdel, Rec.due, Rec.messages, hinp]
      rfl
  | offline m =>
    have hrec : rec.received = none := by simp [Rec.received, hev]
    have hobs : rec.obs = rec.tailObs := by unfold Rec.obs; rw [hev, hrec]; rfl
    have hs' := hs
    rw [hev] at hs'
    simp only [Peer.step] at hs'
    split at hs'
    · rename_i hon
      simp only [Option.some.injEq, Prod.mk.injEq] at hs'
      refine hidle hobs (by rw [← hs'.2]) (by rw [← hs'.1])
        (by rw [← hs'.1]; exact fun a b => ⟨a, b⟩) ?_
      have hinp : rec.inputs cfg pr = [] := by
        unfold Rec.inputs
        rw [hev]
        simp only [hon, if_true]
      rw [hdel, Rec.due, Rec.messages, hinp]
      rfl
    · rename_i hon
      simp only [Option.some.injEq, Prod.mk.injEq] at hs'
      have hall : ∀ i ∈ ops.filterMap OutOp.input, ∃ p, i = .message p := by
        rw [hin]
        unfold Rec.inputs
        rw [hev]
        simp only [hon, Bool.false_eq_true, if_false]
        intro i hi
        rw [Option.mem_toList, Option.map_eq_some_iff] at hi
        obtain ⟨p, _, rfl⟩ := hi
        exact ⟨p, rfl⟩
      rw [hobs] at hm
      have h2 := Once.opsWeak hall hroom h.weak
      have := htail hm (by rw [← hs'.2, List.append_nil]; exact h2)
      refine ⟨by rw [hq]; exact this, fun h1 _ => ?_⟩
      rw [← hs'.1] at h1
      exact absurd h1 hon
  | passed b n =>
    have hrec : rec.received = none := by simp [Rec.received, hev]
    have hs' := hs
    rw [hev] at hs'
    simp only [Peer.step, Option.some.injEq, Prod.mk.injEq] at hs'
    refine hidle (by unfold Rec.obs; rw [hev, hrec]; rfl) (by rw [← hs'.2]) (by rw [← hs'.1]) (by
      rw [← hs'.1]; exact fun a b => ⟨a, b⟩) ?_
    have hinp : rec.inputs cfg pr = [] := by unfold Rec.inputs; rw [hev]
    rw [hdel, Rec.due, Rec.messages, hinp]
    rfl
  | lost =>
    have hrec : rec.received = none := by simp [Rec.received, hev]
    have hs' := hs
    rw [hev] at hs'
    simp only [Peer.step, Option.some.injEq, Prod.mk.injEq] at hs'
    refine hidle (by unfold Rec.obs; rw [hev, hrec]; rfl) (by rw [← hs'.2]) (by rw [← hs'.1]) (by
      rw [← hs'.1]; exact fun a b => by cases a) ?_
    have hinp : rec.inputs cfg pr = [] := by unfold Rec.inputs; rw [hev]
    rw [hdel, Rec.due, Rec.messages, hinp]
    rfl
  | resume c =>
    have hobs : rec.obs = .connected true c :: rec.tailObs := by
      unfold Rec.obs; rw [hev, resume_received hev]; rfl
    obtain ⟨m, hinp⟩ : ∃ m, rec.inputs cfg pr = [.reconnect m] := by
      unfold Rec.inputs
      rw [hev]
      cases pr
      · exact ⟨_, rfl⟩
      · exact ⟨_, rfl⟩
    have hcl : rec.res.closed = false := by
      rw [hev] at hs
      simp only [Peer.step, Option.some.injEq, Prod.mk.injEq] at hs
      rw [← hs.2]
    rw [hinp] at hin
    rw [hobs] at hm
    obtain ⟨r1, r2, m1, m2, m3⟩ := moves_cons hm
    obtain rfl : { r1 with down := [], up := [] } = r2 := by
      simp only [Receiver.sees, Option.some.injEq] at m2
      exact m2
    rcases hw.prompt (.reconnect m) (by rw [hinp]; simp) with ⟨p, hp⟩ | ⟨op, rest, he, ho⟩
    · cases hp
    · obtain rfl : op = .queue (.reconnect m) := by
        rcases op with p | op
        · cases ho
        · cases op <;> simp [OutOp.input] at ho
          rw [ho]
      subst he
      have h1 := (h.weak.settle m1).reconnect (m := m)
      have := htail m3 (Once.unfilter _ (Once.afterFirst (r2 := { r1 with down := [], up := [] })
        (first_in hin ho) hw.way.tail hroom rfl
        (fun os1 hc => by rw [carries_nil hc, List.append_nil]; exact h1) (hw.wire hcl)))
      exact ⟨by rw [hq]; exact this.weaken, fun _ _ => by rw [hq]; exact this⟩

/-! ## Runs -/

theorem once_run {p : Peer} {recs : List Rec} (hrun : IsRun cfg ext pr p recs)
    {r r' : Receiver} (hmax : p.session.sender.pending.maxPackets = cfg.maxInMemPending)
    (hfew : D.length + (recs.flatMap (Rec.due cfg pr)).length ≤ 65535)
    (hx : keep = true → ∀ r ∈ recs, ∀ p ∈ r.messages cfg pr, expiryOf pr p = none)
    (hroom : keep = true → ∀ r ∈ recs,
      r.pre.session.sender.pending.packets.length + (r.messages cfg pr).length ≤ cfg.maxInMemPending)
    (h : Onceness keep pr D p r) (hm : Receiver.Moves r (recs.flatMap Rec.obs) r') :
    Onceness keep pr (D ++ recs.flatMap (Rec.due cfg pr)) (endOf p recs) r' := by
  induction recs generalizing p D r with
  | nil =>
    rw [List.flatMap_nil, List.append_nil]
    exact ⟨h.weak.settle hm, fun a b => (h.held a b).settle hm⟩
  | cons rec recs ih =>
    obtain ⟨rfl, h1, h2⟩ := hrun
    rw [List.flatMap_cons] at hm hfew ⊢
    rw [List.length_append] at hfew
    have hlen : (rec.due cfg pr).length ≤ (rec.messages cfg pr).length := List.length_filter_le _ _
    have hr : Space keep pr D rec.pre.session.sender (rec.due cfg pr) := by
      refine ⟨fun p hp => ?_, ?_, fun hl p hp => ?_, fun hl => ?_⟩
      · exact of_decide_eq_true (List.mem_filter.1 hp).2
      · omega
      · exact hx hl rec (by simp) p (List.mem_filter.1 hp).1
      · have := hroom hl rec (by simp)
        rw [hmax]
        omega
    obtain ⟨r1, m1, m2⟩ := moves_append hm
    have hmax' : rec.post.session.sender.pending.maxPackets = cfg.maxInMemPending := by
      obtain ⟨ops, hw⟩ := worksOff_step h1
      rw [hw.queue, (exec_params _ _ _).2.1]
      exact hmax
    have := ih h2 hmax' (by rw [List.length_append]; omega) (fun hl r hr => hx hl r (by simp [hr]))
      (fun hl r hr => hroom hl r (by simp [hr])) (once_step h1 hr h m1) m2
    rw [← List.append_assoc]
    exact this

theorem once_start (cfg : Config) (pr : Proto) (i : Str) (id : ClientId) (c : ConnParams)
    (keep : Bool) : Onceness keep pr [] { session := Session.start cfg pr i id c } {} := by
  have hp : (Session.start cfg pr i id c).sender.pending.packets = [] := by cases pr <;> rfl
  have hnew : ∀ k, ¬ NewIn (Session.start cfg pr i id c).sender.pending.packets k := by
    rintro k ⟨a, l, p, d, hk⟩
    rw [hp] at hk
    cases hk
  have hc : ∀ lv, Once keep lv pr [] (Session.start cfg pr i id c).sender {} := by
    intro lv
    refine
      { next := by rw [start_sender]; rfl
        sorted := by simp [Sender.pids, hp]
        range := by simp [Sender.pids, hp]
        entry := by simp [hp]
        qos := (fun p hp => by cases hp)
        down := (fun w hw => by cases hw)
        got := (fun w hw => by cases hw)
        firsts := List.Pairwise.nil
        once := rfl
        begun := (fun k hk => by cases hk)
        freed := fun k _ _ => ⟨hnew k, pubIn_nil k⟩
        rel := (fun a b k c hab => by cases a <;> cases hab)
        marked := by simp [hp]
        acked := (fun k hk => by cases hk)
        received := (fun k hk => by cases hk)
        ahead := (fun a b w j hab => by cases a <;> cases hab)
        over := (fun j hj => by obtain ⟨w, hw, _⟩ := hj; cases hw)
        win := by simp [hp]
        sent := by simp [hp]
        kept := (fun _ k k1 k2 => absurd (Nat.le_trans k1 k2) (by simp))
        plain := by simp [Sender.msgs, hp] }
  exact ⟨hc _, fun _ _ => hc _⟩

end Akasa
