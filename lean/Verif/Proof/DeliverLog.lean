import Verif.Proof.DeliverRun
import Verif.Proof.PendingOrder
import Verif.Props.Pending
/-! Runs of a session as runs of its outgoing queue. -/
namespace Akasa

section
variable {cfg : Config} {ext : Ext} {pr : Proto}

theorem log_of_isRun {p : Peer} {recs : List Rec} (h : IsRun cfg ext pr p recs) :
    ∃ ops, Log cfg pr recs ops ∧
      (endOf p recs).session.sender = p.session.sender.exec (expiryOf pr) (queueOps ops) := by
  induction recs generalizing p with
  | nil => exact ⟨[], .nil, rfl⟩
  | cons r rs ih =>
    obtain ⟨rfl, h2, h3⟩ := h
    obtain ⟨ops, hw⟩ := worksOff_step h2
    obtain ⟨rest, hl, he⟩ := ih h3
    refine ⟨ops ++ rest, .cons hw hl, ?_⟩
    show (endOf r.post rs).session.sender = _
    rw [he, queueOps_append, exec_append, hw.queue]

theorem start_sender (cfg : Config) (pr : Proto) (i : Str) (id : ClientId) (c : ConnParams) :
    (Session.start cfg pr i id c).sender =
      Sender.new (windowOf cfg pr c) cfg.maxInMemPending cfg.inflightTimeout := by
  cases pr <;> rfl

theorem delivered_queueOps {ops : List OutOp} (h : RightWay ops) :
    delivered (queueOps ops) =
      ((ops.filterMap OutOp.input).filterMap Input.message?).filter (fun p => decide (p.qos ≠ 0)) := by
  induction ops with
  | nil => rfl
  | cons op ops ih =>
    have h' : RightWay ops := ⟨fun p hp => h.1 p (by simp [hp]), fun n p hp => h.2 n p (by simp [hp])⟩
    have ih := ih h'
    cases op with
    | direct p =>
      have hq := h.1 p (by simp)
      simp only [queueOps, ih, OutOp.input, Input.message?, List.filterMap_cons, List.filter_cons, hq]
      simp
    | queue op =>
      cases op with
      | deliver now p =>
        have hq := h.2 now p (by simp)
        simp only [queueOps, delivered, ih, OutOp.input, Input.message?, List.filterMap_cons, List.filter_cons]
        simp [hq]
      | pass clk => simpa only [queueOps, delivered, OutOp.input, Input.message?, List.filterMap_cons] using ih
      | puback pid => simpa only [queueOps, delivered, OutOp.input, Input.message?, List.filterMap_cons] using ih
      | pubrec now pid => simpa only [queueOps, delivered, OutOp.input, Input.message?, List.filterMap_cons] using ih
      | pubcomp pid => simpa only [queueOps, delivered, OutOp.input, Input.message?, List.filterMap_cons] using ih
      | reconnect m => simpa only [queueOps, delivered, OutOp.input, Input.message?, List.filterMap_cons] using ih

theorem Log.delivered_eq {recs : List Rec} {ops : List OutOp} (h : Log cfg pr recs ops) :
    delivered (queueOps ops) =
      (recs.flatMap (Rec.messages cfg pr)).filter (fun p => decide (p.qos ≠ 0)) := by
  induction h with
  | nil => rfl
  | cons hw _ ih =>
    rw [queueOps_append, delivered_append, List.flatMap_cons, List.filter_append, ih,
      delivered_queueOps hw.way, hw.inputs]
    rfl

theorem CarriesAll.split {xs ys : List (Sent PubPacket)} {os : List OutPkt}
    (h : CarriesAll pr (xs ++ ys) os) :
    ∃ o1 o2, os = o1 ++ o2 ∧ CarriesAll pr xs o1 ∧ CarriesAll pr ys o2 := by
  induction xs generalizing os with
  | nil => exact ⟨[], os, rfl, .nil, h⟩
  | cons x xs ih =>
    cases h with
    | cons hx ht =>
      obtain ⟨o1, o2, rfl, h1, h2⟩ := ih ht
      exact ⟨_ :: o1, o2, rfl, .cons hx h1, h2⟩

/-- First transmissions on the wire come from first transmissions of the queue. -/
theorem CarriesAll.firsts {xs : List (Sent PubPacket)} {os : List OutPkt}
    (h : CarriesAll pr xs os) :
    ∃ ys, CarriesAll pr ys (os.filter OutPkt.isFirst) ∧ (firstSent ys).Sublist (firstSent xs) := by
  induction h with
  | nil => exact ⟨[], .nil, List.Sublist.refl _⟩
  | @cons x o xs os hx _ ih =>
    obtain ⟨ys, h1, h2⟩ := ih
    cases ho : o.isFirst with
    | false =>
      refine ⟨ys, by rw [List.filter_cons, ho]; exact h1, h2.trans ?_⟩
      cases x with
      | publish pid p d e => cases d <;> simp [firstSent]
      | pubrel pid => simp [firstSent]
    | true =>
      refine ⟨x :: ys, by rw [List.filter_cons, ho]; exact .cons hx h1, ?_⟩
      cases x with
      | publish pid p d e =>
        cases d
        · simpa [firstSent] using h2
        · simpa [firstSent] using h2
      | pubrel pid => simpa [firstSent] using h2

theorem qosPid_zero {p : PubPacket} (h : p.qos = 0) (pid : Pid) : p.qosPid pid = .level0 := by
  unfold PubPacket.qosPid; rw [if_pos h]

theorem sends_firsts {exp : PubPacket → Option Nat} {s : Sender PubPacket} {ops : List OutOp}
    {os : List OutPkt} (hway : RightWay ops) (h : CarriesAll pr (sends exp s ops) os) :
    ∃ ys, CarriesAll pr ys (os.filter OutPkt.isFirst) ∧
      (firstSent ys).Sublist (firstSent (s.outs exp (queueOps ops))) := by
  induction ops generalizing s os with
  | nil =>
    cases h
    exact ⟨[], .nil, List.Sublist.refl _⟩
  | cons op ops ih =>
    have h' : RightWay ops :=
      ⟨fun p hp => hway.1 p (by simp [hp]), fun n p hp => hway.2 n p (by simp [hp])⟩
    cases op with
    | direct p =>
      cases h with
      | @cons _ o _ os' hx ht =>
        obtain ⟨ys, h1, h2⟩ := ih h' ht
        refine ⟨ys, ?_, h2⟩
        have hq := hway.1 p (by simp)
        cases o with
        | publish w =>
          have : w.qosPid = .level0 := by rw [hx.2.1, qosPid_zero hq]
          rw [List.filter_cons, if_neg (by simp [OutPkt.isFirst, this])]
          exact h1
        | _ => exact hx.elim
    | queue op =>
      simp only [sends] at h
      obtain ⟨o1, o2, rfl, ha, hb⟩ := h.split
      obtain ⟨y1, k1, k2⟩ := ha.firsts
      obtain ⟨y2, k3, k4⟩ := ih h' hb
      refine ⟨y1 ++ y2, by rw [List.filter_append]; exact k1.append k3, ?_⟩
      simp only [queueOps, outs_cons, firstSent_append]
      exact k2.append k4

theorem firsts_of_deliveries (out : List OutPkt) :
    (out.filter OutPkt.isDelivery).filter OutPkt.isFirst = out.filter OutPkt.isFirst := by
  rw [List.filter_filter]
  congr 1
  funext o
  cases o <;> simp [OutPkt.isFirst, OutPkt.isDelivery]

theorem Log.firsts {p : Peer} {recs : List Rec} {ops : List OutOp} (hrun : IsRun cfg ext pr p recs)
    (h : Log cfg pr recs ops) :
    ∃ ys, CarriesAll pr ys ((recs.flatMap (·.res.out)).filter OutPkt.isFirst) ∧
      (firstSent ys).Sublist
        (firstSent (p.session.sender.outs (expiryOf pr) (queueOps ops))) := by
  induction h generalizing p with
  | nil => exact ⟨[], .nil, List.Sublist.refl _⟩
  | @cons r recs ops rest hw _ ih =>
    obtain ⟨rfl, h2, h3⟩ := hrun
    obtain ⟨y2, k3, k4⟩ := ih h3
    rw [hw.queue] at k4
    have hk : ∃ y1, CarriesAll pr y1 (r.res.out.filter OutPkt.isFirst) ∧
        (firstSent y1).Sublist
          (firstSent (r.pre.session.sender.outs (expiryOf pr) (queueOps ops))) := by
      cases hc : r.res.closed with
      | true => rw [hw.lost hc]; exact ⟨[], .nil, List.nil_sublist _⟩
      | false =>
        rw [← firsts_of_deliveries]
        exact sends_firsts hw.way (hw.wire hc)
    obtain ⟨y1, k1, k2⟩ := hk
    refine ⟨y1 ++ y2, ?_, ?_⟩
    · rw [List.flatMap_cons, List.filter_append]; exact k1.append k3
    · rw [firstSent_append, queueOps_append, outs_append, firstSent_append]
      exact k2.append k4

/-! ## Outstanding packets -/

theorem addSent_mono {l l' : List Pid} (out : List OutPkt) (h : ∀ x ∈ l, x ∈ l') :
    ∀ x ∈ addSent l out, x ∈ addSent l' out := by
  induction out generalizing l l' with
  | nil => exact h
  | cons o out ih =>
    have key : ∀ pid : Pid, ∀ x ∈ (if pid ∈ l then l else pid :: l),
        x ∈ (if pid ∈ l' then l' else pid :: l') := by
      intro pid x hx
      by_cases h1 : pid ∈ l
      · rw [if_pos h1] at hx
        rw [if_pos (h _ h1)]; exact h x hx
      · rw [if_neg h1] at hx
        by_cases h2 : pid ∈ l'
        · rw [if_pos h2]
          rcases List.mem_cons.mp hx with rfl | hx
          · exact h2
          · exact h x hx
        · rw [if_neg h2]
          rcases List.mem_cons.mp hx with rfl | hx
          · simp
          · simp [h x hx]
    cases o with
    | publish w =>
      simp only [addSent]
      split
      · exact ih h
      · exact ih (key _)
      · exact ih (key _)
    | _ => exact ih h

theorem addSent_nodup {l : List Pid} (out : List OutPkt) (h : l.Nodup) : (addSent l out).Nodup := by
  induction out generalizing l with
  | nil => exact h
  | cons o out ih =>
    have key : ∀ pid : Pid, (if pid ∈ l then l else pid :: l).Nodup := by
      intro pid
      split
      · exact h
      · rename_i hn; exact List.nodup_cons.mpr ⟨hn, h⟩
    cases o with
    | publish w =>
      simp only [addSent]
      split
      · exact ih h
      · exact ih (key _)
      · exact ih (key _)
    | _ => exact ih h

theorem addSent_append (l : List Pid) (a b : List OutPkt) :
    addSent l (a ++ b) = addSent (addSent l a) b := by
  induction a generalizing l with
  | nil => rfl
  | cons o a ih =>
    cases o with
    | publish w =>
      simp only [List.cons_append, addSent]
      split <;> exact ih _
    | _ => exact ih _

theorem addSent_deliveries (l : List Pid) (out : List OutPkt) :
    addSent l (out.filter OutPkt.isDelivery) = addSent l out := by
  induction out generalizing l with
  | nil => rfl
  | cons o out ih =>
    cases o with
    | publish w =>
      rw [List.filter_cons, if_pos (by simp [OutPkt.isDelivery])]
      simp only [addSent]
      split <;> exact ih _
    | pubrel _ _ =>
      rw [List.filter_cons, if_pos (by simp [OutPkt.isDelivery])]
      exact ih _
    | _ =>
      rw [List.filter_cons, if_neg (by simp [OutPkt.isDelivery])]
      exact ih _

theorem qosPid_cases (p : PubPacket) (pid : Pid) :
    p.qosPid pid = .level0 ∨ p.qosPid pid = .level1 pid ∨ p.qosPid pid = .level2 pid := by
  unfold PubPacket.qosPid
  split
  · exact .inl rfl
  · split
    · exact .inr (.inl rfl)
    · exact .inr (.inr rfl)

theorem subset_insertPid {l l' : List Pid} (h : ∀ x ∈ l, x ∈ l') (pid : Pid) :
    ∀ x ∈ l, x ∈ (if pid ∈ l' then l' else pid :: l') := by
  intro x hx
  split
  · exact h x hx
  · simp [h x hx]

theorem insertPid_mono {l l' : List Pid} (h : ∀ x ∈ l, x ∈ l') (pid : Pid) :
    ∀ x ∈ (if pid ∈ l then l else pid :: l), x ∈ (if pid ∈ l' then l' else pid :: l') := by
  intro x hx
  split at hx
  · exact subset_insertPid h pid x hx
  · rcases List.mem_cons.mp hx with rfl | hx
    · split
      · assumption
      · simp
    · exact subset_insertPid h pid x hx

/-- What the client has to acknowledge on the wire is outstanding for the queue. -/
theorem CarriesAll.outstanding {xs : List (Sent PubPacket)} {os : List OutPkt}
    (h : CarriesAll pr xs os) {l l' : List Pid} (hl : ∀ x ∈ l, x ∈ l') :
    ∀ x ∈ addSent l os, x ∈ outstandingSent l' xs := by
  induction h generalizing l l' with
  | nil => exact hl
  | @cons x o xs os hx _ ih =>
    cases x with
    | publish pid p d e =>
      cases o with
      | publish w =>
        simp only [addSent, outstandingSent]
        rw [hx.2.1]
        rcases qosPid_cases p pid with h | h | h <;> rw [h]
        · exact ih (subset_insertPid hl pid)
        · exact ih (insertPid_mono hl pid)
        · exact ih (insertPid_mono hl pid)
      | _ => exact hx.elim
    | pubrel pid =>
      cases o with
      | pubrel pid' r => exact ih hl
      | _ => exact hx.elim

/-- No acknowledgement and no reconnect. -/
def Plain (op : SendOp PubPacket) : Prop :=
  (∃ now p, op = .deliver now p) ∨ ∃ clk, op = .pass clk

theorem outstanding_plain {exp : PubPacket → Option Nat} {ops : List (SendOp PubPacket)}
    (h : ∀ op ∈ ops, Plain op) (s : Sender PubPacket) (l : List Pid) :
    outstanding l (s.trace exp ops) = outstandingSent l (s.outs exp ops) := by
  induction ops generalizing s l with
  | nil => rfl
  | cons op ops ih =>
    have ht := fun o ho => h o (List.mem_cons_of_mem _ ho)
    have hsplit : ∀ (a b : List (Sent PubPacket)) l,
        outstandingSent l (a ++ b) = outstandingSent (outstandingSent l a) b := by
      intro a
      induction a with
      | nil => intros; rfl
      | cons x a iha =>
        intro b l
        cases x <;> exact iha _ _
    rw [outs_cons, hsplit, ← ih ht]
    rcases h op (by simp) with ⟨now, p, rfl⟩ | ⟨clk, rfl⟩ <;> rfl

theorem sends_outstanding {exp : PubPacket → Option Nat} {s : Sender PubPacket} {ops : List OutOp}
    {os : List OutPkt} (hway : RightWay ops) (h : CarriesAll pr (sends exp s ops) os)
    {l l' : List Pid} (hl : ∀ x ∈ l, x ∈ l') :
    ∀ x ∈ addSent l os, x ∈ outstandingSent l' (s.outs exp (queueOps ops)) := by
  induction ops generalizing s os l l' with
  | nil => cases h; exact hl
  | cons op ops ih =>
    have h' : RightWay ops :=
      ⟨fun p hp => hway.1 p (by simp [hp]), fun n p hp => hway.2 n p (by simp [hp])⟩
    cases op with
    | direct p =>
      cases h with
      | @cons _ o _ os' hx ht =>
        have hq := hway.1 p (by simp)
        cases o with
        | publish w =>
          have : w.qosPid = .level0 := by rw [hx.2.1, qosPid_zero hq]
          simp only [addSent, this]
          exact ih h' ht hl
        | _ => exact hx.elim
    | queue op =>
      simp only [sends] at h
      obtain ⟨o1, o2, rfl, ha, hb⟩ := h.split
      have hsplit : ∀ (a b : List (Sent PubPacket)) l,
          outstandingSent l (a ++ b) = outstandingSent (outstandingSent l a) b := by
        intro a
        induction a with
        | nil => intros; rfl
        | cons x a iha =>
          intro b l
          cases x <;> exact iha _ _
      rw [addSent_append]
      simp only [queueOps, outs_cons]
      rw [hsplit]
      exact ih h' hb (ha.outstanding hl)

theorem outstandingSent_mono {l l' : List Pid} (xs : List (Sent PubPacket))
    (h : ∀ x ∈ l, x ∈ l') : ∀ x ∈ l, x ∈ outstandingSent l' xs := by
  induction xs generalizing l' with
  | nil => exact h
  | cons x xs ih =>
    cases x with
    | publish pid p d e => exact ih (subset_insertPid h pid)
    | pubrel pid => exact ih h

theorem plain_of_inputs {ops : List OutOp}
    (h : ∀ i ∈ ops.filterMap OutOp.input, ∃ p, i = .message p) : ∀ op ∈ queueOps ops, Plain op := by
  induction ops with
  | nil => intro op ho; cases ho
  | cons op ops ih =>
    have ht := ih (fun i hi => h i (by
      rw [List.filterMap_cons]
      split
      · exact hi
      · exact List.mem_cons_of_mem _ hi))
    cases op with
    | direct p => exact ht
    | queue op =>
      intro o ho
      rcases List.mem_cons.mp ho with rfl | ho
      · cases o with
        | deliver now p => exact .inl ⟨_, _, rfl⟩
        | pass clk => exact .inr ⟨_, rfl⟩
        | puback pid =>
          obtain ⟨p, hp⟩ := h (.puback pid) (by simp [OutOp.input])
          cases hp
        | pubrec now pid =>
          obtain ⟨p, hp⟩ := h (.pubrec pid) (by simp [OutOp.input])
          cases hp
        | pubcomp pid =>
          obtain ⟨p, hp⟩ := h (.pubcomp pid) (by simp [OutOp.input])
          cases hp
        | reconnect m =>
          obtain ⟨p, hp⟩ := h (.reconnect m) (by simp [OutOp.input])
          cases hp
      · exact ht o ho

/-- The outstanding identifiers after the acknowledgement or reconnect, before anything is sent. -/
def afterOp (l : List Pid) : SendOp PubPacket → List Pid
  | .puback pid => l.filter (· ≠ pid)
  | .pubcomp pid => l.filter (· ≠ pid)
  | .reconnect _ => []
  | _ => l

theorem outstanding_cons (exp : PubPacket → Option Nat) (s : Sender PubPacket)
    (op : SendOp PubPacket) (ops : List (SendOp PubPacket)) (l : List Pid) :
    outstanding l (s.trace exp (op :: ops)) =
      outstanding (outstandingSent (afterOp l op) (s.step exp op).2)
        ((s.step exp op).1.trace exp ops) := by
  cases op <;> rfl

/-- What is unanswered after the acknowledgement or reconnect of a step. -/
def Rec.unansweredBase (l : List Pid) (r : Rec) : List Pid :=
  match r.ev with
  | .resume _ => []
  | _ =>
    match r.received with
    | some (.puback pid) => l.filter (· ≠ pid)
    | some (.pubcomp pid) => l.filter (· ≠ pid)
    | _ => l

theorem unansweredBase_subset (l : List Pid) (r : Rec) : ∀ x ∈ r.unansweredBase l, x ∈ l := by
  intro x hx
  unfold Rec.unansweredBase at hx
  split at hx
  · cases hx
  · split at hx
    · exact (List.mem_filter.mp hx).1
    · exact (List.mem_filter.mp hx).1
    · exact hx

theorem unansweredBase_nodup {l : List Pid} (h : l.Nodup) (r : Rec) :
    (r.unansweredBase l).Nodup := by
  unfold Rec.unansweredBase
  split
  · exact List.nodup_nil
  · split
    · exact h.filter _
    · exact h.filter _
    · exact h

/-- A step with an input other than a message. -/
theorem other_input {r : Rec} {i : Input} (hi : i ∈ r.inputs cfg pr) (hm : ∀ p, i ≠ .message p)
    {l l' : List Pid} (hl : ∀ x ∈ l, x ∈ l') :
    r.inputs cfg pr = [i] ∧ ∀ op, OutOp.input (.queue op) = some i →
      ∀ x ∈ r.unansweredBase l, x ∈ afterOp l' op := by
  obtain ⟨ev, env, before, pre, post, res⟩ := r
  have hmap : ∀ ps : List PubPacket, i ∉ ps.map Input.message := by
    intro ps h
    obtain ⟨p, _, rfl⟩ := List.mem_map.mp h
    exact hm p rfl
  have hopt : ∀ o : Option PubPacket, i ∉ (o.map Input.message).toList := by
    intro o h
    cases o with
    | none => cases h
    | some p => simp at h; exact hm p h
  have hfil : ∀ pid : Pid, ∀ x ∈ l.filter (· ≠ pid), x ∈ l'.filter (· ≠ pid) := by
    intro pid x hx
    rw [List.mem_filter] at hx ⊢
    exact ⟨hl x hx.1, hx.2⟩
  cases ev with
  | packet after n p =>
    simp only [Rec.inputs] at hi ⊢
    split at hi
    · rename_i hc
      rw [if_pos hc]
      have hon : (pre.online && !pre.session.disconnected) = true := by
        simp only [Bool.and_eq_true] at hc ⊢; exact hc.1
      have hrec : Rec.received ⟨.packet after n p, env, before, pre, post, res⟩ = some p := by
        simp only [Rec.received]; rw [if_pos hon]
      cases p with
      | puback pid =>
        simp only [InPkt.inputs, List.mem_singleton] at hi ⊢
        subst hi
        refine ⟨rfl, fun op ho => ?_⟩
        cases op <;> simp only [OutOp.input, Option.some.injEq, reduceCtorEq] at ho
        cases ho
        simp only [Rec.unansweredBase, hrec, afterOp]
        exact hfil pid
      | pubrec pid =>
        simp only [InPkt.inputs, List.mem_singleton] at hi ⊢
        subst hi
        refine ⟨rfl, fun op ho => ?_⟩
        cases op <;> simp only [OutOp.input, Option.some.injEq, reduceCtorEq] at ho
        cases ho
        simp only [Rec.unansweredBase, hrec, afterOp]
        exact hl
      | pubcomp pid =>
        simp only [InPkt.inputs, List.mem_singleton] at hi ⊢
        subst hi
        refine ⟨rfl, fun op ho => ?_⟩
        cases op <;> simp only [OutOp.input, Option.some.injEq, reduceCtorEq] at ho
        cases ho
        simp only [Rec.unansweredBase, hrec, afterOp]
        exact hfil pid
      | subscribe pid topics id =>
        simp only [InPkt.inputs] at hi
        cases pr with
        | v3 => exact absurd hi (hmap _)
        | v5 =>
          simp only at hi
          split at hi
          · cases hi
          · exact absurd hi (hmap _)
      | _ => cases hi
    · cases hi
  | normal m =>
    simp only [Rec.inputs] at hi
    split at hi
    · exact absurd hi (hopt _)
    · cases hi
  | offline m =>
    simp only [Rec.inputs] at hi
    split at hi
    · cases hi
    · exact absurd hi (hopt _)
  | passed b n => cases hi
  | lost => cases hi
  | resume c =>
    refine ⟨?_, fun op _ x hx => (by cases hx)⟩
    cases pr <;> (simp only [Rec.inputs, List.mem_singleton] at hi ⊢; rw [hi])

theorem unanswered_step {r : Rec} {ops : List OutOp} (hw : WorksOff cfg pr r ops)
    {l l' : List Pid} (hl : ∀ x ∈ l, x ∈ l') :
    ∀ x ∈ r.unanswered l,
      x ∈ outstanding l' (r.pre.session.sender.trace (expiryOf pr) (queueOps ops)) := by
  have hu : r.unanswered l = addSent (r.unansweredBase l) r.res.out := rfl
  rw [hu]
  by_cases hm : ∀ i ∈ r.inputs cfg pr, ∃ p, i = .message p
  · rw [outstanding_plain (plain_of_inputs (by rw [hw.inputs]; exact hm))]
    have hb : ∀ x ∈ r.unansweredBase l, x ∈ l' :=
      fun x hx => hl x (unansweredBase_subset l r x hx)
    cases hc : r.res.closed with
    | true => rw [hw.lost hc]; exact outstandingSent_mono _ hb
    | false =>
      rw [← addSent_deliveries]
      exact sends_outstanding hw.way (hw.wire hc) hb
  · have : ∃ i ∈ r.inputs cfg pr, ∀ p, i ≠ .message p := by
      apply Classical.byContradiction
      intro h
      apply hm
      intro i hi
      apply Classical.byContradiction
      intro hp
      exact h ⟨i, hi, fun p e => hp ⟨p, e⟩⟩
    obtain ⟨i, hi, hne⟩ := this
    obtain ⟨h1, h2⟩ := other_input hi hne hl
    rcases hw.prompt i hi with ⟨p, hp⟩ | ⟨op, rest, rfl, hin⟩
    · exact absurd hp (hne p)
    · cases op with
      | direct p =>
        simp only [OutOp.input, Option.some.injEq] at hin
        exact absurd hin.symm (hne p)
      | queue o =>
        have hb := h2 o hin
        have hrest : rest.filterMap OutOp.input = [] := by
          have := hw.inputs
          rw [h1, List.filterMap_cons, hin] at this
          simpa using this
        simp only [queueOps]
        rw [outstanding_cons, outstanding_plain (plain_of_inputs (by
          rw [hrest]; intro i hi; cases hi))]
        cases hc : r.res.closed with
        | true =>
          rw [hw.lost hc]
          exact outstandingSent_mono _ (outstandingSent_mono _ hb)
        | false =>
          have hwire := hw.wire hc
          simp only [sends] at hwire
          obtain ⟨o1, o2, he, ha, hb'⟩ := hwire.split
          rw [← addSent_deliveries, he, addSent_append]
          refine sends_outstanding ⟨fun p hp => hw.way.1 p (by simp [hp]),
            fun n p hp => hw.way.2 n p (by simp [hp])⟩ hb' (ha.outstanding hb)

theorem unanswered_run {p : Peer} {recs : List Rec} {ops : List OutOp}
    (hrun : IsRun cfg ext pr p recs) (h : Log cfg pr recs ops) {l l' : List Pid}
    (hl : ∀ x ∈ l, x ∈ l') (hn : l.Nodup) :
    (∀ x ∈ recs.foldl Rec.unanswered l,
      x ∈ outstanding l' (p.session.sender.trace (expiryOf pr) (queueOps ops))) ∧
    (recs.foldl Rec.unanswered l).Nodup := by
  induction h generalizing p l l' with
  | nil => exact ⟨hl, hn⟩
  | @cons r recs ops rest hw _ ih =>
    obtain ⟨rfl, h2, h3⟩ := hrun
    have := ih h3 (unanswered_step hw hl) (addSent_nodup _ (unansweredBase_nodup hn r))
    refine ⟨?_, this.2⟩
    rw [queueOps_append, trace_append, outstanding_append, ← hw.queue]
    exact this.1

end

end Akasa
