import Verif.Spec.Deliver
import Verif.Proof.Qos2
import Verif.Proof.PendingRun
/-! A session acts on its outgoing queue as its inputs say. -/
namespace Akasa

theorem queueOps_append (a b : List OutOp) : queueOps (a ++ b) = queueOps a ++ queueOps b := by
  induction a with
  | nil => rfl
  | cons x xs ih =>
    cases x with
    | direct p => exact ih
    | queue op => simp [queueOps, ih]

theorem passClocks_append (a b : List OutOp) :
    passClocks (a ++ b) = passClocks a ++ passClocks b := by
  induction a with
  | nil => rfl
  | cons x xs ih =>
    cases x with
    | direct p => exact ih
    | queue op => cases op <;> simp [passClocks, ih]

theorem sends_append (exp : PubPacket → Option Nat) (s : Sender PubPacket) (a b : List OutOp) :
    sends exp s (a ++ b) = sends exp s a ++ sends exp (s.exec exp (queueOps a)) b := by
  induction a generalizing s with
  | nil => rfl
  | cons x xs ih =>
    cases x with
    | direct p => simp [sends, queueOps, ih]
    | queue op => simp only [List.cons_append, sends, queueOps, exec_cons, ih, List.append_assoc]

theorem CarriesAll.append {pr : Proto} {a b : List (Sent PubPacket)} {x y : List OutPkt}
    (h1 : CarriesAll pr a x) (h2 : CarriesAll pr b y) : CarriesAll pr (a ++ b) (x ++ y) := by
  induction h1 with
  | nil => exact h2
  | cons h _ ih => exact .cons h ih

/-- The operations account for the change of the queue and for the deliveries among the packets. -/
structure Refines (pr : Proto) (s s' : Session) (out : List OutPkt) (ops : List OutOp) : Prop where
  sender : s'.sender = s.sender.exec (expiryOf pr) (queueOps ops)
  out : CarriesAll pr (sends (expiryOf pr) s.sender ops) (out.filter OutPkt.isDelivery)
  way : RightWay ops

theorem RightWay.append {a b : List OutOp} (h1 : RightWay a) (h2 : RightWay b) :
    RightWay (a ++ b) :=
  ⟨fun p hp => (List.mem_append.mp hp).elim (h1.1 p) (h2.1 p),
   fun now p hp => (List.mem_append.mp hp).elim (h1.2 now p) (h2.2 now p)⟩

theorem Refines.trans {pr : Proto} {s s1 s2 : Session} {o1 o2 : List OutPkt} {a b : List OutOp}
    (h1 : Refines pr s s1 o1 a) (h2 : Refines pr s1 s2 o2 b) :
    Refines pr s s2 (o1 ++ o2) (a ++ b) where
  sender := by rw [h2.sender, h1.sender, queueOps_append, exec_append]
  out := by
    rw [sends_append, List.filter_append, ← h1.sender]
    exact h1.out.append h2.out
  way := h1.way.append h2.way

theorem rightWay_nil : RightWay [] := ⟨fun _ h => (by cases h), fun _ _ h => (by cases h)⟩

/-- Nothing happens to the queue, and nothing is delivered. -/
theorem Refines.quiet {pr : Proto} {s s' : Session} {out : List OutPkt}
    (h : s'.sender = s.sender) (ho : out.filter OutPkt.isDelivery = []) :
    Refines pr s s' out [] where
  sender := h
  out := by rw [ho]; exact .nil
  way := rightWay_nil

/-- One operation on the queue which delivers no new message. -/
theorem Refines.one {pr : Proto} {s s' : Session} {out : List OutPkt} {op : SendOp PubPacket}
    (h : s'.sender = (s.sender.step (expiryOf pr) op).1)
    (ho : CarriesAll pr (s.sender.step (expiryOf pr) op).2 (out.filter OutPkt.isDelivery))
    (hw : ∀ now p, op = .deliver now p → p.qos ≠ 0) :
    Refines pr s s' out [.queue op] where
  sender := h
  out := by simpa [sends] using ho
  way := ⟨fun p hp => (by simp at hp), fun now p hp => (by simp at hp; exact hw now p hp.symm)⟩

theorem qosPid_match (p : PubPacket) (pid : Pid) :
    (match p.qos with
      | 0 => QosPid.level0
      | 1 => .level1 pid
      | _ => .level2 pid) = p.qosPid pid := by
  unfold PubPacket.qosPid
  rcases p with ⟨_, q, _, _, _⟩
  dsimp only
  match q with
  | 0 => rfl
  | 1 => rfl
  | 2 => rfl

theorem apply_form (t : AliasTable) (max : Nat) (topic : Str) (a : Option Nat) :
    (t.apply max topic a).2.1 = topic ∨
    ((t.apply max topic a).2.1 = [] ∧ (t.apply max topic a).2.2 ≠ none) := by
  unfold AliasTable.apply
  split
  · dsimp only
    split
    · dsimp only
      split
      · exact .inl rfl
      · exact .inr ⟨rfl, by simp⟩
    · exact .inl rfl
  · exact .inl rfl

theorem carries_v5 (max : Nat) (t : AliasTable) (x : Sent PubPacket) :
    Carries .v5 x (.ofWire (toWireV5 max t x).2) := by
  cases x with
  | pubrel pid => rfl
  | publish pid p dup expiry =>
    simp only [toWireV5, OutPkt.ofWire, Carries]
    refine ⟨trivial, qosPid_match p pid, trivial, trivial, ?_, trivial⟩
    cases dup
    · exact apply_form _ _ _ _
    · exact .inl rfl

theorem carries_v3 (x : Sent PubPacket) : Carries .v3 x (.ofWire (toWireV3 x)) := by
  cases x with
  | pubrel pid => rfl
  | publish pid p dup expiry =>
    simp only [toWireV3, OutPkt.ofWire, Carries]
    exact ⟨trivial, qosPid_match p pid, trivial, trivial, trivial, trivial⟩

theorem filter_ofWire (l : List (Publish ⊕ Pid)) :
    (l.map OutPkt.ofWire).filter OutPkt.isDelivery = l.map OutPkt.ofWire := by
  apply List.filter_eq_self.mpr
  intro o ho
  obtain ⟨x, _, rfl⟩ := List.mem_map.mp ho
  exact ofWire_isDelivery x

theorem carriesAll_v5 (max : Nat) (t : AliasTable) (l : List (Sent PubPacket)) :
    CarriesAll .v5 l ((toWireAllV5 max t l).2.map OutPkt.ofWire) := by
  induction l generalizing t with
  | nil => exact .nil
  | cons x xs ih => exact .cons (carries_v5 max t x) (ih _)

theorem carriesAll_v3 (l : List (Sent PubPacket)) :
    CarriesAll .v3 l (l.map fun x => OutPkt.ofWire (toWireV3 x)) := by
  induction l with
  | nil => exact .nil
  | cons x xs ih => exact .cons (carries_v3 x) ih

theorem refines_pendings (pr : Proto) (clk : Clock) (s : Session) :
    Refines pr s (handlePendingsOf pr clk s).1 (handlePendingsOf pr clk s).2
      [.queue (.pass clk)] := by
  cases pr with
  | v3 =>
    refine .one rfl ?_ (fun _ _ h => (by cases h))
    have : (handlePendingsOf .v3 clk s).2 =
        (((s.sender.step (expiryOf .v3) (.pass clk)).2.map toWireV3).map OutPkt.ofWire) := by
      simp [handlePendingsOf, handlePendingsV3, Sender.step, expiryOf]
    rw [this, filter_ofWire, List.map_map]
    exact carriesAll_v3 _
  | v5 =>
    refine .one rfl ?_ (fun _ _ h => (by cases h))
    have : (handlePendingsOf .v5 clk s).2 =
        ((toWireAllV5 s.aliasMax s.outAliases
          (s.sender.step (expiryOf .v5) (.pass clk)).2).2.map OutPkt.ofWire) := rfl
    rw [this, filter_ofWire]
    exact carriesAll_v5 _ _ _

/-! ## Messages -/

/-- A message was handed to a session with a connection: dropped, queued, or sent at once. -/
inductive Handed (pr : Proto) (now : Nat) (s : Session) :
    Option PubPacket → Session × Option (QoS × Option OutPkt) → Prop
  | dropped : Handed pr now s none (s, none)
  | queued {p : PubPacket} : p.qos ≠ 0 →
      Handed pr now s (some p) (s.enqueue now p, some (p.qos, none))
  | direct {p : PubPacket} {s' : Session} {w : OutPkt} : p.qos = 0 → s'.sender = s.sender →
      Carries pr (.publish 0 p false p.props.messageExpiry) w →
      Handed pr now s (some p) (s', some (0, some w))

theorem carries_isDelivery {pr : Proto} {x : Sent PubPacket} {o : OutPkt} (h : Carries pr x o) :
    o.isDelivery = true := by
  cases x <;> cases o <;> first | rfl | exact h.elim

theorem Handed.refines {pr : Proto} {now : Nat} {s : Session} {d : Option PubPacket}
    {r : Session × Option (QoS × Option OutPkt)} (h : Handed pr now s d r) :
    ∃ ops, Refines pr s r.1 (r.2.bind (·.2)).toList ops ∧
      ops.filterMap OutOp.input = (d.map Input.message).toList ∧ passClocks ops = [] := by
  cases h with
  | dropped => exact ⟨[], .quiet rfl rfl, rfl, rfl⟩
  | @queued p hq =>
    exact ⟨[.queue (.deliver now p)], .one rfl .nil (fun _ _ e => (by cases e; exact hq)), rfl, rfl⟩
  | @direct p s' w hq hs hw =>
    refine ⟨[.direct p], ⟨hs, ?_, ?_, ?_⟩, rfl, rfl⟩
    · simp only [sends, Option.bind_some, Option.toList_some]
      rw [List.filter_cons_of_pos (carries_isDelivery hw)]
      exact .cons hw .nil
    · intro p' hp'
      simp at hp'; subst hp'; exact hq
    · intro _ _ hp'; simp at hp'

/-- The message due for a `RecvPub` with the given properties. -/
def RecvPub.due (s : Session) (m : RecvPub) (props : PubProps) : Option PubPacket :=
  if s.maxPacketSize < sizeAt m.encodeLen m.qos (min m.qos m.subQos) then none
  else some { topic := m.topic, qos := min m.qos m.subQos, retain := m.retain,
              payload := m.payload, props }

theorem sizeAt_zero (n : Nat) (q : QoS) : sizeAt n q 0 = if q > 0 then n - 2 else n := by
  unfold sizeAt
  by_cases h : q = 0
  · subst h; simp
  · have : q > 0 := Fin.pos_iff_ne_zero.mpr h
    rw [if_pos ⟨rfl, h⟩, if_pos this]

theorem sizeAt_pos (n : Nat) (q f : QoS) (h : f ≠ 0) : sizeAt n q f = n := by
  unfold sizeAt; rw [if_neg]; exact fun hh => h hh.1

theorem handed_deliverV5 {s : Session} (hc : s.disconnected = false) (now : Nat) (m : RecvPub)
    (props : PubProps) : Handed .v5 now s (m.due s props) (deliverV5 now s m props) := by
  have hcd : s.clientDisconnected = false ∧ s.serverDisconnected = false := by
    simpa [Session.disconnected] using hc
  unfold deliverV5 RecvPub.due
  dsimp only
  by_cases hq : min m.qos m.subQos = 0
  · rw [if_neg (c := min m.qos m.subQos ≠ 0) (by simpa using hq),
      if_pos (c := (!s.clientDisconnected && !s.serverDisconnected) = true) (by simp [hcd]), hq,
      sizeAt_zero]
    by_cases hz : (if m.qos > 0 then m.encodeLen - 2 else m.encodeLen) > s.maxPacketSize
    · rw [if_pos hz, if_pos hz]; exact .dropped
    · rw [if_neg hz, if_neg hz]
      refine .direct rfl rfl ?_
      simp only [Carries]
      refine ⟨trivial, rfl, trivial, trivial, apply_form _ _ _ _, trivial⟩
  · rw [if_pos (c := min m.qos m.subQos ≠ 0) hq, sizeAt_pos _ _ _ hq]
    by_cases hz : m.encodeLen > s.maxPacketSize
    · rw [if_pos hz, if_pos hz]; exact .dropped
    · rw [if_neg hz, if_neg hz]; exact .queued hq

theorem handed_recvV3 {s : Session} (hc : s.disconnected = false) (now : Nat) (topic : Str)
    (qos : QoS) (retain : Bool) (payload : Bytes) (F : Str) (subQos : QoS) :
    Handed .v3 now s
      (if s.subscribes.get F = none then none
        else some { topic, qos := min qos subQos, retain, payload })
      (recvPublishV3 now s topic qos retain payload F subQos) := by
  have hcd : s.clientDisconnected = false ∧ s.serverDisconnected = false := by
    simpa [Session.disconnected] using hc
  unfold recvPublishV3
  by_cases hF : s.subscribes.get F = none
  · rw [if_pos hF, if_pos (by simp [FMap.contains, hF])]; exact .dropped
  · have : s.subscribes.contains F = true := by
      simp only [FMap.contains]
      cases h : FMap.get s.subscribes F with
      | none => exact absurd h hF
      | some d => rfl
    rw [if_neg hF, if_neg (by simp [this])]
    dsimp only
    by_cases hq : min qos subQos = 0
    · rw [if_neg (by simpa using hq), if_pos (by simp [hcd]), hq]
      exact .direct rfl rfl ⟨rfl, rfl, rfl, rfl, rfl, rfl⟩
    · rw [if_pos hq]; exact .queued hq

/-- The loop over the filters, in terms of the subscriptions that exist. -/
theorem gatherSubs_eq (s : Session) (fs : List Str) (h r : Bool) (ids : List Nat) :
    gatherSubs s fs (h, r, ids) =
      (h || !(fs.filterMap s.subscribes.get).isEmpty,
       r || (fs.filterMap s.subscribes.get).any (·.opts.retainAsPublished),
       ((fs.filterMap s.subscribes.get).filterMap (·.id)).foldl
         (fun l i => if i ∈ l then l else l ++ [i]) ids) := by
  induction fs generalizing h r ids with
  | nil => simp [gatherSubs]
  | cons f fs ih =>
    cases hf : s.subscribes.get f with
    | none =>
      have : (f :: fs).filterMap s.subscribes.get = fs.filterMap s.subscribes.get := by
        rw [List.filterMap_cons]; simp only [hf]
      rw [this, ← ih]
      simp only [gatherSubs, hf]
    | some d =>
      have : (f :: fs).filterMap s.subscribes.get = d :: fs.filterMap s.subscribes.get := by
        rw [List.filterMap_cons]; simp only [hf]
      rw [this]
      simp only [gatherSubs, hf, ih]
      cases hd : d.id with
      | none => simp [hd, Bool.or_assoc]
      | some i => simp [hd, Bool.or_assoc]

theorem foldl_eraseDups (l acc : List Nat) :
    l.foldl (fun l i => if i ∈ l then l else l ++ [i]) acc =
      acc ++ (l.filter fun i => decide (i ∉ acc)).eraseDups := by
  induction h : l.length using Nat.strongRecOn generalizing l acc with
  | _ n ih =>
    cases l with
    | nil => simp
    | cons x xs =>
      have hlt : xs.length < n := by rw [← h]; simp
      simp only [List.foldl_cons]
      by_cases hx : x ∈ acc
      · rw [if_pos hx, ih _ hlt xs acc rfl]
        rw [List.filter_cons_of_neg (by simpa using hx)]
      · rw [if_neg hx, ih _ hlt xs (acc ++ [x]) rfl, List.append_assoc]
        rw [List.filter_cons_of_pos (by simpa using hx), List.eraseDups_cons, List.filter_filter]
        simp only [List.cons_append, List.nil_append]
        congr 3
        apply List.filter_congr
        intro y _
        simp only [List.mem_append, List.mem_singleton, not_or]
        by_cases h1 : y ∈ acc <;> by_cases h2 : y = x <;> simp [h1, h2]

theorem gatherSubs_nil (s : Session) (fs : List Str) :
    gatherSubs s fs (false, false, []) =
      (!(fs.filterMap s.subscribes.get).isEmpty,
       (fs.filterMap s.subscribes.get).any (·.opts.retainAsPublished),
       ((fs.filterMap s.subscribes.get).filterMap (·.id)).eraseDups) := by
  rw [gatherSubs_eq, foldl_eraseDups]
  have : ∀ l : List Nat, (l.filter fun i => decide (i ∉ ([] : List Nat))) = l := fun l =>
    List.filter_eq_self.mpr (by simp)
  rw [this]
  simp

theorem retainIf (a b c : Bool) : (if !a || !b then false else c) = (c && a && b) := by
  cases a <;> cases b <;> cases c <;> rfl

/-- What `handle_normal` of MQTT 5 does, in terms of `deliverV5`. -/
theorem normalV5_eq (cfg : Config) (now : Nat) (s : Session) (m : NormalMsg) :
    (dueV5 cfg s m = none ∧ s.held m = [] ∧ handleNormalV5 cfg now s m = (s, none)) ∨
    ∃ m' props, dueV5 cfg s m = m'.due s props ∧
      handleNormalV5 cfg now s m = deliverV5 now s m' props := by
  cases m with
  | publishV3 retain qos topic payload filter subQos encodeLen =>
    simp only [handleNormalV5]
    cases hf : s.subscribes.get filter with
    | none =>
      left
      have : s.held (.publishV3 retain qos topic payload filter subQos encodeLen) = [] := by
        simp [Session.held, NormalMsg.filters, hf]
      exact ⟨by rw [dueV5, if_pos this], this, rfl⟩
    | some d =>
      right
      have : s.held (.publishV3 retain qos topic payload filter subQos encodeLen) = [d] := by
        simp [Session.held, NormalMsg.filters, hf]
      refine ⟨{ topic, qos, payload, subQos, props := none, ids := .lookup filter
                retain := if !cfg.retainAvailable || !d.opts.retainAsPublished then false else retain
                encodeLen := encodeLen + 1 }, { subscriptionIds := d.id.toList }, ?_, ?_⟩
      rotate_left
      · simp only [recvPublishV5, hf]; rfl
      · simp only [dueV5, this, RecvPub.due]
        rw [if_neg (by simp)]
        simp only [NormalMsg.size, NormalMsg.qos, NormalMsg.granted]
        congr 2
        simp only [NormalMsg.retain, NormalMsg.topic, NormalMsg.payload, NormalMsg.props,
          retainIf, PubPacket.mk.injEq, true_and]
        refine ⟨by simp, ?_⟩
        cases hd : d.id <;> simp [hd, List.eraseDups_cons]
  | publishV5 retain qos topic payload filters subQos props encodeLen =>
    simp only [handleNormalV5, gatherSubs_nil, Bool.not_not]
    have hheld : s.held (.publishV5 retain qos topic payload filters subQos props encodeLen) =
        filters.filterMap s.subscribes.get := rfl
    cases hh : filters.filterMap s.subscribes.get with
    | nil =>
      left
      rw [hh] at hheld
      exact ⟨by rw [dueV5, if_pos hheld], hheld, rfl⟩
    | cons d ds =>
      right
      rw [hh] at hheld
      refine ⟨{ topic, qos, payload, subQos, encodeLen, props := some props
                ids := .precomputed (((d :: ds).filterMap (·.id)).eraseDups)
                retain := if !cfg.retainAvailable ||
                  !((d :: ds).any (·.opts.retainAsPublished)) then false else retain },
              { props with subscriptionIds := (((d :: ds).filterMap (·.id)).eraseDups) }, ?_, ?_⟩
      rotate_left
      · simp only [List.isEmpty_cons, if_false, Bool.false_eq_true, recvPublishV5]; rfl
      · simp only [dueV5, hheld, RecvPub.due]
        rw [if_neg (by simp)]
        simp only [NormalMsg.size, NormalMsg.qos, NormalMsg.granted]
        congr 2
        simp only [NormalMsg.retain, NormalMsg.topic, NormalMsg.payload, NormalMsg.props,
          retainIf]

theorem handed_normal {cfg : Config} {pr : Proto} {s : Session} (hc : s.disconnected = false)
    (now : Nat) (m : NormalMsg) :
    Handed pr now s (dueOf cfg pr s m) (handleNormalOf cfg pr now s m) := by
  cases pr with
  | v3 =>
    simp only [dueOf, handleNormalOf]
    cases m with
    | publishV3 retain qos topic payload filter subQos encodeLen =>
      exact handed_recvV3 hc now topic qos retain payload filter subQos
    | publishV5 retain qos topic payload filters subQos props encodeLen =>
      cases filters with
      | nil => exact .dropped
      | cons F Fs => exact handed_recvV3 hc now topic qos retain payload F subQos
  | v5 =>
    simp only [dueOf, handleNormalOf]
    rcases normalV5_eq cfg now s m with ⟨h1, _, h2⟩ | ⟨m', props, h1, h2⟩
    · rw [h1, h2]; exact .dropped
    · rw [h1, h2]; exact handed_deliverV5 hc now m' props

/-- The queue of a session without a connection. -/
theorem offline_deliverV5 (s : Session) (now : Nat) (m : RecvPub) (props : PubProps) :
    (deliverV5 now s m props).1.sender =
      match (m.due s props).filter (fun p => decide (p.qos ≠ 0)) with
      | none => s.sender
      | some p => (s.enqueue now p).sender := by
  unfold deliverV5 RecvPub.due
  dsimp only
  by_cases hq : min m.qos m.subQos = 0
  · rw [if_neg (by simpa using hq), hq]
    have : (if s.maxPacketSize < sizeAt m.encodeLen m.qos 0 then none
        else some ({ topic := m.topic, qos := 0, retain := m.retain, payload := m.payload, props }
          : PubPacket)).filter (fun p => decide (p.qos ≠ 0)) = none := by
      split <;> rfl
    rw [this]
    dsimp only
    split
    · generalize (if m.qos > 0 then m.encodeLen - 2 else m.encodeLen) = n
      split <;> rfl
    · rfl
  · rw [if_pos hq, sizeAt_pos _ _ _ hq]
    by_cases hz : m.encodeLen > s.maxPacketSize
    · rw [if_pos hz, if_pos hz]; rfl
    · rw [if_neg hz, if_neg hz]
      simp only [Option.filter]
      rw [if_pos (by simpa using hq)]

theorem offline_recvV3 (s : Session) (now : Nat) (topic : Str)
    (qos : QoS) (retain : Bool) (payload : Bytes) (F : Str) (subQos : QoS) :
    (recvPublishV3 now s topic qos retain payload F subQos).1.sender =
      match (if s.subscribes.get F = none then none
        else some ({ topic, qos := min qos subQos, retain, payload } : PubPacket)).filter
          (fun p => decide (p.qos ≠ 0)) with
      | none => s.sender
      | some p => (s.enqueue now p).sender := by
  unfold recvPublishV3
  by_cases hF : s.subscribes.get F = none
  · rw [if_pos hF, if_pos (by simp [FMap.contains, hF])]; rfl
  · have : s.subscribes.contains F = true := by
      simp only [FMap.contains]
      cases h : FMap.get s.subscribes F with
      | none => exact absurd h hF
      | some d => rfl
    rw [if_neg hF, if_neg (by simp [this])]
    dsimp only
    by_cases hq : min qos subQos = 0
    · rw [if_neg (by simpa using hq), hq]
      have : (some ({ topic, qos := 0, retain, payload } : PubPacket)).filter
          (fun p => decide (p.qos ≠ 0)) = none := rfl
      rw [this]
      dsimp only
      split <;> rfl
    · rw [if_pos hq]
      simp only [Option.filter]
      rw [if_pos (by simpa using hq)]

theorem offline_normal (cfg : Config) (pr : Proto) (s : Session) (now : Nat) (m : NormalMsg) :
    (handleNormalOf cfg pr now s m).1.sender =
      match (dueOf cfg pr s m).filter (fun p => decide (p.qos ≠ 0)) with
      | none => s.sender
      | some p => (s.enqueue now p).sender := by
  cases pr with
  | v3 =>
    simp only [dueOf, handleNormalOf]
    cases m with
    | publishV3 retain qos topic payload filter subQos encodeLen =>
      exact offline_recvV3 s now topic qos retain payload filter subQos
    | publishV5 retain qos topic payload filters subQos props encodeLen =>
      cases filters with
      | nil => rfl
      | cons F Fs => exact offline_recvV3 s now topic qos retain payload F subQos
  | v5 =>
    simp only [dueOf, handleNormalOf]
    rcases normalV5_eq cfg now s m with ⟨h1, _, h2⟩ | ⟨m', props, h1, h2⟩
    · rw [h1, h2]; rfl
    · rw [h1, h2]; exact offline_deliverV5 s now m' props

end Akasa
