import Verif.Proof.DeliverStep
/-! Steps and runs of a session as operations on its outgoing queue. -/
namespace Akasa

section
variable {cfg : Config} {ext : Ext} {pr : Proto}

theorem sender_unsubscribeLoopV5 {ts : List Str} {g : Global} {s : Session}
    {r : Session × Global × List Reason} (h : unsubscribeLoopV5 g s ts = some r) :
    r.1.sender = s.sender := by
  induction ts generalizing g s r with
  | nil => simp only [unsubscribeLoopV5, Option.some.injEq] at h; subst h; rfl
  | cons t ts ih =>
    rw [unsubscribeLoopV5] at h
    split at h
    · cases h
    · simp only [Option.map_eq_some_iff] at h
      obtain ⟨r', h1, rfl⟩ := h
      exact (ih h1).trans rfl

theorem sender_unsubscribeLoopV3 {ts : List Str} {g : Global} {s : Session}
    {r : Session × Global} (h : unsubscribeLoopV3 g s ts = some r) :
    r.1.sender = s.sender := by
  induction ts generalizing g s r with
  | nil => simp only [unsubscribeLoopV3, Option.some.injEq] at h; subst h; rfl
  | cons t ts ih =>
    rw [unsubscribeLoopV3] at h
    split at h
    · cases h
    · exact (ih h).trans rfl

/-- What the handling of a packet does, before the final sending pass. -/
structure Works (pr : Proto) (env : Env) (s : Session) (r : Res) (ins : List Input) (ops : List OutOp) :
    Prop where
  inputs : ops.filterMap OutOp.input = ins
  prompt : ∀ i ∈ ins, (∃ p, i = .message p) ∨ ∃ op rest, ops = op :: rest ∧ op.input = some i
  way : RightWay ops
  queue : r.session.sender = s.sender.exec (expiryOf pr) (queueOps ops)
  wire : r.closed = false →
    CarriesAll pr (sends (expiryOf pr) s.sender ops) (r.out.filter OutPkt.isDelivery)
  lost : r.closed = true → r.out = []
  clocks : ∃ n, (passClocks ops).Sublist ((List.range n).map env.clk)

theorem Works.of {pr : Proto} {env : Env} {s : Session} {r : Res} {ins : List Input} {ops : List OutOp}
    (h : Refines pr s r.session r.out ops) (hi : ops.filterMap OutOp.input = ins)
    (hp : ∀ i ∈ ins, (∃ p, i = .message p) ∨ ∃ op rest, ops = op :: rest ∧ op.input = some i)
    (hc : r.closed = true → r.out = [])
    (hk : ∃ n, (passClocks ops).Sublist ((List.range n).map env.clk)) : Works pr env s r ins ops :=
  ⟨hi, hp, h.way, h.sender, fun _ => h.out, hc, hk⟩

theorem prompt_one {op : OutOp} {ins : List Input} (h : ins = op.input.toList) :
    ∀ i ∈ ins, (∃ p, i = .message p) ∨ ∃ op' rest, [op] = op' :: rest ∧ op'.input = some i := by
  intro i hi
  rw [h, Option.mem_toList] at hi
  exact .inr ⟨op, [], rfl, hi⟩

theorem prompt_messages {ps : List PubPacket} {ops : List OutOp} :
    ∀ i ∈ ps.map Input.message, (∃ p, i = .message p) ∨
      ∃ op rest, ops = op :: rest ∧ op.input = some i := by
  intro i hi
  obtain ⟨p, _, rfl⟩ := List.mem_map.mp hi
  exact .inl ⟨p, rfl⟩

theorem Works.quiet {pr : Proto} {env : Env} {s : Session} {r : Res} (h : r.session.sender = s.sender)
    (ho : r.out.filter OutPkt.isDelivery = []) (hc : r.closed = true → r.out = []) :
    Works pr env s r [] [] :=
  .of (.quiet h ho) rfl (fun _ h => (by cases h)) hc ⟨0, List.nil_sublist _⟩

theorem works_disconnectV5 (env : Env) (g : Global) (s : Session) (reason : Reason) (expiry : Option Nat) :
    Works .v5 env s (handleDisconnectV5 g s reason expiry) [] [] := by
  unfold handleDisconnectV5
  split
  · split
    · exact .quiet rfl rfl (fun h => (by cases h))
    · exact .quiet rfl rfl (fun h => (by cases h))
  · exact .quiet rfl rfl (fun h => (by cases h))

theorem Refines.suffix {pr : Proto} {s s' : Session} {out rest : List OutPkt} {ops : List OutOp}
    (h : Refines pr s s' out ops) (hr : rest.filter OutPkt.isDelivery = []) :
    Refines pr s s' (out ++ rest) ops where
  sender := h.sender
  out := by rw [List.filter_append, hr, List.append_nil]; exact h.out
  way := h.way

theorem works_packet {env : Env} {g : Global} {s : Session} {n : Nat} {pkt : InPkt} {r : Res}
    (hc : s.disconnected = false) (h : handlePacket cfg ext pr env g s n pkt = some r) :
    ∃ ops, Works pr env s r
      (if n ≤ cfg.maxPacketSizeServer then pkt.inputs cfg pr g s else []) ops := by
  by_cases hn : n ≤ cfg.maxPacketSizeServer
  · rw [if_pos hn]
    cases pr with
    | v3 =>
      simp only [handlePacket, handlePacketV3] at h
      rw [if_neg (Nat.not_lt.mpr hn)] at h
      cases pkt with
      | publish p =>
        obtain ⟨h1, h2, h3⟩ := publish_quiet (publishV3_cases (cfg := cfg) env h)
        exact ⟨[], .quiet h1 h2 h3⟩
      | puback pid =>
        simp only [Option.some.injEq] at h; subst h
        exact ⟨[.queue (.puback pid)],
          .of (.one rfl .nil (fun _ _ e => (by cases e))) rfl (prompt_one rfl) (fun h => (by cases h)) ⟨0, List.nil_sublist _⟩⟩
      | pubrec pid =>
        simp only [Option.some.injEq] at h; subst h
        exact ⟨[.queue (.pubrec (env.now 0 0) pid)],
          .of (.one rfl (.cons rfl .nil) (fun _ _ e => (by cases e))) rfl (prompt_one rfl) (fun h => (by cases h)) ⟨0, List.nil_sublist _⟩⟩
      | pubrel pid =>
        simp only [Option.some.injEq] at h; subst h
        unfold handlePubrelV3
        split
        · exact ⟨[], .quiet rfl rfl (fun h => (by cases h))⟩
        · exact ⟨[], .quiet rfl rfl (fun _ => rfl)⟩
      | pubcomp pid =>
        simp only [Option.some.injEq] at h; subst h
        exact ⟨[.queue (.pubcomp pid)],
          .of (.one rfl .nil (fun _ _ e => (by cases e))) rfl (prompt_one rfl) (fun h => (by cases h)) ⟨0, List.nil_sublist _⟩⟩
      | subscribe pid topics id =>
        simp only [handleSubscribeV3, Option.map_eq_some_iff] at h
        obtain ⟨r', h1, h2⟩ := h
        obtain ⟨ops, k1, k2, hk⟩ := refines_subscribeLoopV3 hc h1
        rw [← List.range_eq_range'] at hk
        refine ⟨ops, ?_⟩
        split at h2
        · subst h2
          exact ⟨k2, prompt_messages, k1.way, k1.sender, fun hh => (by cases hh), fun _ => rfl, _, hk⟩
        · subst h2
          exact .of (k1.suffix rfl) k2 prompt_messages (fun hh => (by cases hh)) ⟨_, hk⟩
      | unsubscribe pid topics =>
        simp only [handleUnsubscribeV3, Option.map_eq_some_iff] at h
        obtain ⟨r', h1, rfl⟩ := h
        exact ⟨[], .quiet (sender_unsubscribeLoopV3 h1) rfl (fun hh => (by cases hh))⟩
      | pingreq =>
        simp only [Option.some.injEq] at h; subst h
        exact ⟨[], .quiet rfl rfl (fun hh => (by cases hh))⟩
      | disconnect reason expiry =>
        simp only [Option.some.injEq] at h; subst h
        exact ⟨[], .quiet rfl rfl (fun hh => (by cases hh))⟩
      | invalid =>
        simp only [Option.some.injEq] at h; subst h
        exact ⟨[], .quiet rfl rfl (fun _ => rfl)⟩
    | v5 =>
      simp only [handlePacket, handlePacketV5] at h
      rw [if_neg (Nat.not_lt.mpr hn)] at h
      cases pkt with
      | publish p =>
        obtain ⟨h1, h2, h3⟩ := publish_quiet (publishV5_cases h)
        exact ⟨[], .quiet h1 h2 h3⟩
      | puback pid =>
        simp only [Option.some.injEq] at h; subst h
        exact ⟨[.queue (.puback pid)],
          .of (.one rfl .nil (fun _ _ e => (by cases e))) rfl (prompt_one rfl) (fun h => (by cases h)) ⟨0, List.nil_sublist _⟩⟩
      | pubrec pid =>
        simp only [Option.some.injEq] at h; subst h
        exact ⟨[.queue (.pubrec (env.now 0 0) pid)],
          .of (.one rfl (.cons rfl .nil) (fun _ _ e => (by cases e))) rfl (prompt_one rfl) (fun h => (by cases h)) ⟨0, List.nil_sublist _⟩⟩
      | pubrel pid =>
        simp only [Option.some.injEq] at h; subst h
        exact ⟨[], .quiet rfl rfl (fun h => (by cases h))⟩
      | pubcomp pid =>
        simp only [Option.some.injEq] at h; subst h
        exact ⟨[.queue (.pubcomp pid)],
          .of (.one rfl .nil (fun _ _ e => (by cases e))) rfl (prompt_one rfl) (fun h => (by cases h)) ⟨0, List.nil_sublist _⟩⟩
      | subscribe pid topics id =>
        simp only [handleSubscribeV5] at h
        simp only [InPkt.inputs]
        by_cases h0 : id = some 0
        · rw [if_pos h0] at h
          cases h
          rw [if_pos (.inl h0)]
          exact ⟨[], .quiet rfl rfl (fun hh => (by cases hh))⟩
        · rw [if_neg h0] at h
          by_cases h1 : (!cfg.subscriptionIdAvailable && id.isSome) = true
          · rw [if_pos h1] at h
            cases h
            rw [if_pos (.inr (by
              simp only [Bool.and_eq_true, Bool.not_eq_true'] at h1
              exact ⟨h1.1, fun e => (by rw [e] at h1; cases h1.2)⟩))]
            exact ⟨[], .quiet rfl rfl (fun hh => (by cases hh))⟩
          · rw [if_neg h1, Option.map_eq_some_iff] at h
            obtain ⟨r', h2, rfl⟩ := h
            obtain ⟨ops, k1, k2, hk⟩ := refines_subscribeLoopV5 hc h2
            rw [← List.range_eq_range'] at hk
            rw [if_neg]
            · exact ⟨ops, .of (k1.suffix rfl) k2 prompt_messages (fun hh => (by cases hh)) ⟨_, hk⟩⟩
            · rintro (e | ⟨e1, e2⟩)
              · exact h0 e
              · apply h1
                rw [e1]
                cases id with
                | none => exact absurd rfl e2
                | some i => rfl
      | unsubscribe pid topics =>
        simp only [handleUnsubscribeV5, Option.map_eq_some_iff] at h
        obtain ⟨r', h1, rfl⟩ := h
        exact ⟨[], .quiet (sender_unsubscribeLoopV5 h1) rfl (fun hh => (by cases hh))⟩
      | pingreq =>
        simp only [Option.some.injEq] at h; subst h
        exact ⟨[], .quiet rfl rfl (fun hh => (by cases hh))⟩
      | disconnect reason expiry =>
        simp only [Option.some.injEq] at h; subst h
        exact ⟨[], works_disconnectV5 ..⟩
      | invalid =>
        simp only [Option.some.injEq] at h; subst h
        exact ⟨[], .quiet rfl rfl (fun _ => rfl)⟩
  · rw [if_neg hn]
    cases pr with
    | v3 =>
      simp only [handlePacket, handlePacketV3] at h
      rw [if_pos (Nat.lt_of_not_le hn)] at h
      cases h
      exact ⟨[], .quiet rfl rfl (fun _ => rfl)⟩
    | v5 =>
      simp only [handlePacket, handlePacketV5] at h
      rw [if_pos (Nat.lt_of_not_le hn)] at h
      cases h
      exact ⟨[], .quiet rfl rfl (fun hh => (by cases hh))⟩

theorem refines_after (pr : Proto) (clk : Clock) (s : Session) :
    ∃ ops, Refines pr s (afterPacket pr clk s).1 (afterPacket pr clk s).2 ops ∧
      ops.filterMap OutOp.input = [] ∧
      (s.disconnected = false → ops = [.queue (.pass clk)]) ∧ (passClocks ops).Sublist [clk] := by
  cases pr with
  | v3 => exact ⟨_, refines_pendings .v3 clk s, rfl, fun _ => rfl, List.Sublist.refl _⟩
  | v5 =>
    unfold afterPacket
    dsimp only
    split
    · rename_i h
      exact ⟨[], .quiet rfl rfl, rfl, fun h' => (by rw [h] at h'; cases h'),
        List.nil_sublist _⟩
    · exact ⟨_, refines_pendings .v5 clk s, rfl, fun _ => rfl, List.Sublist.refl _⟩

theorem prompt_toList {o : Option PubPacket} {ops : List OutOp} :
    ∀ i ∈ (o.map Input.message).toList, (∃ p, i = .message p) ∨
      ∃ op rest, ops = op :: rest ∧ op.input = some i := by
  intro i hi
  cases o with
  | none => cases hi
  | some p => simp at hi; exact .inl ⟨p, hi⟩

theorem worksOff_step {r : Rec}
    (hs : r.pre.step cfg ext pr r.env r.before r.ev = some (r.post, r.res)) :
    ∃ ops, WorksOff cfg pr r ops := by
  obtain ⟨ev, env, before, pre, post, res⟩ := r
  simp only at hs
  cases ev with
  | packet after n pkt =>
    simp only [Peer.step] at hs
    by_cases hon : (pre.online && !pre.session.disconnected) = true
    · rw [if_pos hon, Option.map_eq_some_iff] at hs
      obtain ⟨a, ha, hb⟩ := hs
      simp only [Prod.mk.injEq] at hb
      obtain ⟨rfl, rfl⟩ := hb
      have hdisc : pre.session.disconnected = false := by
        simp only [Bool.and_eq_true, Bool.not_eq_true'] at hon; exact hon.2
      have hin : ∀ post' res', Rec.inputs cfg pr ⟨.packet after n pkt, env, before, pre, post',
          res'⟩ = if n ≤ cfg.maxPacketSizeServer then pkt.inputs cfg pr before pre.session
            else [] := by
        intro _ _
        simp only [Rec.inputs, hon, Bool.true_and, decide_eq_true_eq]
      unfold onPacket at ha
      split at ha
      · cases ha
      · rename_i r0 h0
        obtain ⟨ops, hw⟩ := works_packet hdisc h0
        split at ha
        · rename_i hcl
          cases ha
          refine ⟨ops, ⟨?_, ?_, hw.way, hw.queue, hw.wire, hw.lost, ?_, hw.clocks.imp fun n h =>
            h.trans (List.sublist_append_left _ _)⟩⟩
          · rw [hin]; exact hw.inputs
          · rw [hin]; exact hw.prompt
          · rintro ⟨_, h, _⟩
            simp only at h
            rw [hcl] at h; cases h
        · rename_i hcl
          simp only [Option.some.injEq] at ha
          subst ha
          obtain ⟨ops2, h1, h2, h3, hk⟩ := refines_after pr after r0.session
          have hcl' : r0.closed = false := by simpa using hcl
          have hw1 : Refines pr pre.session r0.session r0.out ops :=
            ⟨hw.queue, hw.wire hcl', hw.way⟩
          have hw2 := hw1.trans h1
          refine ⟨ops ++ ops2, ⟨?_, ?_, hw2.way, hw2.sender, fun _ => hw2.out, fun h => ?_, ?_,
            hw.clocks.imp fun n h => by rw [passClocks_append]; exact h.append hk⟩⟩
          · rw [hin, List.filterMap_append, h2, List.append_nil]; exact hw.inputs
          · rw [hin]
            intro i hi
            rcases hw.prompt i hi with h | ⟨op, rest, h, h'⟩
            · exact .inl h
            · exact .inr ⟨op, rest ++ ops2, by rw [h]; rfl, h'⟩
          · exact absurd h hcl
          · rintro ⟨_, _, h⟩
            have hd : r0.session.disconnected = false := by
              rw [← h]
              exact (disc_of_core (core_after pr after r0.session)).symm
            exact ⟨ops, after, by rw [h3 hd]⟩
    · rw [if_neg hon] at hs
      cases hs
      have hon' : (pre.online && !pre.session.disconnected) = false := by simpa using hon
      refine ⟨[], ⟨?_, ?_, rightWay_nil, rfl, fun _ => .nil, fun _ => rfl, ?_,
        0, List.nil_sublist _⟩⟩
      · simp [Rec.inputs, hon']
      · simp [Rec.inputs, hon']
      · rintro ⟨h, _⟩
        exact absurd (by simp [Rec.received, hon']) h
  | normal m =>
    simp only [Peer.step] at hs
    by_cases hon : (pre.online && !pre.session.disconnected) = true
    · rw [if_pos hon] at hs
      simp only [Option.some.injEq, Prod.mk.injEq] at hs
      obtain ⟨rfl, rfl⟩ := hs
      have hdisc : pre.session.disconnected = false := by
        simp only [Bool.and_eq_true, Bool.not_eq_true'] at hon; exact hon.2
      have hin : ∀ post' res', Rec.inputs cfg pr ⟨.normal m, env, before, pre, post', res'⟩ =
          ((dueOf cfg pr pre.session m).map Input.message).toList := by
        intro _ _
        simp [Rec.inputs, hon]
      have hh := handed_normal (cfg := cfg) (pr := pr) hdisc (env.now 0 0) m
      obtain ⟨ops, h1, h2, hk⟩ := hh.refines
      unfold onNormal
      dsimp only
      generalize handleNormalOf cfg pr (env.now 0 0) pre.session m = x at *
      generalize dueOf cfg pr pre.session m = y at *
      cases hh with
      | dropped =>
        refine ⟨ops, ⟨by rw [hin]; exact h2, by rw [hin]; exact prompt_toList, h1.way, h1.sender, fun _ => h1.out,
          fun h => (by cases h), ?_, 0, by rw [hk]; exact List.nil_sublist _⟩⟩
        rintro ⟨p, hp, _⟩
        rw [hin] at hp
        cases hp
      | @queued p hq =>
        dsimp only at h1 ⊢
        rw [if_pos hq]
        have h3 := h1.trans (refines_pendings pr (env.clk 0) (pre.session.enqueue (env.now 0 0) p))
        refine ⟨ops ++ [.queue (.pass (env.clk 0))],
          ⟨?_, by rw [hin]; exact prompt_toList, h3.way, h3.sender, fun _ => h3.out,
            fun h => (by cases h), fun _ => ⟨_, _, rfl⟩, 1, by
              rw [passClocks_append, hk]; exact List.Sublist.refl _⟩⟩
        rw [hin, List.filterMap_append, h2]
        rfl
      | @direct p s' w hq hs' hw =>
        dsimp only at h1 ⊢
        rw [if_neg (by simp)]
        refine ⟨ops, ⟨by rw [hin, h2], by rw [hin]; exact prompt_toList, h1.way, h1.sender, fun _ => h1.out,
          fun h => (by cases h), ?_, 0, by rw [hk]; exact List.nil_sublist _⟩⟩
        rintro ⟨p', hp, hne⟩
        rw [hin] at hp
        cases hp
        exact absurd hq hne
    · rw [if_neg hon] at hs
      cases hs
      have hon' : (pre.online && !pre.session.disconnected) = false := by simpa using hon
      refine ⟨[], ⟨?_, ?_, rightWay_nil, rfl, fun _ => .nil, fun h => (by cases h), ?_,
        0, List.nil_sublist _⟩⟩
      · simp [Rec.inputs, hon']
      · simp [Rec.inputs, hon']
      · rintro ⟨p, h, _⟩
        simp [Rec.inputs, hon'] at h
  | offline m =>
    simp only [Peer.step] at hs
    by_cases hon : pre.online = true
    · rw [if_pos hon] at hs
      cases hs
      refine ⟨[], ⟨?_, ?_, rightWay_nil, rfl, fun _ => .nil, fun h => (by cases h),
        fun h => h.elim, 0, List.nil_sublist _⟩⟩ <;>
      simp [Rec.inputs, hon]
    · rw [if_neg hon] at hs
      simp only [Option.some.injEq, Prod.mk.injEq] at hs
      obtain ⟨rfl, rfl⟩ := hs
      have hoff := offline_normal cfg pr pre.session (env.now 0 0) m
      cases hd : (dueOf cfg pr pre.session m).filter (fun p => decide (p.qos ≠ 0)) with
      | none =>
        rw [hd] at hoff
        refine ⟨[], ⟨?_, ?_, rightWay_nil, hoff, fun _ => .nil, fun h => (by cases h),
          fun h => h.elim, 0, List.nil_sublist _⟩⟩
        · simp only [Rec.inputs]
          rw [if_neg hon, hd]; rfl
        · simp only [Rec.inputs]
          rw [if_neg hon]; exact prompt_toList
      | some p =>
        rw [hd] at hoff
        have hq : p.qos ≠ 0 := by
          have := Option.eq_some_of_filter_eq_some hd
          simp [Option.filter_eq_some_iff] at hd
          exact hd.2
        refine ⟨[.queue (.deliver (env.now 0 0) p)], ⟨?_, ?_, ?_, hoff, fun _ => .nil,
          fun h => (by cases h), fun h => h.elim, 0, List.nil_sublist _⟩⟩
        · simp only [Rec.inputs]
          rw [if_neg hon, hd]; rfl
        · simp only [Rec.inputs]
          rw [if_neg hon]; exact prompt_toList
        · refine ⟨fun _ h => (by simp at h), fun _ p' h => ?_⟩
          simp at h
          rw [h.2]; exact hq
  | passed b n =>
    simp only [Peer.step, Option.some.injEq, Prod.mk.injEq] at hs
    obtain ⟨rfl, rfl⟩ := hs
    exact ⟨[], ⟨rfl, fun _ h => (by cases h), rightWay_nil, rfl, fun _ => .nil, fun h => (by cases h), fun h => h.elim,
      0, List.nil_sublist _⟩⟩
  | lost =>
    simp only [Peer.step, Option.some.injEq, Prod.mk.injEq] at hs
    obtain ⟨rfl, rfl⟩ := hs
    exact ⟨[], ⟨rfl, fun _ h => (by cases h), rightWay_nil, rfl, fun _ => .nil, fun h => (by cases h), fun h => h.elim,
      0, List.nil_sublist _⟩⟩
  | resume c =>
    simp only [Peer.step, Option.some.injEq, Prod.mk.injEq] at hs
    obtain ⟨rfl, rfl⟩ := hs
    cases pr with
    | v3 =>
      have h1 : Refines .v3 pre.session (pre.session.resume cfg .v3 c) []
          [.queue (.reconnect none)] := .one rfl .nil (fun _ _ e => (by cases e))
      have h2 := h1.trans (refines_pendings .v3 (env.clk 0) _)
      exact ⟨_, ⟨rfl, fun i hi => (by
        simp only [Rec.inputs, List.mem_singleton] at hi
        subst hi; exact .inr ⟨_, _, rfl, rfl⟩), h2.way, h2.sender, fun _ => h2.out, fun h => (by cases h),
        fun _ => ⟨_, _, rfl⟩, 1, List.Sublist.refl _⟩⟩
    | v5 =>
      have h1 : Refines .v5 pre.session (pre.session.resume cfg .v5 c) []
          [.queue (.reconnect (some c.receiveMax))] := .one rfl .nil (fun _ _ e => (by cases e))
      have h2 := h1.trans (refines_pendings .v5 (env.clk 0) _)
      exact ⟨_, ⟨rfl, fun i hi => (by
        simp only [Rec.inputs, List.mem_singleton] at hi
        subst hi; exact .inr ⟨_, _, rfl, rfl⟩), h2.way, h2.sender, fun _ => h2.out, fun h => (by cases h),
        fun _ => ⟨_, _, rfl⟩, 1, List.Sublist.refl _⟩⟩

end

end Akasa
