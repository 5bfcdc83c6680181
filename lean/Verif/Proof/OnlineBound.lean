import Verif.Proof.OnlineSession
import Verif.Proof.Params
/-! # How much a session sends at a time -/
namespace Akasa

variable {cfg : Config} {hooks : HookConfig} {ext : HookExt} {pr : Proto}
  {enc : OutPkt → Option Bytes}

/-- Only a new connection changes the receive maximum. -/
theorem window_kept {r : Rec} {ops : List OutOp} (h : WorksOff cfg pr r ops) (m : Nat)
    (hr : ∀ c, r.ev ≠ .resume c) : receiveMax m (queueOps ops) = m := by
  rw [receiveMax_inputs, h.inputs]
  have quiet : ∀ (l : List Input), (∀ i ∈ l, ∀ k, i ≠ .reconnect k) → l.foldl Input.window m = m := by
    intro l
    induction l with
    | nil => intros; rfl
    | cons i l ih =>
      intro h
      have := h i List.mem_cons_self
      have hi : i.window m = m := by
        cases i with
        | reconnect k => exact absurd rfl (this k)
        | _ => rfl
      rw [List.foldl_cons, hi]
      exact ih fun i hi => h i (List.mem_cons_of_mem _ hi)
  refine quiet _ fun i hi k => ?_
  rintro rfl
  unfold Rec.inputs at hi
  cases hev : r.ev with
  | packet after n p =>
    rw [hev] at hi
    simp only at hi
    split at hi
    · cases p with
      | subscribe pid ts id =>
        simp only [InPkt.inputs] at hi
        split at hi
        · rw [List.mem_map] at hi
          obtain ⟨_, _, h⟩ := hi
          cases h
        · split at hi
          · cases hi
          · rw [List.mem_map] at hi
            obtain ⟨_, _, h⟩ := hi
            cases h
      | _ => simp [InPkt.inputs] at hi
    · cases hi
  | normal n =>
    rw [hev] at hi
    simp only at hi
    split at hi
    · rw [Option.mem_toList, Option.map_eq_some_iff] at hi
      obtain ⟨_, _, h⟩ := hi
      cases h
    · cases hi
  | offline n =>
    rw [hev] at hi
    simp only at hi
    split at hi
    · cases hi
    · rw [Option.mem_toList, Option.map_eq_some_iff] at hi
      obtain ⟨_, _, h⟩ := hi
      cases h
  | resume c => exact absurd hev (hr c)
  | passed => rw [hev] at hi; cases hi
  | lost => rw [hev] at hi; cases hi

theorem inflight_step {e : Ext} {p q : Peer} {env : Env} {g : Global} {ev : SessEv} {res : Res}
    (hs : p.step cfg e pr env g ev = some (q, res)) (hr : ∀ c, ev ≠ .resume c) :
    q.session.sender.pending.maxInflight = p.session.sender.pending.maxInflight := by
  obtain ⟨ops, h⟩ := worksOff_step (r := { ev, env, before := g, pre := p, post := q, res }) hs
  have := h.queue
  simp only at this
  rw [this, (exec_params _ _ _).1, window_kept h _ hr]

theorem sweep_sent_length (exp : P → Option Nat) (t : Nat) (clk : Clock) (n cur i : Nat)
    (ps : List (PStatus P)) : (sweep exp t clk n cur i ps).2.1.length ≤ n := by
  induction ps generalizing n cur i with
  | nil => cases n <;> simp [sweep]
  | cons s ss ih =>
    cases n with
    | zero => simp [sweep]
    | succ n =>
      rw [sweep]
      split
      · have h := ih n (i + 1) (i + 1)
        have h2 : (s.attempt exp (clk.sent i)).2.1.toList.length ≤ 1 := by
          cases (s.attempt exp (clk.sent i)).2.1 <;> simp
        simp only [List.length_append]
        omega
      · exact Nat.le_succ_of_le (ih n cur (i + 1))

theorem handlePendings_length (exp : P → Option Nat) (clk : Clock) (q : Pending P) :
    (q.handlePendings exp clk).2.length ≤ q.maxInflight := by
  rw [handlePendings_sent]
  exact Nat.le_trans (sweep_sent_length ..) (Nat.min_le_left _ _)

theorem wireAll_length (max : Nat) (t : AliasTable) (xs : List (Sent PubPacket)) :
    (toWireAllV5 max t xs).2.length = xs.length := by
  induction xs generalizing t with
  | nil => rfl
  | cons x xs ih => simp [toWireAllV5, ih]

theorem pendings_length (clk : Clock) (s : Session) :
    (handlePendingsOf pr clk s).2.length ≤ s.sender.pending.maxInflight := by
  cases pr with
  | v3 => simpa [handlePendingsOf, handlePendingsV3] using handlePendings_length ..
  | v5 => simpa [handlePendingsOf, handlePendingsV5, wireAll_length] using handlePendings_length ..

theorem after_length (clk : Clock) (s : Session) :
    (afterPacket pr clk s).2.length ≤ s.sender.pending.maxInflight := by
  cases pr with
  | v3 => exact pendings_length (pr := .v3) clk s
  | v5 =>
    simp only [afterPacket]
    split
    · simp
    · exact pendings_length (pr := .v5) clk s

theorem reply_length (p : Publish) (n : Nat) : (replyOf pr p n).length ≤ 1 := by
  cases pr <;> simp only [replyOf, ackV3, ackV5] <;> split <;> simp

/-- The handler of any packet but SUBSCRIBE answers with at most one packet. -/
theorem answer_length {e : Ext} {env : Env} {g : Global} {s : Session} {n : Nat} {p : InPkt} {r : Res}
    (h : handlePacket cfg e pr env g s n p = some r) (hp : ∀ a b c, p ≠ .subscribe a b c) :
    r.out.length ≤ 1 ∧ (r.closed = false →
      r.session.sender.pending.maxInflight = s.sender.pending.maxInflight) := by
  by_cases hpub : ∃ q, p = .publish q
  · obtain ⟨q, rfl⟩ := hpub
    have hc := handle_publish_cases h
    have hsd := (publish_quiet hc).1
    refine ⟨?_, fun _ => by rw [hsd]⟩
    cases hc with
    | route2 => exact reply_length ..
    | route01 => exact reply_length ..
    | _ => simp [failV5, failV3]
  · cases pr with
    | v3 =>
      simp only [handlePacket, handlePacketV3] at h
      split at h
      · cases h; simp [failV3]
      · cases p with
        | publish q => exact absurd ⟨q, rfl⟩ hpub
        | subscribe a b c => exact absurd rfl (hp a b c)
        | unsubscribe pid ts =>
          simp only [handleUnsubscribeV3, Option.map_eq_some_iff] at h
          obtain ⟨x, hx, rfl⟩ := h
          exact ⟨by simp, fun _ => by simp only [sender_unsubscribeLoopV3 hx]⟩
        | pubrec pid =>
          cases h
          exact ⟨by simp [handlePubrecV3], fun _ => (pubrec_params _ _ _).1⟩
        | puback pid =>
          cases h
          exact ⟨by simp [handleComplete], fun _ => (complete_params _ _ _).1⟩
        | pubcomp pid =>
          cases h
          exact ⟨by simp [handleComplete], fun _ => (complete_params _ _ _).1⟩
        | pubrel pid => cases h; unfold handlePubrelV3; split <;> simp [failV3]
        | _ => cases h; simp [handleDisconnectV3]
    | v5 =>
      simp only [handlePacket, handlePacketV5] at h
      split at h
      · cases h; simp [failV5]
      · cases p with
        | publish q => exact absurd ⟨q, rfl⟩ hpub
        | subscribe a b c => exact absurd rfl (hp a b c)
        | unsubscribe pid ts =>
          simp only [handleUnsubscribeV5, Option.map_eq_some_iff] at h
          obtain ⟨x, hx, rfl⟩ := h
          exact ⟨by simp, fun _ => by simp only [sender_unsubscribeLoopV5 hx]⟩
        | pubrec pid =>
          cases h
          exact ⟨by simp [handlePubrecV5], fun _ => (pubrec_params _ _ _).1⟩
        | puback pid =>
          cases h
          exact ⟨by simp [handleComplete], fun _ => (complete_params _ _ _).1⟩
        | pubcomp pid =>
          cases h
          exact ⟨by simp [handleComplete], fun _ => (complete_params _ _ _).1⟩
        | disconnect reason expiry =>
          cases h
          unfold handleDisconnectV5
          split
          · split <;> simp [failV5]
          · simp
        | _ => cases h; simp [handlePubrelV5]

/-- What a session sends at a time. -/
theorem packet_length {e : Ext} {env : Env} {after : Clock} {g : Global} {s : Session} {n : Nat}
    {p : InPkt} {r : Res} (h : onPacket cfg e pr env after g s n p = some r)
    (hp : ∀ a b c, p ≠ .subscribe a b c) :
    r.out.length ≤ 1 + s.sender.pending.maxInflight := by
  unfold onPacket at h
  split at h
  · cases h
  · rename_i r0 h0
    obtain ⟨h1, h2⟩ := answer_length h0 hp
    split at h
    · cases h; omega
    · rename_i hcl
      cases h
      have h3 := after_length (pr := pr) after r0.session
      rw [h2 (by simpa using hcl)] at h3
      simp only [List.length_append]
      omega

theorem normal_length {env : Env} {g : Global} {s : Session} {m : NormalMsg} :
    (onNormal cfg pr env g s m).out.length ≤ 1 + s.sender.pending.maxInflight := by
  have hk : (handleNormalOf cfg pr (env.now 0 0) s m).1.sender.pending.maxInflight =
      s.sender.pending.maxInflight :=
    inflight_step (cfg := cfg) (e := exExt) (pr := pr) (p := { session := s, online := false })
      (env := env) (g := g) (ev := .offline m) rfl (fun c h => by cases h)
  unfold onNormal
  simp only
  split
  · simp
  · rename_i o _
    have ho : o.toList.length ≤ 1 := by cases o <;> simp
    split
    · have := pendings_length (pr := pr) (env.clk 0) (handleNormalOf cfg pr (env.now 0 0) s m).1
      rw [hk] at this
      simp only [List.length_append]
      omega
    · simp only; omega

/-- The receive maximum stays and little is sent at a time, apart from answers to SUBSCRIBE. -/
theorem loop_run_little {s : Session} (hs : s.idle) {is : List PollIn} {rs : List PollOut}
    (h : (OnlineLoop.new s).run cfg hooks ext pr enc is = some rs)
    (hu : ∀ x ∈ handledBy rs, x.what.unhooked) {B : Nat}
    (hB : ∀ x ∈ handledBy rs, x.what.isSubscribe = true → x.out.length ≤ B) :
    ∀ x ∈ handledBy rs, x.out.length ≤ max B (1 + s.sender.pending.maxInflight) := by
  cases hr : rs.getLast? with
  | none =>
    have : rs = [] := by simpa using hr
    subst this
    intro x hx
    cases hx
  | some r =>
    have packet : ∀ {l : OnlineLoop} {m : Moment} {size : Nat} {p : InPkt} {res : Res}, m.ans = {} →
        l.out.session.disconnected = false →
        onPacketHook cfg hooks ext pr m.env m.ans m.after m.global l.out.session size p = some res →
        ((Taken.packet m size p).isSubscribe = true → res.out.length ≤ B) →
        l.out.session.sender.pending.maxInflight = s.sender.pending.maxInflight →
        res.session.sender.pending.maxInflight = s.sender.pending.maxInflight ∧
          res.out.length ≤ max B (1 + s.sender.pending.maxInflight) := by
      intro l m size p res ha hd hp hb hw
      rw [ha, C69_invisible] at hp
      refine ⟨?_, ?_⟩
      · rw [← hw]
        exact inflight_step (cfg := cfg) (e := ext.toExt) (pr := pr) (p := { session := l.out.session })
          (q := { session := res.session, online := !res.closed }) (res := res) (env := m.env)
          (g := m.global) (ev := .packet m.after size p) (by simp [Peer.step, hd, hp])
          (fun c h => by cases h)
      · by_cases hsub : (Taken.packet m size p).isSubscribe = true
        · exact Nat.le_trans (hb hsub) (Nat.le_max_left _ _)
        · refine Nat.le_trans ?_ (Nat.le_max_right _ _)
          rw [← hw]
          exact packet_length hp (fun a b c hc => hsub (by rw [hc]; rfl))
    have key := loop_run_ends (cfg := cfg) (hooks := hooks) (ext := ext) (pr := pr) (enc := enc)
      (Q := fun b _ l => l.out.session.sender.pending.maxInflight = s.sender.pending.maxInflight ∧
        ∀ x ∈ b, x.out.length ≤ max B (1 + s.sender.pending.maxInflight))
      (R := fun b _ _ => ∀ x ∈ b, x.out.length ≤ max B (1 + s.sender.pending.maxInflight))
      (loopInv_new hs.1 hs.2) h hr ⟨rfl, fun x hx => by cases hx⟩ ?_ (fun h => h.2) ?_
    · exact key
    · intro b g l1 b' g' l2 hi hq hst hm
      have cons : ∀ {x : Handled}, b' = [x] →
          x.out.length ≤ max B (1 + s.sender.pending.maxInflight) →
          ∀ y ∈ b ++ b', y.out.length ≤ max B (1 + s.sender.pending.maxInflight) := by
        rintro x rfl hx y hy
        rcases List.mem_append.1 hy with hy | hy
        · exact hq.2 y hy
        · rw [List.mem_singleton.1 hy]; exact hx
      have hm' : ∀ {x : Handled}, b' = [x] → x ∈ handledBy rs := by
        rintro x rfl; exact hm _ (by simp)
      cases hst with
      | packet hh hd ht hc hp hcl =>
        obtain ⟨h1, h2⟩ := packet (hu _ (hm' rfl)) hd hp (hB _ (hm' rfl)) hq.1
        exact ⟨h1, cons rfl h2⟩
      | ask => exact ⟨hq.1, by simpa using hq.2⟩
      | answer hh hp hcl =>
        obtain ⟨h1, h2⟩ := packet (hu _ (hm' rfl)) (hi.asked (by simp [hh])).1 hp (hB _ (hm' rfl)) hq.1
        exact ⟨h1, cons rfl h2⟩
      | malformed hh hd ht =>
        refine ⟨hq.1, cons rfl ?_⟩
        simp only [List.length_cons, List.length_nil]
        omega
      | normal hh hd ht =>
        rename_i m msg
        refine ⟨?_, cons rfl ?_⟩
        · rw [← hq.1]
          exact inflight_step (cfg := cfg) (pr := pr) (p := { session := l1.out.session })
            (q := { session := (onNormal cfg pr m.env m.global l1.out.session msg).session })
            (res := onNormal cfg pr m.env m.global l1.out.session msg) (env := m.env)
            (g := m.global) (ev := .normal msg) (e := exExt) (by simp [Peer.step, hd])
            (fun c h => by cases h)
        · refine Nat.le_trans ?_ (Nat.le_max_right _ _)
          rw [← hq.1]
          exact normal_length
      | write => exact ⟨hq.1, by simpa using hq.2⟩
      | pass hh hp => exact ⟨by rw [pass_core hp]; exact hq.1, by simpa using hq.2⟩
      | flags ho _ _ => exact ⟨by rw [ho]; exact hq.1, by simpa using hq.2⟩
    · intro b g l1 x l2 hi hq hl hm y hy
      have hx : x ∈ handledBy rs := hm _ (by simp)
      obtain ⟨m, size, p, res, hp, hcl, rfl, rfl⟩ := hl.ex
      have hd : l1.out.session.disconnected = false := by
        rcases hl.from_ with h | ⟨-, h, -⟩
        · exact (hi.asked h).1
        · exact h
      rcases List.mem_append.1 hy with hy | hy
      · exact hq.2 y hy
      · rw [List.mem_singleton.1 hy]
        exact (packet (hu _ hx) hd hp (hB _ hx) hq.1).2

end Akasa
