import Verif.Model.World
import Verif.Proof.SubscribeStep
import Verif.Proof.Copies
import Verif.Proof.Fanout
/-! # What the handlers keep of a session -/
namespace Akasa

variable {cfg : Config} {ext : Ext} {pr : Proto} {env : Env}

/-- The parts of a session that identify it and the will. -/
structure SameId (s s' : Session) : Prop where
  client : s'.clientId = s.clientId
  name : s'.identifier = s.identifier

/-- ... and nothing that matters at the end of the connection has changed. -/
structure SameEnd (s s' : Session) : Prop extends SameId s s' where
  will : s'.will = s.will
  gone : s'.clientDisconnected = s.clientDisconnected
  expiry : s'.expiryInterval = s.expiryInterval

theorem SameId.refl (s : Session) : SameId s s := ⟨rfl, rfl⟩
theorem SameEnd.refl (s : Session) : SameEnd s s := ⟨⟨rfl, rfl⟩, rfl, rfl, rfl⟩

theorem SameId.trans {a b c : Session} (h : SameId a b) (h' : SameId b c) : SameId a c :=
  ⟨h'.1.trans h.1, h'.2.trans h.2⟩

theorem SameEnd.trans {a b c : Session} (h : SameEnd a b) (h' : SameEnd b c) : SameEnd a c :=
  ⟨h.1.trans h'.1, h'.2.trans h.2, h'.3.trans h.3, h'.4.trans h.4⟩

theorem SameEnd.of_ident {s s' : Session} (h : s'.ident = s.ident) : SameEnd s s' :=
  ⟨⟨ident_clientId h, ident_identifier h⟩, ident_will h, ident_cd h,
    congrArg (fun s => s.expiryInterval) h⟩

theorem SameEnd.of_core {s s' : Session} (h : s'.core = s.core) : SameEnd s s' :=
  .of_ident (ident_of_core h)

theorem sameEnd_resolved {s s1 : Session} {p : Publish} {t : Str}
    (h : Resolved cfg pr s p s1 t) : SameEnd s s1 := by
  rw [resolved_ident h]
  exact ⟨⟨rfl, rfl⟩, rfl, rfl, rfl⟩

theorem sameEnd_publish {g : Global} {s : Session} {p : Publish} {r : Res}
    (h : PubCase cfg ext pr env g s p r) : SameEnd s r.session := by
  cases h with
  | rejectV5 hpr s' hs code =>
    rcases hs with rfl | ⟨t, hs⟩
    · exact ⟨⟨rfl, rfl⟩, rfl, rfl, rfl⟩
    · have := sameEnd_resolved hs
      exact ⟨⟨this.1.1, this.1.2⟩, this.2, this.3, this.4⟩
  | rejectV3 => exact .refl _
  | inUse _ s1 t pid prev hres => exact sameEnd_resolved hres
  | repeated s1 t pid hres => exact sameEnd_resolved hres
  | lostFirst s1 t pid hres =>
    have := sameEnd_resolved hres
    exact ⟨⟨this.1.1, this.1.2⟩, this.2, this.3, this.4⟩
  | route2 s1 t pid s' g' n hres hp hd hg hlen hs =>
    have := sameEnd_resolved hres
    have h1 : SameEnd s { s1 with qos2 := s.qos2.insert pid (ext.hash p) } :=
      ⟨⟨this.1.1, this.1.2⟩, this.2, this.3, this.4⟩
    exact h1.trans (.of_core (core_sendOf hs))
  | route01 s1 t s' g' n hres hp hs =>
    exact (sameEnd_resolved hres).trans (.of_core (core_sendOf hs))

/-- A packet other than DISCONNECT. -/
theorem sameEnd_packet {g : Global} {s : Session} {n : Nat} {p : InPkt} {r : Res}
    (hd : ∀ c e, p ≠ .disconnect c e)
    (h : handlePacket cfg ext pr env g s n p = some r) : SameEnd s r.session := by
  by_cases hp : ∃ q, p = .publish q
  · obtain ⟨q, rfl⟩ := hp
    exact sameEnd_publish (handle_publish_cases h)
  cases pr
  · simp only [handlePacket, handlePacketV3] at h
    split at h
    · cases h; exact .refl _
    cases p with
    | publish q => exact absurd ⟨q, rfl⟩ hp
    | disconnect c e => exact absurd rfl (hd c e)
    | subscribe pid ts id =>
      simp only [handleSubscribeV3, Option.map_eq_some_iff] at h
      obtain ⟨a, h1, rfl⟩ := h
      have h2 := SameEnd.of_ident (ident_subscribeLoopV3 h1)
      split <;> exact h2
    | unsubscribe pid ts =>
      simp only [handleUnsubscribeV3, Option.map_eq_some_iff] at h
      obtain ⟨a, h1, rfl⟩ := h
      exact SameEnd.of_ident (ident_unsubscribeLoopV3 h1)
    | pubrel pid =>
      cases h
      unfold handlePubrelV3
      split <;> exact ⟨⟨rfl, rfl⟩, rfl, rfl, rfl⟩
    | _ => cases h; exact ⟨⟨rfl, rfl⟩, rfl, rfl, rfl⟩
  · simp only [handlePacket, handlePacketV5] at h
    split at h
    · cases h; exact ⟨⟨rfl, rfl⟩, rfl, rfl, rfl⟩
    cases p with
    | publish q => exact absurd ⟨q, rfl⟩ hp
    | disconnect c e => exact absurd rfl (hd c e)
    | subscribe pid ts id =>
      simp only [handleSubscribeV5] at h
      split at h
      · cases h; exact ⟨⟨rfl, rfl⟩, rfl, rfl, rfl⟩
      split at h
      · cases h; exact .refl _
      rw [Option.map_eq_some_iff] at h
      obtain ⟨a, h1, rfl⟩ := h
      exact SameEnd.of_ident (ident_subscribeLoopV5 h1)
    | unsubscribe pid ts =>
      simp only [handleUnsubscribeV5, Option.map_eq_some_iff] at h
      obtain ⟨a, h1, rfl⟩ := h
      exact SameEnd.of_ident (ident_unsubscribeLoopV5 h1)
    | pubrel pid =>
      cases h
      unfold handlePubrelV5
      split <;> exact ⟨⟨rfl, rfl⟩, rfl, rfl, rfl⟩
    | _ => cases h; exact ⟨⟨rfl, rfl⟩, rfl, rfl, rfl⟩

/-- What a DISCONNECT does. -/
theorem disconnect_effect {g : Global} {s : Session} {n : Nat} {c : Reason} {e : Option Nat}
    {r : Res} (h : handlePacket cfg ext pr env g s n (.disconnect c e) = some r) :
    SameEnd s r.session ∨
    (SameId s r.session ∧ r.session.clientDisconnected = true ∧
      (r.session.expiryInterval = s.expiryInterval ∨ ∃ v, e = some v ∧
        r.session.expiryInterval = v ∧ pr = .v5 ∧ 0 < s.expiryInterval) ∧
      ((r.session.will = none ∧ (pr = .v3 ∨ c = .success)) ∨
        (r.session.will = s.will ∧ pr = .v5 ∧ c ≠ .success))) := by
  cases pr
  · simp only [handlePacket, handlePacketV3] at h
    split at h
    · cases h; exact .inl (.refl _)
    · cases h; exact .inr ⟨⟨rfl, rfl⟩, rfl, .inl rfl, .inl ⟨rfl, .inl rfl⟩⟩
  · simp only [handlePacket, handlePacketV5] at h
    split at h
    · cases h; exact .inl ⟨⟨rfl, rfl⟩, rfl, rfl, rfl⟩
    · cases h
      unfold handleDisconnectV5
      have key : ∀ s' : Session, s'.will = (if c = .success then none else s.will) →
          (s'.will = none ∧ (Proto.v5 = .v3 ∨ c = .success)) ∨
            (s'.will = s.will ∧ Proto.v5 = .v5 ∧ c ≠ .success) := by
        intro s' hs'
        by_cases hc : c = .success
        · rw [if_pos hc] at hs'; exact .inl ⟨hs', .inr hc⟩
        · rw [if_neg hc] at hs'; exact .inr ⟨hs', rfl, hc⟩
      split
      · split
        · exact .inl ⟨⟨rfl, rfl⟩, rfl, rfl, rfl⟩
        · rename_i v hv
          refine .inr ⟨⟨rfl, rfl⟩, rfl, ?_, key _ rfl⟩
          by_cases h0 : s.expiryInterval = 0
          · exact .inl ((Nat.eq_zero_of_not_pos fun h => hv ⟨h0, h⟩).trans h0.symm)
          · exact .inr ⟨v, rfl, rfl, rfl, Nat.pos_of_ne_zero h0⟩
      · exact .inr ⟨⟨rfl, rfl⟩, rfl, .inl rfl, key _ rfl⟩

/-- What the handling of a packet may do to identity, will and the mark of a DISCONNECT. -/
structure Ends (s s' : Session) : Prop extends SameId s s' where
  will : s'.will = none ∧ s'.clientDisconnected = true ∨ s'.will = s.will
  expiry : s'.clientDisconnected = true ∨
    (s'.expiryInterval = s.expiryInterval ∧ s'.clientDisconnected = s.clientDisconnected)

theorem SameEnd.ends {s s' : Session} (h : SameEnd s s') : Ends s s' :=
  ⟨h.1, .inr h.will, .inr ⟨h.expiry, h.gone⟩⟩

theorem ends_packet {g : Global} {s : Session} {n : Nat} {p : InPkt} {r : Res}
    (h : handlePacket cfg ext pr env g s n p = some r) : Ends s r.session := by
  by_cases hd : ∃ c e, p = .disconnect c e
  · obtain ⟨c, e, rfl⟩ := hd
    rcases disconnect_effect h with h1 | ⟨h1, h2, -, h3⟩
    · exact h1.ends
    · refine ⟨h1, ?_, .inl h2⟩
      rcases h3 with h3 | h3
      · exact .inl ⟨h3.1, h2⟩
      · exact .inr h3.1
  · exact (sameEnd_packet (fun c e he => hd ⟨c, e, he⟩) h).ends

theorem onPacket_handled {g : Global} {s : Session} {n : Nat} {p : InPkt} {r : Res} {after : Clock}
    (h : onPacket cfg ext pr env after g s n p = some r) :
    ∃ r0, handlePacket cfg ext pr env g s n p = some r0 ∧ r.session.core = r0.session.core ∧
      r.session.copies = r0.session.copies ∧ r.global = r0.global ∧ r.routed = r0.routed ∧
      r.closed = r0.closed := by
  unfold onPacket at h
  split at h
  · cases h
  · rename_i r0 h0
    refine ⟨r0, h0, ?_⟩
    split at h
    · cases h; exact ⟨rfl, rfl, rfl, rfl, rfl⟩
    · cases h; exact ⟨core_after .., copies_after .., rfl, rfl, rfl⟩

theorem ends_onPacket {g : Global} {s : Session} {n : Nat} {p : InPkt} {r : Res} {after : Clock}
    (h : onPacket cfg ext pr env after g s n p = some r) : Ends s r.session := by
  obtain ⟨r0, h0, hc, -⟩ := onPacket_handled h
  have h1 := ends_packet h0
  have h2 := SameEnd.of_core hc
  refine ⟨h1.1.trans h2.1, ?_, ?_⟩
  · rw [h2.will, h2.gone]; exact h1.will
  · rw [h2.gone, h2.expiry]; exact h1.expiry

theorem sameEnd_onNormal {g : Global} {s : Session} {m : NormalMsg} :
    SameEnd s (onNormal cfg pr env g s m).session := .of_core (core_onNormal ..)

theorem sameEnd_normal {s : Session} {m : NormalMsg} {now : Nat} :
    SameEnd s (handleNormalOf cfg pr now s m).1 := .of_core (core_normal ..)

theorem core_drain (s : Session) (ms : List (TaskId × NormalMsg)) :
    (drainInbox cfg pr env s ms).core = s.core := by
  induction ms generalizing s with
  | nil => rfl
  | cons e ms ih =>
    obtain ⟨_, m⟩ := e
    exact (ih _).trans (core_normal ..)

/-! ## Queues of copies only grow at the end -/

/-- A session whose queues have grown. -/
def Grown (s s' : Session) : Prop := ∀ d, ∃ l, s'.queue d = s.queue d ++ l

theorem Grown.of_copies {s s' : Session} (h : s'.copies = s.copies) : Grown s s' := by
  intro d
  refine ⟨[], ?_⟩
  have : s'.bcast = s.bcast := congrArg Prod.fst h
  unfold Session.queue
  rw [this, List.append_nil]

theorem Grown.refl (s : Session) : Grown s s := .of_copies rfl

theorem Grown.newCopies {s s' : Session} (h : Grown s s') (d : ClientId) :
    s'.queue d = s.queue d ++ newCopies s s' d := by
  obtain ⟨l, hl⟩ := h d
  unfold Akasa.newCopies
  rw [hl]
  simp

theorem grown_pushCopies (s : Session) (reg : ClientId → Bool) (cs : List (ClientId × NormalMsg)) :
    Grown s (s.pushCopies reg cs) := by
  intro d
  obtain ⟨h1, h2⟩ := queued_pushCopies s reg cs d
  by_cases hr : Reachable reg s d
  · exact ⟨_, h1 hr⟩
  · refine ⟨[], ?_⟩
    unfold Session.queue
    rw [h2 hr, List.append_nil]

/-- Copies are queued only for clients that are registered or have copies waiting. -/
theorem pushCopies_unknown (s : Session) {reg : ClientId → Bool}
    (cs : List (ClientId × NormalMsg)) {d : ClientId} (hr : reg d = false)
    (hq : s.bcast.get d = none) : (s.pushCopies reg cs).bcast.get d = none := by
  rw [(queued_pushCopies s reg cs d).2, hq]
  rintro (h | ⟨q, h⟩)
  · rw [hr] at h; cases h
  · rw [hq] at h; cases h

theorem sendOf_push {g g' : Global} {s s' : Session} {m : SendPub} {n : Nat}
    (h : sendOf pr env g s m = some (s', g', n)) :
    ∃ cs, s' = s.pushCopies g.registered cs := by
  cases pr
  · simp only [sendOf, Option.map_eq_some_iff] at h
    obtain ⟨⟨a, b⟩, h1, h2⟩ := h
    cases h2
    unfold sendPublishV3 at h1
    simp only at h1
    split at h1
    · cases h1
    · cases h1; exact ⟨_, rfl⟩
  · simp only [sendOf, sendPublishV5] at h
    split at h
    · cases h
    · cases h; exact ⟨_, rfl⟩

/-- All copies queued by a packet come from one call of routing. -/
theorem push_packet {g : Global} {s : Session} {n : Nat} {p : InPkt} {r : Res}
    (h : handlePacket cfg ext pr env g s n p = some r) :
    r.session.bcast = s.bcast ∨ ∃ (s1 : Session) (cs : _), s1.bcast = s.bcast ∧
      r.session.bcast = (s1.pushCopies g.registered cs).bcast := by
  by_cases hr : r.routed = []
  · exact .inl (congrArg Prod.fst (copies_handlePacket h hr))
  · by_cases hp : ∃ q, p = .publish q
    · obtain ⟨q, rfl⟩ := hp
      cases handle_publish_cases h with
      | route2 s1 t pid s' g' n hres hl hd hg hlen hs =>
        obtain ⟨cs, rfl⟩ := sendOf_push hs
        refine .inr ⟨_, cs, ?_, rfl⟩
        show s1.bcast = _
        rw [resolved_ident hres]
      | route01 s1 t s' g' n hres hp hs =>
        obtain ⟨cs, rfl⟩ := sendOf_push hs
        refine .inr ⟨_, cs, ?_, rfl⟩
        show s1.bcast = _
        rw [resolved_ident hres]
      | _ => exact absurd rfl hr
    · exact absurd (handle_other (fun q hq => hp ⟨q, hq⟩) h).1 hr

/-- The queues of `s'` are those of `s` and copies for clients `reg` knows. -/
structure Pushed (reg : ClientId → Bool) (s s' : Session) : Prop where
  grown : Grown s s'
  known : ∀ d, reg d = false → s.bcast.get d = none → s'.bcast.get d = none

theorem Pushed.of_copies {s s' : Session} (h : s'.copies = s.copies) (reg : ClientId → Bool) :
    Pushed reg s s' :=
  ⟨.of_copies h, fun d _ hd => by rw [show s'.bcast = s.bcast from congrArg Prod.fst h]; exact hd⟩

theorem pushed_pushCopies {s s1 s' : Session} {reg : ClientId → Bool}
    {cs : List (ClientId × NormalMsg)} (h1 : s1.bcast = s.bcast)
    (h2 : s'.bcast = (s1.pushCopies reg cs).bcast) : Pushed reg s s' := by
  constructor
  · intro d
    obtain ⟨l, hl⟩ := grown_pushCopies s1 reg cs d
    refine ⟨l, ?_⟩
    unfold Session.queue at hl ⊢
    rw [h2, hl, h1]
  · intro d hr hd
    rw [h2]
    exact pushCopies_unknown s1 cs hr (by rw [h1]; exact hd)

theorem pushed_packet {g : Global} {s : Session} {n : Nat} {p : InPkt} {r : Res}
    (h : handlePacket cfg ext pr env g s n p = some r) : Pushed g.registered s r.session := by
  rcases push_packet h with h | ⟨s1, cs, h1, h2⟩
  · refine ⟨?_, ?_⟩
    · intro d; exact ⟨[], by unfold Session.queue; rw [h, List.append_nil]⟩
    · intro d _ hd; rw [h]; exact hd
  · exact pushed_pushCopies h1 h2

theorem pushed_onPacket {g : Global} {s : Session} {n : Nat} {p : InPkt} {r : Res} {after : Clock}
    (h : onPacket cfg ext pr env after g s n p = some r) : Pushed g.registered s r.session := by
  obtain ⟨r0, h0, -, hc, -⟩ := onPacket_handled h
  have h1 := pushed_packet h0
  have hb : r.session.bcast = r0.session.bcast := congrArg Prod.fst hc
  refine ⟨?_, ?_⟩
  · intro d
    obtain ⟨l, hl⟩ := h1.grown d
    exact ⟨l, by unfold Session.queue at hl ⊢; rw [hb, hl]⟩
  · intro d hr hd; rw [hb]; exact h1.known d hr hd

/-! ## Wills -/

/-- What sending the will does. -/
structure WillSent (ext : Ext) (pr : Proto) (env : Env) (g : Global) (s s' : Session) (g' : Global)
    (m : Option SendPub) : Prop extends SameId s s' where
  will : s'.will = none
  gone : s'.clientDisconnected = s.clientDisconnected
  expiry : s'.expiryInterval = s.expiryInterval
  subs : s'.subscribes = s.subscribes
  route : g'.route = g.route
  pushed : Pushed g.registered s s'
  msg : m = s.will.map (Will.message ext)
  sent : ∀ wl, s.will = some wl →
    ∃ n, sendOf pr env g { s with will := none } (wl.message ext) = some (s', g', n)
  kept : s.will = none → s' = s ∧ g' = g

theorem will_sent {g g' : Global} {s s' : Session} {m : Option SendPub}
    (h : sendWill ext pr env g s = some (s', g', m)) : WillSent ext pr env g s s' g' m := by
  unfold sendWill at h
  split at h
  · rename_i hw
    cases h
    exact ⟨⟨rfl, rfl⟩, hw, rfl, rfl, rfl, rfl, .of_copies rfl _, by rw [hw]; rfl,
      (fun wl he => by rw [hw] at he; cases he), fun _ => ⟨rfl, rfl⟩⟩
  · rename_i wl hw
    have key : ∃ n, sendOf pr env g { s with will := none } (wl.message ext) = some (s', g', n) ∧
        m = some (wl.message ext) := by
      cases pr
      · simp only [Option.map_eq_some_iff, Prod.mk.injEq] at h
        obtain ⟨⟨a, b⟩, h1, h2, h3, h4⟩ := h
        simp only at h2 h3
        subst h2 h3
        exact ⟨0, by simp only [sendOf, h1]; rfl, h4.symm⟩
      · simp only [Option.map_eq_some_iff, Prod.mk.injEq] at h
        obtain ⟨⟨a, b, c⟩, h1, h2, h3, h4⟩ := h
        simp only at h2 h3
        subst h2 h3
        exact ⟨c, h1, h4.symm⟩
    obtain ⟨n, h1, h2⟩ := key
    have hc := core_sendOf h1
    have hi := ident_of_core hc
    obtain ⟨cs, h3⟩ := sendOf_push h1
    refine ⟨⟨(ident_clientId hi :), (ident_identifier hi :)⟩, (ident_will hi :), (ident_cd hi :),
      (congrArg (fun s => s.expiryInterval) hi :), (core_subs hc :), (sendOf_tables h1).1, ?_, ?_, ?_,
      fun h => by rw [hw] at h; cases h⟩
    · exact pushed_pushCopies (s1 := { s with will := none }) rfl (by rw [h3])
    · rw [h2, hw]; rfl
    · intro wl' he
      rw [hw] at he
      cases he
      exact ⟨n, h1⟩

end Akasa
