import Verif.Proof.Subscribe
/-! # Every step of a session: changes of subscriptions -/
namespace Akasa

variable {cfg : Config} {ext : Ext} {pr : Proto} {env : Env}

/-- As `Changes`, but the retained store may change. -/
structure Moves (g : Global) (s : Session) (cs : List SubChange) (g' : Global) (s' : Session) :
    Prop where
  subs : s'.subs = s.subs.after cs
  route : g.route.run (cs.map (·.op s.clientId)) = some g'.route
  registered : g'.registered = g.registered
  client : s'.clientId = s.clientId
  wf : FMap.WF s.subscribes → FMap.WF s'.subscribes

theorem Changes.moves {g g' : Global} {s s' : Session} {cs : List SubChange}
    (h : Changes g s cs g' s') : Moves g s cs g' s' := 
  ⟨h.subs, h.route, h.registered, h.client, h.wf⟩

theorem Moves.of_core {g g' : Global} {s s' s'' : Session} {a : List SubChange}
    (h : Moves g s a g' s') (hc : s''.core = s'.core) : Moves g s a g' s'' := by
  refine ⟨?_, h.route, h.registered, ?_, fun hw => by rw [core_subs hc]; exact h.wf hw⟩
  · rw [← h.subs]
    exact congrArg FMap.get (core_subs hc)
  · exact (ident_clientId (ident_of_core hc)).trans h.client

theorem Moves.idle {g g' : Global} {s s' : Session} (h1 : s'.subscribes = s.subscribes)
    (h2 : g'.route = g.route) (h3 : g'.registered = g.registered) (h4 : s'.clientId = s.clientId) :
    Moves g s [] g' s' := by
  refine ⟨?_, ?_, h3, h4, fun hw => by rw [h1]; exact hw⟩
  · show s'.subscribes.get = _
    rw [h1]; rfl
  · rw [h2]; rfl

theorem sendOf_tables {g g' : Global} {s s' : Session} {m : SendPub} {n : Nat}
    (h : sendOf pr env g s m = some (s', g', n)) :
    g'.route = g.route ∧ g'.registered = g.registered := by
  cases pr
  · simp only [sendOf, Option.map_eq_some_iff] at h
    obtain ⟨⟨a, b⟩, h1, h2⟩ := h
    cases h2
    unfold sendPublishV3 at h1
    simp only at h1
    split at h1
    · cases h1
    · cases h1; exact ⟨rfl, rfl⟩
  · simp only [sendOf, sendPublishV5] at h
    split at h
    · cases h
    · cases h; exact ⟨rfl, rfl⟩

theorem resolved_client {s s1 : Session} {p : Publish} {t : Str}
    (h : Resolved cfg pr s p s1 t) : s1.clientId = s.clientId :=
  congrArg (fun s => s.clientId) (resolved_ident h)

theorem moves_publish {g : Global} {s : Session} {p : Publish} {r : Res}
    (h : PubCase cfg ext pr env g s p r) : Moves g s [] r.global r.session := by
  cases h with
  | rejectV5 hpr s' hs code =>
    rcases hs with rfl | ⟨t, hs⟩
    · exact .idle rfl rfl rfl rfl
    · exact .idle (resolved_subs hs :) rfl rfl (resolved_client hs :)
  | rejectV3 => exact .idle rfl rfl rfl rfl
  | inUse _ s1 t pid prev hres => exact .idle (resolved_subs hres :) rfl rfl (resolved_client hres :)
  | repeated s1 t pid hres => exact .idle (resolved_subs hres :) rfl rfl (resolved_client hres :)
  | lostFirst s1 t pid hres => exact .idle (resolved_subs hres :) rfl rfl (resolved_client hres :)
  | route2 s1 t pid s' g' n hres hp hd hg hlen hs =>
    have hc := core_sendOf hs
    exact .idle ((core_subs hc).trans (resolved_subs hres :)) (sendOf_tables hs).1 (sendOf_tables hs).2
      ((ident_clientId (ident_of_core hc)).trans (resolved_client hres :))
  | route01 s1 t s' g' n hres hp hs =>
    have hc := core_sendOf hs
    exact .idle ((core_subs hc).trans (resolved_subs hres :)) (sendOf_tables hs).1 (sendOf_tables hs).2
      ((ident_clientId (ident_of_core hc)).trans (resolved_client hres :))

theorem moves_packet {g : Global} {s : Session} {n : Nat} {p : InPkt} {r : Res}
    (h : handlePacket cfg ext pr env g s n p = some r) :
    Moves g s (if n ≤ cfg.maxPacketSizeServer then p.changes cfg pr else []) r.global r.session := by
  by_cases hn : n ≤ cfg.maxPacketSizeServer
  case neg =>
    rw [if_neg hn]
    have hn : n > cfg.maxPacketSizeServer := by omega
    cases pr
    · simp only [handlePacket, handlePacketV3, if_pos hn] at h
      cases h; exact .idle rfl rfl rfl rfl
    · simp only [handlePacket, handlePacketV5, if_pos hn] at h
      cases h; exact .idle rfl rfl rfl rfl
  rw [if_pos hn]
  by_cases hp : ∃ q, p = .publish q
  · obtain ⟨q, rfl⟩ := hp
    exact moves_publish (handle_publish_cases h)
  have hn' : ¬ n > cfg.maxPacketSizeServer := by omega
  cases pr
  · simp only [handlePacket, handlePacketV3, if_neg hn'] at h
    cases p with
    | publish q => exact absurd ⟨q, rfl⟩ hp
    | subscribe pid ts id =>
      simp only [handleSubscribeV3, Option.map_eq_some_iff] at h
      obtain ⟨a, h1, rfl⟩ := h
      have h2 := (subscribeLoopV3_effect h1).1.moves
      split <;> exact h2
    | unsubscribe pid ts =>
      simp only [handleUnsubscribeV3, Option.map_eq_some_iff] at h
      obtain ⟨a, h1, rfl⟩ := h
      exact (unsubscribeLoopV3_effect h1).moves
    | pubrel pid =>
      cases h
      unfold handlePubrelV3
      split <;> exact .idle rfl rfl rfl rfl
    | _ => cases h; exact .idle rfl rfl rfl rfl
  · simp only [handlePacket, handlePacketV5, if_neg hn'] at h
    cases p with
    | publish q => exact absurd ⟨q, rfl⟩ hp
    | subscribe pid ts id =>
      simp only [handleSubscribeV5] at h
      simp only [InPkt.changes, acceptedSubs]
      by_cases h0 : id = some 0
      · rw [if_pos h0] at h
        rw [if_pos (.inl h0)]
        cases h; exact .idle rfl rfl rfl rfl
      rw [if_neg h0] at h
      by_cases hr : RefusesId cfg id
      · rw [if_pos (.inr hr)]
        rw [if_pos (by
          simp only [RefusesId] at hr
          simp [hr.1, Option.isSome_iff_ne_none, hr.2])] at h
        cases h; exact .idle rfl rfl rfl rfl
      · rw [if_neg (fun hc => hc.elim h0 hr)]
        rw [if_neg (by
          simp only [RefusesId] at hr
          simpa [Option.isSome_iff_ne_none] using hr)] at h
        rw [Option.map_eq_some_iff] at h
        obtain ⟨a, h1, rfl⟩ := h
        exact (subscribeLoopV5_effect hr h1).1.moves
    | unsubscribe pid ts =>
      simp only [handleUnsubscribeV5, Option.map_eq_some_iff] at h
      obtain ⟨a, h1, rfl⟩ := h
      exact (unsubscribeLoopV5_effect h1).1.moves
    | pubrel pid => cases h; exact .idle rfl rfl rfl rfl
    | disconnect reason e =>
      cases h
      simp only [handleDisconnectV5, InPkt.changes]
      split
      · split <;> exact .idle rfl rfl rfl rfl
      · exact .idle rfl rfl rfl rfl
    | _ => cases h; exact .idle rfl rfl rfl rfl

theorem resume_subs (c : ConnParams) (s : Session) :
    (s.resume cfg pr c).subscribes = s.subscribes := by cases pr <;> rfl
theorem resume_client (c : ConnParams) (s : Session) :
    (s.resume cfg pr c).clientId = s.clientId := by cases pr <;> rfl

/-- The changes of every step of a session. -/
theorem moves_step {r : Rec}
    (hs : r.pre.step cfg ext pr r.env r.before r.ev = some (r.post, r.res)) :
    Moves r.before r.pre.session (r.changes cfg pr) r.res.global r.post.session := by
  cases hr : r.received with
  | some pkt =>
    obtain ⟨n, r0, h1⟩ := step_received hs hr
    obtain ⟨after, hev⟩ := h1.isEv
    have h2 := (moves_packet h1.handled).of_core h1.core
    rw [h1.glob]
    have : r.changes cfg pr =
        if n ≤ cfg.maxPacketSizeServer then pkt.changes cfg pr else [] := by
      simp only [Rec.changes, Rec.processed, hev, h1.on, h1.connected]
      by_cases hn : n ≤ cfg.maxPacketSizeServer <;> simp [hn]
    rw [this]
    exact h2
  | none =>
    have hi := step_idle hs hr
    have : r.changes cfg pr = [] := by
      have : r.processed cfg = none := by
        unfold Rec.processed
        unfold Rec.received at hr
        split
        · rename_i hev
          rw [hev] at hr
          simp only at hr
          split at hr
          · cases hr
          · rename_i hf
            rw [if_neg (by simp only [Bool.and_eq_true] at hf ⊢; exact fun h => hf h.1)]
        · rfl
      simp only [Rec.changes, this]
    rw [this]
    by_cases hres : ∃ c, r.ev = .resume c
    · obtain ⟨c, hc⟩ := hres
      rw [hc] at hs
      simp only [Peer.step, Option.some.injEq, Prod.mk.injEq] at hs
      rw [hi.2.1, ← hs.1]
      have hk := core_pendings pr (r.env.clk 0) (r.pre.session.resume cfg pr c)
      exact .idle ((core_subs hk).trans (resume_subs ..)) rfl rfl
        ((ident_clientId (ident_of_core hk)).trans (resume_client ..))
    · have hc := (hi.2.2.2.2 fun c hc => hres ⟨c, hc⟩).1
      rw [hi.2.1]
      exact .idle (core_subs hc) rfl rfl (ident_clientId (ident_of_core hc))

end Akasa
