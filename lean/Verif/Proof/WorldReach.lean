import Verif.Proof.WorldSubs
import Verif.Props.Fanout
/-! # Copies of published messages in the whole broker -/
namespace Akasa

variable {cfg : Config} {ext : Ext} {pr : Proto} {env : Env} {w w' : World} {evs : List Event}

/-- One call of routing queues a copy for every plain subscription that matches. -/
theorem send_plain {g g' : Global} {s s' : Session} {m : SendPub} {n : Nat}
    (h : sendOf pr env g s m = some (s', g', n)) {ops : List RouteOp}
    (htab : RouteTable.empty.run ops = some g.route) (hv : ValidTopic m.topic) {id : ClientId}
    (hr : Reachable g.registered s id) {F : Str} {q : QoS} (hsub : PlainMatch ops m.topic id F q)
    (hown : NotOwn s id F) : ∃ l, s'.queue id = s.queue id ++ l ∧ ∃ c ∈ l, IsCopyFor m F q c := by
  have hri := RInv.empty.run htab
  cases pr
  · simp only [sendOf, sendPublishV3] at h
    cases hl : collectV3 (g.route.getMatches m.topic) with
    | none => rw [hl] at h; cases h
    | some l =>
      rw [hl] at h
      simp only [Option.map_some, Option.some.injEq, Prod.mk.injEq] at h
      obtain ⟨rfl, _, _⟩ := h
      have hq := queued_pushCopies s g.registered (l.map fun e =>
        (e.1, NormalMsg.publishV3 m.retain m.qos m.topic m.payload e.2.1 e.2.2 m.encodeLen)) id
      refine ⟨_, hq.1 hr, ?_⟩
      refine ⟨m.copyV3 (F, q), ?_, .inl rfl⟩
      rw [filter_copies l (fun e => NormalMsg.publishV3 m.retain m.qos m.topic m.payload
          e.2.1 e.2.2 m.encodeLen) id]
      refine List.mem_map.2 ⟨(id, F, q), ?_, rfl⟩
      rw [List.mem_filter]
      exact ⟨(collectV3_iff hri hv hl).2 hsub, by simp⟩
  · simp only [sendOf, sendPublishV5, collectV5_eq] at h
    cases hl : causes s env.pick (g.route.getMatches m.topic) with
    | none => rw [hl] at h; cases h
    | some l =>
      rw [hl] at h
      simp only [Option.map_some, Option.some.injEq, Prod.mk.injEq] at h
      obtain ⟨rfl, rfl, _⟩ := h
      have hq := queued_pushCopies s g.registered ((addAll l []).map fun e =>
        (e.1, NormalMsg.publishV5 m.retain m.qos m.topic m.payload e.2.1 e.2.2 m.props m.encodeLen))
        id
      refine ⟨_, hq.1 hr, ?_⟩
      rw [filter_copies (addAll l []) (fun e => NormalMsg.publishV5 m.retain m.qos m.topic m.payload
        e.2.1 e.2.2 m.props m.encodeLen) id, filter_of_get (wf_addAll l (by simp)) id]
      obtain ⟨c, hc, f, h1, h2⟩ := (plainCause_iff (s := s) hri hv).mpr ⟨hsub, hown⟩
      have hmem : (id, F, q) ∈ l := (mem_causes hl).mpr ⟨c, hc, f, h1, .inl h2⟩
      have hmem' : (id, F, q) ∈ ofClient id l := mem_ofClient.mpr ⟨hmem, rfl⟩
      rcases get_addAll l id with ⟨g1, g2⟩ | ⟨q', g1, _, g3⟩
      · rw [g1] at hmem'; cases hmem'
      · rw [g1]
        exact ⟨_, List.mem_singleton.2 rfl, .inr ⟨_, q', rfl, List.mem_map.mpr ⟨_, hmem', rfl⟩,
          g3 _ hmem'⟩⟩

/-- The call of routing in the handling of a packet. -/
theorem packet_send {g : Global} {s : Session} {n : Nat} {p : InPkt} {r : Res} {after : Clock}
    {m : SendPub} (h : onPacket cfg ext pr env after g s n p = some r) (hm : m ∈ r.routed) :
    ∃ s2 s' g' k, sendOf pr env g s2 m = some (s', g', k) ∧
      s2.bcast = s.bcast ∧ s2.clientId = s.clientId ∧
      s2.subscribes = s.subscribes ∧ r.session.bcast = s'.bcast := by
  obtain ⟨r0, h0, _, hc, _, hro, _⟩ := onPacket_handled h
  have hb : r.session.bcast = r0.session.bcast := congrArg Prod.fst hc
  rw [hro] at hm
  by_cases hpub : ∃ q, p = .publish q
  · obtain ⟨q, rfl⟩ := hpub
    cases handle_publish_cases h0 with
    | route2 s1 topic pid s' g' n hres hl hd hg hlen hsend =>
      simp only [List.mem_singleton] at hm
      subst hm
      have e := resolved_ident hres
      exact ⟨_, s', g', n, hsend, by rw [e], by rw [e], by rw [e], hb⟩
    | route01 s1 topic s' g' n hres hl hsend =>
      simp only [List.mem_singleton] at hm
      subst hm
      have e := resolved_ident hres
      exact ⟨_, s', g', n, hsend, by rw [e], by rw [e], by rw [e], hb⟩
    | _ => cases hm
  · rw [(handle_other (fun q e => hpub ⟨q, e⟩) h0).1] at hm; cases hm

/-- A client with a session is registered. -/
theorem owner_registered (ho : OInv w) {t : TaskId} {x : Task} {s : Session}
    (hx : w.tasks.get t = some x) (hs : x.stage.owner? = some s) :
    w.registry.clients.contains s.clientId = true := by
  have hid : w.registry.identMap.get x.req.identifier = some s.clientId :=
    ho.named t s.clientId _ (owner_of hx hs) (Tasks.views hx).2.2.2.1
  have h3 := (ho.reg.inverse s.clientId x.req.identifier).2 hid
  rw [ho.reg.queue]
  cases hg : w.registry.idMap.get s.clientId with
  | none => rw [hg] at h3; cases h3
  | some e => rfl

theorem queue_congr {a b : Session} (h : a.bcast = b.bcast) (d : ClientId) :
    a.queue d = b.queue d := by unfold Session.queue; rw [h]

/-- The new copies, given the call of routing. -/
theorem newCopies_send {g g' : Global} {s s2 s' s3 : Session} {m : SendPub} {n : Nat}
    (h : sendOf pr env g s2 m = some (s', g', n)) (h2 : s2.bcast = s.bcast)
    (h3 : s3.bcast = s'.bcast) {ops : List RouteOp}
    (htab : RouteTable.empty.run ops = some g.route) (hv : ValidTopic m.topic) {id : ClientId}
    (hr : g.registered id = true) {F : Str} {q : QoS} (hsub : PlainMatch ops m.topic id F q)
    (hown : NotOwn s2 id F) : ∃ c ∈ newCopies s s3 id, IsCopyFor m F q c := by
  obtain ⟨l, h4, c, h5, h6⟩ := send_plain h htab hv (.inl hr) hsub hown
  refine ⟨c, ?_, h6⟩
  unfold newCopies
  rw [queue_congr h3, ← queue_congr h2, h4]
  simpa using h5

end Akasa
