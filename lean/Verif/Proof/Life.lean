import Verif.Spec.Life
import Verif.Proof.WorldTopic
import Verif.Proof.WorldFlow
/-! # The sessions of the whole broker live like sessions that are alone -/
namespace Akasa

variable {cfg : Config} {ext : Ext} {w w' : World} {evs e : List Event} {pr : Proto}
  {obs : List Obs} {p : Peer}

/-! ## Conditions on what happens to a session -/

/-- An event in which no queued message is sent. -/
def SessEv.still : SessEv → Prop
  | .offline _ => True
  | .passed _ _ => True
  | .lost => True
  | _ => False

/-- Conditions on the retained messages, the messages taken from the inbox, the times read, and the
whole sequence of events (to which `still` events can be added). -/
structure Good where
  retain : RetainTable → Prop
  msg : NormalMsg → Prop
  env : Env → Prop
  after : Clock → Prop
  empty : retain .empty
  run : List (Env × Global × SessEv) → Prop := fun _ => True
  start : run [] := by exact trivial
  free : ∀ l env g ev, ev.still → run l → run (l ++ [(env, g, ev)]) := by
    exact fun _ _ _ _ _ _ => trivial

/-- No condition. -/
def Good.any : Good where
  retain _ := True
  msg _ := True
  env _ := True
  after _ := True
  empty := trivial

/-- An event of a session meets them. -/
def Good.ev (G : Good) (e : Env × Global × SessEv) : Prop :=
  G.retain e.2.1.retain ∧
  match e.2.2 with
  | .packet after _ _ => G.env e.1 ∧ G.after after
  | .normal m => G.env e.1 ∧ G.msg m
  | .offline m => G.env e.1 ∧ G.msg m
  | .resume _ => G.env e.1
  | _ => True

/-- Like `Lives`, if all events meet the conditions. -/
def LivesIn (G : Good) (cfg : Config) (ext : Ext) (pr : Proto) (obs : List Obs) (p : Peer) : Prop :=
  ∃ i id c sevs recs, ({ session := Session.start cfg pr i id c } : Peer).run cfg ext pr sevs =
      some recs ∧
    obs = .connected false c :: recs.flatMap Rec.obs ∧
    p = endOf { session := Session.start cfg pr i id c } recs ∧ (∀ e ∈ sevs, G.ev e) ∧ G.run sevs

theorem LivesIn.lives {G : Good} (h : LivesIn G cfg ext pr obs p) : Lives cfg ext pr obs p := by
  obtain ⟨i, id, c, sevs, recs, h1, h2, h3, _⟩ := h
  exact ⟨i, id, c, sevs, recs, h1, h2, h3⟩

/-- An act meets the conditions. -/
def Good.allows (G : Good) (w : World) (a : Act) : Prop :=
  G.retain w.retain ∧ (∀ d q, w.inbox.get d = some q → ∀ e ∈ q, G.msg e.2) ∧
  match a with
  | .packet _ env after _ _ => G.env env ∧ G.after after
  | .normal _ env => G.env env
  | .control _ env => G.env env
  | .accept _ env _ => G.env env
  | _ => True

/-- What meets the first conditions before the act meets the second ones after it. -/
def Good.steps (G G' : Good) (a : Act) : Prop :=
  (∀ e, G.ev e → G'.ev e) ∧ (∀ l, G.run l → G'.run l) ∧
  match a with
  | .packet _ env after n p => ∀ l g, G.run l → G'.run (l ++ [(env, g, .packet after n p)])
  | .normal _ env => ∀ l g m, G.run l → G'.run (l ++ [(env, g, .normal m)])
  | .accept _ env _ => ∀ l g c, G.run l → G'.run (l ++ [(env, g, .resume c)])
  | _ => True

variable {G G' : Good}

theorem LivesIn.mono {a : Act} (hs : G.steps G' a) (h : LivesIn G cfg ext pr obs p) :
    LivesIn G' cfg ext pr obs p := by
  obtain ⟨i, id, c, sevs, recs, h1, h2, h3, h4, h5⟩ := h
  exact ⟨i, id, c, sevs, recs, h1, h2, h3, fun e he => hs.1 e (h4 e he), hs.2.1 _ h5⟩

theorem Good.steps_self (h : ∀ l, G.run l) (a : Act) : G.steps G a := by
  refine ⟨fun _ h => h, fun _ h => h, ?_⟩
  cases a <;> first | trivial | exact fun _ _ _ => h _ | exact fun _ _ _ _ => h _

/-! ## Steps of a session that is alone -/

theorem endOf_snoc (p : Peer) (l : List Rec) (r : Rec) : endOf p (l ++ [r]) = r.post := by
  induction l generalizing p with
  | nil => rfl
  | cons a l ih => exact ih _

theorem peer_run_snoc {p0 : Peer} {sevs : List (Env × Global × SessEv)} {recs : List Rec}
    (h : p0.run cfg ext pr sevs = some recs) {env : Env} {g : Global} {ev : SessEv} {q : Peer}
    {r : Res} (hs : (endOf p0 recs).step cfg ext pr env g ev = some (q, r)) :
    p0.run cfg ext pr (sevs ++ [(env, g, ev)]) =
      some (recs ++ [{ ev, env, before := g, pre := endOf p0 recs, post := q, res := r }]) := by
  induction sevs generalizing p0 recs with
  | nil =>
    simp only [Peer.run, Option.some.injEq] at h
    subst h
    have hs' : p0.step cfg ext pr env g ev = some (q, r) := hs
    simp only [List.nil_append, Peer.run, hs']
    rfl
  | cons x sevs ih =>
    obtain ⟨env', g', ev'⟩ := x
    rw [Peer.run] at h
    split at h
    · cases h
    · rename_i p' r' hst
      rw [Option.map_eq_some_iff] at h
      obtain ⟨l, h1, rfl⟩ := h
      have := ih h1 hs
      simp only [List.cons_append, Peer.run, hst, this, Option.map_some]
      rfl

theorem LivesIn.start (i : Str) (id : ClientId) (c : ConnParams) :
    LivesIn G cfg ext pr [.connected false c] { session := Session.start cfg pr i id c } :=
  ⟨i, id, c, [], [], rfl, rfl, rfl, (fun e h => by cases h), G.start⟩

theorem LivesIn.step (h : LivesIn G cfg ext pr obs p) {env : Env} {g : Global} {ev : SessEv} {q : Peer}
    {r : Res} (hs : p.step cfg ext pr env g ev = some (q, r))
    (hm : ∀ e, G.ev e → G'.ev e) (hG : G'.ev (env, g, ev))
    (hn : ∀ l, G.run l → G'.run (l ++ [(env, g, ev)])) :
    LivesIn G' cfg ext pr
      (obs ++ Rec.obs { ev, env, before := g, pre := p, post := q, res := r }) q := by
  obtain ⟨i, id, c, sevs, recs, h1, rfl, rfl, h4, h5⟩ := h
  refine ⟨i, id, c, _, _, peer_run_snoc h1 hs, ?_, ?_, ?_, hn _ h5⟩
  · simp
  · rw [endOf_snoc]
  · intro e he
    rw [List.mem_append, List.mem_singleton] at he
    rcases he with he | rfl
    · exact hm e (h4 e he)
    · exact hG

theorem LivesIn.packet {s : Session} (h : LivesIn G cfg ext pr obs { session := s }) {env : Env}
    {g : Global} (hd : s.disconnected = false) {after : Clock} {n : Nat} {pkt : InPkt} {r : Res}
    (hr : onPacket cfg ext pr env after g s n pkt = some r)
    (hm : ∀ e, G.ev e → G'.ev e) (hG : G'.retain g.retain ∧ G'.env env ∧ G'.after after)
    (hn : ∀ l g, G.run l → G'.run (l ++ [(env, g, .packet after n pkt)])) :
    LivesIn G' cfg ext pr (obs ++ (.received pkt :: (r.routed.map .routed ++ r.out.map .sent)))
      { session := r.session, online := !r.closed } := by
  have hs : ({ session := s } : Peer).step cfg ext pr env g (.packet after n pkt) =
      some ({ session := r.session, online := !r.closed }, r) := by
    simp [Peer.step, hd, hr]
  have := h.step hs hm hG (fun l => hn l g)
  simpa [Rec.obs, Rec.received, Rec.taken, hd] using this

theorem LivesIn.normal {s : Session} (h : LivesIn G cfg ext pr obs { session := s }) (env : Env)
    (g : Global) (hd : s.disconnected = false) (m : NormalMsg)
    (hm : ∀ e, G.ev e → G'.ev e) (hG : G'.retain g.retain ∧ G'.env env ∧ G'.msg m)
    (hn : ∀ l g m, G.run l → G'.run (l ++ [(env, g, .normal m)])) :
    LivesIn G' cfg ext pr (obs ++ (.took m :: (onNormal cfg pr env g s m).out.map .sent))
      { session := (onNormal cfg pr env g s m).session } := by
  have hs : ({ session := s } : Peer).step cfg ext pr env g (.normal m) =
      some ({ session := (onNormal cfg pr env g s m).session }, onNormal cfg pr env g s m) := by
    simp [Peer.step, hd]
  have := h.step hs hm hG (fun l => hn l g m)
  have hr : (onNormal cfg pr env g s m).routed = [] := (onNormal_frame ..).1
  simpa [Rec.obs, Rec.received, Rec.taken, hd, hr] using this

theorem LivesIn.offline {s : Session} (h : LivesIn G cfg ext pr obs { session := s, online := false })
    (env : Env) (m : NormalMsg) (hG : G.env env ∧ G.msg m) :
    LivesIn G cfg ext pr (obs ++ [.took m])
      { session := (handleNormalOf cfg pr (env.now 0 0) s m).1, online := false } := by
  have hs : ({ session := s, online := false } : Peer).step cfg ext pr env
      ⟨.empty, .empty, fun _ => false⟩ (.offline m) = some
      ({ session := (handleNormalOf cfg pr (env.now 0 0) s m).1, online := false },
        { session := (handleNormalOf cfg pr (env.now 0 0) s m).1
          global := ⟨.empty, .empty, fun _ => false⟩ }) := by
    simp [Peer.step]
  have := h.step hs (fun _ h => h) ⟨G.empty, hG⟩ (fun l => G.free l _ _ _ trivial)
  simpa [Rec.obs, Rec.received, Rec.taken] using this

theorem LivesIn.passed (h : LivesIn G cfg ext pr obs p) (b : FMap ClientId (List NormalMsg)) (n : Nat) :
    LivesIn G cfg ext pr obs { p with session := { p.session with bcast := b, bcastCnt := n } } := by
  have hs : p.step cfg ext pr {} ⟨.empty, .empty, fun _ => false⟩ (.passed b n) = some
      ({ p with session := { p.session with bcast := b, bcastCnt := n } },
        { session := { p.session with bcast := b, bcastCnt := n }
          global := ⟨.empty, .empty, fun _ => false⟩ }) := rfl
  have := h.step hs (fun _ h => h) ⟨G.empty, trivial⟩ (fun l => G.free l _ _ _ trivial)
  simpa [Rec.obs, Rec.received, Rec.taken] using this

theorem LivesIn.lost (h : LivesIn G cfg ext pr obs p) :
    LivesIn G cfg ext pr obs { p with online := false } := by
  have hs : p.step cfg ext pr {} ⟨.empty, .empty, fun _ => false⟩ .lost = some
      ({ p with online := false },
        { session := p.session, global := ⟨.empty, .empty, fun _ => false⟩ }) := rfl
  have := h.step hs (fun _ h => h) ⟨G.empty, trivial⟩ (fun l => G.free l _ _ _ trivial)
  simpa [Rec.obs, Rec.received, Rec.taken] using this

theorem LivesIn.resume (h : LivesIn G cfg ext pr obs p) (env : Env) (c : ConnParams)
    (hm : ∀ e, G.ev e → G'.ev e) (hG : G'.env env)
    (hn : ∀ l g c, G.run l → G'.run (l ++ [(env, g, .resume c)])) :
    LivesIn G' cfg ext pr (obs ++ (.connected true c ::
        (handlePendingsOf pr (env.clk 0) (p.session.resume cfg pr c)).2.map .sent))
      { session := (handlePendingsOf pr (env.clk 0) (p.session.resume cfg pr c)).1 } := by
  have hs : p.step cfg ext pr env ⟨.empty, .empty, fun _ => false⟩ (.resume c) = some
      ({ session := (handlePendingsOf pr (env.clk 0) (p.session.resume cfg pr c)).1 },
        { session := (handlePendingsOf pr (env.clk 0) (p.session.resume cfg pr c)).1
          global := ⟨.empty, .empty, fun _ => false⟩
          out := (handlePendingsOf pr (env.clk 0) (p.session.resume cfg pr c)).2 }) := rfl
  have := h.step hs hm ⟨G'.empty, hG⟩ (fun l => hn l _ c)
  simpa [Rec.obs, Rec.received, Rec.taken] using this

/-! ## The will does not matter after the end of a connection -/

/-- The session with another will. -/
def Session.withWill (s : Session) (v : Option Will) : Session := { s with will := v }

section
variable (s : Session) (v : Option Will)
theorem withWill_subs : (s.withWill v).subscribes = s.subscribes := rfl
theorem withWill_cd : (s.withWill v).clientDisconnected = s.clientDisconnected := rfl
theorem withWill_sd : (s.withWill v).serverDisconnected = s.serverDisconnected := rfl
theorem withWill_size : (s.withWill v).maxPacketSize = s.maxPacketSize := rfl
theorem withWill_enqueue (now : Nat) (p : PubPacket) :
    (s.withWill v).enqueue now p = (s.enqueue now p).withWill v := rfl

theorem recvV3_will (now : Nat) (topic qos retain payload filter subQos) :
    (recvPublishV3 now (s.withWill v) topic qos retain payload filter subQos).1 =
      (recvPublishV3 now s topic qos retain payload filter subQos).1.withWill v := by
  unfold recvPublishV3
  by_cases h1 : (!s.subscribes.contains filter) = true
  · rw [if_pos h1, if_pos (show (!(s.withWill v).subscribes.contains filter) = true from h1)]
  · rw [if_neg h1, if_neg (show ¬ (!(s.withWill v).subscribes.contains filter) = true from h1)]
    simp only
    by_cases h2 : min qos subQos ≠ 0
    · rw [if_pos h2, if_pos h2]; rfl
    · rw [if_neg h2, if_neg h2]
      by_cases h3 : (!s.clientDisconnected) = true
      · rw [if_pos h3, if_pos (show (!(s.withWill v).clientDisconnected) = true from h3)]
      · rw [if_neg h3, if_neg (show ¬ (!(s.withWill v).clientDisconnected) = true from h3)]

theorem deliverV5_will (now : Nat) (m : RecvPub) (props : PubProps) :
    (deliverV5 now (s.withWill v) m props).1 = (deliverV5 now s m props).1.withWill v := by
  unfold deliverV5
  simp only
  by_cases h1 : min m.qos m.subQos ≠ 0
  · rw [if_pos h1, if_pos h1]
    by_cases h2 : m.encodeLen > s.maxPacketSize
    · rw [if_pos h2, if_pos (show m.encodeLen > (s.withWill v).maxPacketSize from h2)]
    · rw [if_neg h2, if_neg (show ¬ m.encodeLen > (s.withWill v).maxPacketSize from h2)]; rfl
  · rw [if_neg h1, if_neg h1]
    by_cases h3 : (!s.clientDisconnected && !s.serverDisconnected) = true
    · rw [if_pos h3, if_pos (show (!(s.withWill v).clientDisconnected &&
        !(s.withWill v).serverDisconnected) = true from h3)]
      generalize (if m.qos > 0 then m.encodeLen - 2 else m.encodeLen) = n
      by_cases h2 : n > s.maxPacketSize
      · rw [if_pos h2, if_pos (show n > (s.withWill v).maxPacketSize from h2)]
      · rw [if_neg h2, if_neg (show ¬ n > (s.withWill v).maxPacketSize from h2)]; rfl
    · rw [if_neg h3, if_neg (show ¬ (!(s.withWill v).clientDisconnected &&
        !(s.withWill v).serverDisconnected) = true from h3)]

theorem recvV5_will (now : Nat) (m : RecvPub) :
    (recvPublishV5 now (s.withWill v) m).1 = (recvPublishV5 now s m).1.withWill v := by
  unfold recvPublishV5
  simp only [withWill_subs]
  cases m.ids with
  | precomputed ids => exact deliverV5_will ..
  | lookup filter =>
    simp only
    cases s.subscribes.get filter with
    | none => rfl
    | some sub => exact deliverV5_will ..

theorem gather_will (fs : List Str) (acc : Bool × Bool × List Nat) :
    gatherSubs (s.withWill v) fs acc = gatherSubs s fs acc := by
  induction fs generalizing acc with
  | nil => rfl
  | cons f fs ih =>
    obtain ⟨a, b, c⟩ := acc
    simp only [gatherSubs, withWill_subs]
    split
    · exact ih _
    · exact ih _

theorem normal_will (cfg : Config) (pr : Proto) (now : Nat) (m : NormalMsg) :
    (handleNormalOf cfg pr now (s.withWill v) m).1 =
      (handleNormalOf cfg pr now s m).1.withWill v := by
  cases pr
  · cases m <;> simp only [handleNormalOf, handleNormalV3]
    · exact recvV3_will ..
    · rename_i filters _ _ _
      cases filters.head? with
      | none => rfl
      | some f => exact recvV3_will ..
  · cases m <;> simp only [handleNormalOf, handleNormalV5, withWill_subs, gather_will]
    · rename_i filter _ _
      cases s.subscribes.get filter with
      | none => rfl
      | some sub => exact recvV5_will ..
    · split
      · rfl
      · exact recvV5_will ..
end

theorem drain_will (cfg : Config) (pr : Proto) (env : Env) (s : Session) (v : Option Will)
    (ms : List (TaskId × NormalMsg)) :
    drainInbox cfg pr env (s.withWill v) ms = (drainInbox cfg pr env s ms).withWill v := by
  induction ms generalizing s with
  | nil => rfl
  | cons m ms ih => simp only [drainInbox, normal_will]; exact ih _

theorem LivesIn.drain {s : Session} (h : LivesIn G cfg ext pr obs { session := s, online := false })
    (env : Env) (ms : List (TaskId × NormalMsg)) (hG : G.env env ∧ ∀ e ∈ ms, G.msg e.2) :
    LivesIn G cfg ext pr (obs ++ ms.map fun e => .took e.2)
      { session := drainInbox cfg pr env s ms, online := false } := by
  induction ms generalizing s obs with
  | nil => rw [List.map_nil, List.append_nil]; exact h
  | cons m ms ih =>
    have := ih (h.offline env m.2 ⟨hG.1, hG.2 m List.mem_cons_self⟩)
      ⟨hG.1, fun e he => hG.2 e (List.mem_cons_of_mem _ he)⟩
    simpa [drainInbox] using this

theorem pushCopies_parts (s : Session) (reg : ClientId → Bool) (cs : List (ClientId × NormalMsg)) :
    ∃ b n, s.pushCopies reg cs = { s with bcast := b, bcastCnt := n } := by
  unfold Session.pushCopies
  generalize s.bcastCnt + cs.length = k
  generalize hb : s.bcast = b0
  have : ∀ (cs : List (ClientId × NormalMsg)) (b0 : FMap ClientId (List NormalMsg)) (k : Nat),
      ∃ b n, cs.foldl (fun s c => s.pushCopy reg c.1 c.2) { s with bcast := b0, bcastCnt := k } =
        { s with bcast := b, bcastCnt := n } := by
    intro cs
    induction cs with
    | nil => exact fun b0 k => ⟨b0, k, rfl⟩
    | cons c cs ih =>
      intro b0 k
      simp only [List.foldl_cons]
      rw [Session.pushCopy.eq_def]
      simp only
      split
      · exact ih _ _
      · split
        · exact ih _ _
        · exact ih _ _
  have := this cs b0 k
  subst hb
  exact this

theorem will_parts {env : Env} {g g' : Global} {s s' : Session} {m : Option SendPub}
    (h : WillSent ext pr env g s s' g' m) :
    ∃ b n v, s' = { s with bcast := b, bcastCnt := n, will := v } := by
  cases hw : s.will with
  | none => rw [(h.kept hw).1]; exact ⟨_, _, _, rfl⟩
  | some wl =>
    obtain ⟨n, hs⟩ := h.sent wl hw
    obtain ⟨cs, rfl⟩ := sendOf_push hs
    obtain ⟨b, k, hb⟩ := pushCopies_parts { s with will := none } g.registered cs
    exact ⟨b, k, none, hb⟩

theorem pendings_start (cfg : Config) (pr : Proto) (clk : Clock) (i : Str) (id : ClientId)
    (c : ConnParams) :
    handlePendingsOf pr clk (Session.start cfg pr i id c) = (Session.start cfg pr i id c, []) := by
  have key : ∀ (exp : PubPacket → Option Nat) (n k l : Nat),
      (Pending.empty n k l).handlePendings exp clk = (Pending.empty n k l, []) := by
    intro exp n k l
    have hw : (Pending.empty n k l : Pending PubPacket).window = 0 := by
      simp [Pending.window, Pending.empty]
    have hc : (Pending.empty n k l : Pending PubPacket).cleanComplete = Pending.empty n k l := rfl
    unfold Pending.handlePendings
    simp only [hc, hw, Nat.zero_add]
    have hg : (Pending.empty n k l : Pending PubPacket).getReady (clk.ready 0) 0 = none := by
      unfold Pending.getReady
      rw [hw]; rfl
    rw [Pending.sendLoop, hg]
    rfl
  cases pr
  · simp only [handlePendingsOf, handlePendingsV3]
    rw [show (Session.start cfg .v3 i id c).sender.pending =
      Pending.empty cfg.maxInflightClient cfg.maxInMemPending cfg.inflightTimeout from rfl, key]
    rfl
  · simp only [handlePendingsOf, handlePendingsV5]
    rw [show (Session.start cfg .v5 i id c).sender.pending =
      Pending.empty c.receiveMax cfg.maxInMemPending cfg.inflightTimeout from rfl, key]
    rfl

theorem flatMap_congr' {α β : Type} {l : List α} {f g : α → List β} (h : ∀ a ∈ l, f a = g a) :
    l.flatMap f = l.flatMap g := by
  induction l with
  | nil => rfl
  | cons a l ih =>
    rw [List.flatMap_cons, List.flatMap_cons, h a List.mem_cons_self,
      ih fun b hb => h b (List.mem_cons_of_mem _ hb)]

/-! ## The invariant -/

/-- The session of the task is that of the lonely session. -/
def Fits (p : Peer) : Stage → Prop
  | .online s => p = { session := s }
  | .granted s _ => p.session.withWill s.will = s
  | .closed s => p.online = false ∧ p.session.withWill s.will = s
  | .ending s => p.online = false ∧ p.session.withWill s.will = s
  | .offline s => p.online = false ∧ p.session.withWill s.will = s
  | _ => True

/-- The connections are of this client and over, apart from that of the task `t`. -/
structure Links (w : World) (t : TaskId) (x : Task) (chain : Chain) : Prop where
  last : chain.get t = some x.req.params
  req : ∀ u c, chain.get u = some c → ∃ y, w.tasks.get u = some y ∧ y.req.params = c ∧
    y.req.identifier = x.req.identifier ∧ (u ≠ t → y.stage = .gone)

/-- The messages taken on these connections are from the inbox of this client. -/
def TookAs (chain : Chain) (evs : List Event) (id : ClientId) : Prop :=
  ∀ t d src m, Event.took t d src m ∈ evs → chain.get t ≠ none → d = id

theorem TookAs.nil (chain : Chain) (id : ClientId) : TookAs chain [] id :=
  fun _ _ _ _ h => by cases h

theorem TookAs.append {chain : Chain} {a b : List Event} {id : ClientId} (h : TookAs chain a id)
    (h' : TookAs chain b id) : TookAs chain (a ++ b) id := by
  intro t d src m hm
  rw [List.mem_append] at hm
  exact hm.elim (h t d src m) (h' t d src m)

/-- The connections are the last ones of this client identifier: nothing was seen of others since. -/
def Part (w : World) (i : Str) (chain : Chain) (evs : List Event) : Prop :=
  ∃ past, obsOf (w.under i) evs = past ++ obsOf chain evs

/-- The invariant. -/
structure LifeIn (G : Good) (cfg : Config) (ext : Ext) (w : World) (evs : List Event) : Prop where
  quiet : ∀ ev ∈ evs, ∃ x, w.tasks.get ev.task = some x ∧ x.stage.early = false
  life : ∀ t x s, w.tasks.get t = some x → x.stage.owner? = some s → ∃ chain p,
    LivesIn G cfg ext x.req.level.proto (obsOf chain evs) p ∧ Fits p x.stage ∧ Links w t x chain ∧
    TookAs chain evs s.clientId ∧ Part w x.req.identifier chain evs

theorem obsOf_append (chain : Chain) (a b : List Event) :
    obsOf chain (a ++ b) = obsOf chain a ++ obsOf chain b := List.flatMap_append

theorem obsOf_other {chain : Chain} (h : ∀ ev ∈ e, chain.get ev.task = none) :
    obsOf chain e = [] := by
  unfold obsOf
  rw [List.flatMap_eq_nil_iff]
  intro ev hev
  unfold Event.obs
  rw [h ev hev]

/-- The chain of a session that starts with this connection. -/
def Chain.one (t : TaskId) (c : ConnParams) : Chain := fun u => if t = u then some c else none

theorem one_get (t u : TaskId) (c : ConnParams) :
    (Chain.one t c).get u = if t = u then some c else none := rfl

/-- The chain with one more connection. -/
def Chain.more (chain : Chain) (t : TaskId) (c : ConnParams) : Chain :=
  fun u => if t = u then some c else chain u

theorem more_get (chain : Chain) (t u : TaskId) (c : ConnParams) :
    (chain.more t c).get u = if t = u then some c else chain.get u := rfl

theorem obsOf_same {c c' : Chain} (h : ∀ ev ∈ e, c.get ev.task = c'.get ev.task) :
    obsOf c e = obsOf c' e := by
  unfold obsOf
  refine flatMap_congr' fun ev hev => ?_
  unfold Event.obs
  rw [h ev hev]

theorem under_get {i : Str} {t : TaskId} {x : Task} (hx : w.tasks.get t = some x) :
    (w.under i).get t = if x.req.identifier = i then some x.req.params else none := by
  show ((w.tasks.get t).map (·.req)).bind _ = _
  rw [hx]
  rfl

theorem under_obs {i : Str} (h : ∀ ev ∈ evs, ∃ x y, w.tasks.get ev.task = some x ∧
    w'.tasks.get ev.task = some y ∧ y.req = x.req) :
    obsOf (w'.under i) evs = obsOf (w.under i) evs := by
  refine obsOf_same fun ev hev => ?_
  obtain ⟨x, y, hx, hy, hr⟩ := h ev hev
  rw [under_get hx, under_get hy, hr]

/-- Nothing of this event is seen. -/
def Event.hidden : Event → Prop
  | .accepted _ _ => False
  | .received _ _ => False
  | .took _ _ _ _ => False
  | .routed _ _ => False
  | .sent _ _ => False
  | _ => True

theorem obsOf_hidden (chain : Chain) (h : ∀ ev ∈ e, ev.hidden) : obsOf chain e = [] := by
  unfold obsOf
  rw [List.flatMap_eq_nil_iff]
  intro ev hev
  have := h ev hev
  unfold Event.obs
  split
  · rfl
  · cases ev <;> first | rfl | exact this.elim

/-- Two tasks with sessions have different client identifiers. -/
theorem OInv.apart (h : OInv w) {t u : TaskId} {x y : Task} {s r : Session}
    (hx : w.tasks.get t = some x) (hs : x.stage.owner? = some s) (hy : w.tasks.get u = some y)
    (hr : y.stage.owner? = some r) (hne : t ≠ u) : x.req.identifier ≠ y.req.identifier := by
  intro heq
  have h1 := h.named t s.clientId x.req.identifier (by simp [Tasks.owner, hx, hs])
    (by simp [Tasks.name, hx])
  have h2 := h.named u r.clientId y.req.identifier (by simp [Tasks.owner, hy, hr])
    (by simp [Tasks.name, hy])
  rw [heq, h2] at h1
  have hid : r.clientId = s.clientId := by simpa using h1
  refine hne (h.uniq t u s.clientId ?_ ?_)
  · rw [Tasks.client, hx, Option.bind_some]
    cases hst : x.stage <;> rw [hst] at hs <;> cases hs <;> rfl
  · rw [Tasks.client, hy, ← hid, Option.bind_some]
    cases hst : y.stage <;> rw [hst] at hr <;> cases hr <;> rfl

theorem obsOf_none (chain : Chain) : obsOf chain [] = [] := rfl

theorem one_before {t : TaskId} {c : ConnParams} (h : ∀ ev ∈ evs, ev.task ≠ t) :
    obsOf (Chain.one t c) evs = [] := by
  refine obsOf_other fun ev hev => ?_
  rw [one_get, if_neg (fun hh => h ev hev hh.symm)]

theorem LifeIn.before (h : LifeIn G cfg ext w evs) {t : TaskId} {x : Task}
    (hx : w.tasks.get t = some x) (he : x.stage.early = true) : ∀ ev ∈ evs, ev.task ≠ t := by
  intro ev hev heq
  obtain ⟨y, hy, hn⟩ := h.quiet ev hev
  rw [heq, hx] at hy
  cases hy
  rw [he] at hn
  cases hn

/-- A step of one task. -/
theorem LifeIn.own (h : LifeIn G cfg ext w evs)
    (hmono : ∀ {pr obs p}, LivesIn G cfg ext pr obs p → LivesIn G' cfg ext pr obs p)
    (ho : OInv w) {t : TaskId} {x x' : Task}
    (hsh : (∀ ev ∈ e, ev.hidden) ∨ x.stage.owner? ≠ none)
    (hx : w.tasks.get t = some x) (hw : w'.tasks = w.tasks.insert t x') (hr : x'.req = x.req)
    (he : ∀ ev ∈ e, ev.task = t) (hearly : (x'.stage.early = x.stage.early ∧ e = []) ∨
      x'.stage.early = false)
    (hg : x.stage = .gone → x'.stage = .gone ∧ e = [])
    (hl : ∀ s', x'.stage.owner? = some s' → ∃ s, x.stage.owner? = some s ∧
      s'.clientId = s.clientId ∧ (∀ d src m, Event.took t d src m ∈ e → d = s.clientId) ∧
      ∀ chain p, chain.get t = some x.req.params →
        LivesIn G cfg ext x.req.level.proto (obsOf chain evs) p → Fits p x.stage → ∃ chain' p',
          LivesIn G' cfg ext x.req.level.proto (obsOf chain' (evs ++ e)) p' ∧ Fits p' x'.stage ∧
          (chain' = chain ∨ (chain' = Chain.one t x.req.params ∧ x.stage.early = true))) :
    LifeIn G' cfg ext w' (evs ++ e) := by
  have hunder : ∀ i, obsOf (w'.under i) evs = obsOf (w.under i) evs := by
    intro i
    refine under_obs fun ev hev => ?_
    obtain ⟨y, hy, _⟩ := h.quiet ev hev
    by_cases ht : t = ev.task
    · refine ⟨x, x', by rw [← ht]; exact hx, by rw [hw, FMap.get_insert, if_pos ht], hr⟩
    · exact ⟨y, y, hy, by rw [hw, FMap.get_insert, if_neg ht]; exact hy, rfl⟩
  have hget' : w'.tasks.get t = some x' := by rw [hw, FMap.get_insert, if_pos rfl]
  constructor
  · intro ev hev
    rw [List.mem_append] at hev
    rw [hw, FMap.get_insert]
    rcases hev with hev | hev
    · obtain ⟨y, hy, hn⟩ := h.quiet ev hev
      by_cases ht : t = ev.task
      · rw [if_pos ht]
        rw [← ht, hx] at hy
        cases hy
        refine ⟨x', rfl, ?_⟩
        rcases hearly with ⟨h1, _⟩ | h1
        · rw [h1]; exact hn
        · exact h1
      · rw [if_neg ht]; exact ⟨y, hy, hn⟩
    · rw [if_pos (he ev hev).symm]
      refine ⟨x', rfl, ?_⟩
      rcases hearly with ⟨_, h1⟩ | h1
      · subst h1; cases hev
      · exact h1
  · intro u z s hz hs
    rw [hw, FMap.get_insert] at hz
    by_cases ht : t = u
    · rw [if_pos ht] at hz
      cases hz
      subst ht
      obtain ⟨s0, h0, hid, htook, hstep⟩ := hl s hs
      obtain ⟨chain, p, hlive, hfit, hlink, hta, past, hpast⟩ := h.life t x s0 hx h0
      obtain ⟨chain', p', h1, h2, h3⟩ := hstep chain p hlink.last hlive hfit
      have hnow : ∀ c, TookAs c e s.clientId := by
        intro c t' d src m hm _
        have := he _ hm
        rw [show t' = t from this] at hm
        rw [hid]; exact htook d src m hm
      have hpart : Part w' x'.req.identifier chain' (evs ++ e) := by
        unfold Part
        rw [obsOf_append, obsOf_append, hunder, hr]
        have hnew : ∀ c : Chain, c.get t = some x.req.params →
            obsOf (w'.under x.req.identifier) e = obsOf c e := by
          intro c hc
          refine obsOf_same fun ev hev => ?_
          rw [he ev hev, under_get hget', hr, if_pos rfl, hc]
        rcases h3 with rfl | ⟨rfl, hea⟩
        · exact ⟨past, by rw [hnew _ hlink.last, hpast, List.append_assoc]⟩
        · refine ⟨obsOf (w.under x.req.identifier) evs, ?_⟩
          rw [hnew (Chain.one t x.req.params) (if_pos rfl), one_before (h.before hx hea)]
          rfl
      refine ⟨chain', p', by rw [hr]; exact h1, h2, ?_, ?_, hpart⟩
      rotate_left
      · rcases h3 with rfl | ⟨rfl, hea⟩
        · rw [hid] at hnow ⊢; exact hta.append (hnow _)
        · refine TookAs.append ?_ (hnow _)
          intro t' d src m hm hc
          rw [one_get] at hc
          exfalso
          refine hc (if_neg fun hh => h.before hx hea _ hm ?_)
          exact hh.symm
      rcases h3 with rfl | ⟨rfl, hea⟩
      · constructor
        · rw [hr]; exact hlink.last
        · intro u c hu
          obtain ⟨y, hy, h5, h6, h7⟩ := hlink.req u c hu
          rw [hw, FMap.get_insert]
          by_cases htu : t = u
          · rw [if_pos htu]
            subst htu
            rw [hx] at hy
            cases hy
            exact ⟨x', rfl, by rw [hr]; exact h5, by rw [hr], fun hh => absurd rfl hh⟩
          · rw [if_neg htu]
            exact ⟨y, hy, h5, by rw [hr]; exact h6, h7⟩
      · constructor
        · rw [hr, one_get, if_pos rfl]
        · intro u c hu
          rw [one_get] at hu
          split at hu
          · rename_i htu
            subst htu
            cases hu
            rw [hw, FMap.get_insert, if_pos rfl]
            exact ⟨x', rfl, by rw [hr], rfl, fun hh => absurd rfl hh⟩
          · cases hu
    · rw [if_neg ht] at hz
      obtain ⟨chain, p, hlive, hfit, hlink, hta, past, hpast⟩ := h.life u z s hz hs
      have hno : ∀ c, chain.get t = some c → x.stage = .gone := by
        intro c hc
        obtain ⟨y, hy, _, _, h7⟩ := hlink.req t c hc
        rw [hx] at hy
        cases hy
        exact h7 ht
      have hnone : obsOf chain e = [] := by
        cases hc : chain.get t with
        | none => exact obsOf_other fun ev hev => by rw [he ev hev, hc]
        | some c => rw [(hg (hno c hc)).2]; rfl
      have hpart : Part w' z.req.identifier chain (evs ++ e) := by
        refine ⟨past, ?_⟩
        rw [obsOf_append, obsOf_append, hunder, hpast, hnone, List.append_nil]
        have : obsOf (w'.under z.req.identifier) e = [] := by
          rcases hsh with hsh | hsh
          · exact obsOf_hidden _ hsh
          · cases hown : x.stage.owner? with
            | none => exact absurd hown hsh
            | some s0 =>
              refine obsOf_other fun ev hev => ?_
              rw [he ev hev, under_get hget', hr, if_neg (ho.apart hx hown hz hs ht)]
        rw [this, List.append_nil]
      refine ⟨chain, p, ?_, hfit, ⟨hlink.last, ?_⟩, hta.append ?_, hpart⟩
      rotate_left 2
      · intro t' d src m hm hc
        rw [show t' = t from he _ hm] at hc
        cases hct : chain.get t with
        | none => exact absurd hct hc
        | some c => rw [(hg (hno c hct)).2] at hm; cases hm
      · rw [obsOf_append, hnone, List.append_nil]
        exact hmono hlive
      · intro v c hv
        obtain ⟨y, hy, h5, h6, h7⟩ := hlink.req v c hv
        rw [hw, FMap.get_insert]
        by_cases htv : t = v
        · rw [if_pos htv]
          subst htv
          rw [hx] at hy
          cases hy
          exact ⟨x', rfl, by rw [hr]; exact h5, by rw [hr]; exact h6,
            fun _ => (hg (hno c hv)).1⟩
        · rw [if_neg htv]
          exact ⟨y, hy, h5, h6, h7⟩

/-- A new task. -/
theorem LifeIn.new (h : LifeIn G cfg ext w evs)
    (hmono : ∀ {pr obs p}, LivesIn G cfg ext pr obs p → LivesIn G' cfg ext pr obs p)
    (ho' : OInv w') {t : TaskId} {x' : Task}
    (hsh : (∀ ev ∈ e, ev.hidden) ∨ x'.stage.owner? ≠ none)
    (hx : w.tasks.get t = none) (hw : w'.tasks = w.tasks.insert t x')
    (he : ∀ ev ∈ e, ev.task = t ∧ x'.stage.early = false) (hnt : ∀ id c, TookAs c e id)
    (hl : ∀ s', x'.stage.owner? = some s' → ∃ p',
      LivesIn G' cfg ext x'.req.level.proto (obsOf (Chain.one t x'.req.params) e) p' ∧
        Fits p' x'.stage) :
    LifeIn G' cfg ext w' (evs ++ e) := by
  have hbefore : ∀ ev ∈ evs, ev.task ≠ t := by
    intro ev hev heq
    obtain ⟨y, hy, _⟩ := h.quiet ev hev
    rw [heq, hx] at hy
    cases hy
  have hunder : ∀ i, obsOf (w'.under i) evs = obsOf (w.under i) evs := by
    intro i
    refine under_obs fun ev hev => ?_
    obtain ⟨y, hy, _⟩ := h.quiet ev hev
    exact ⟨y, y, hy, by
      rw [hw, FMap.get_insert, if_neg (fun hh => hbefore ev hev hh.symm)]; exact hy, rfl⟩
  have hget' : w'.tasks.get t = some x' := by rw [hw, FMap.get_insert, if_pos rfl]
  constructor
  · intro ev hev
    rw [List.mem_append] at hev
    rw [hw, FMap.get_insert]
    rcases hev with hev | hev
    · rw [if_neg (fun hh => hbefore ev hev hh.symm)]
      exact h.quiet ev hev
    · rw [if_pos (he ev hev).1.symm]
      exact ⟨x', rfl, (he ev hev).2⟩
  · intro u z s hz hs
    rw [hw, FMap.get_insert] at hz
    by_cases ht : t = u
    · rw [if_pos ht] at hz
      cases hz
      subst ht
      obtain ⟨p', h1, h2⟩ := hl s hs
      have hpart : Part w' x'.req.identifier (Chain.one t x'.req.params) (evs ++ e) := by
        refine ⟨obsOf (w.under x'.req.identifier) evs, ?_⟩
        rw [obsOf_append, obsOf_append, hunder, one_before hbefore, List.nil_append]
        congr 1
        refine obsOf_same fun ev hev => ?_
        rw [(he ev hev).1, under_get hget', if_pos rfl, one_get, if_pos rfl]
      refine ⟨Chain.one t x'.req.params, p', ?_, h2, ⟨by rw [one_get, if_pos rfl], ?_⟩,
        TookAs.append ?_ (hnt _ _), hpart⟩
      rotate_left 2
      · intro t' d src m hm hc
        rw [one_get] at hc
        exact absurd (if_neg fun hh => hbefore _ hm hh.symm) hc
      · rw [obsOf_append, one_before hbefore]; exact h1
      · intro u c hu
        rw [one_get] at hu
        split at hu
        · rename_i htu
          subst htu
          cases hu
          rw [hw, FMap.get_insert, if_pos rfl]
          exact ⟨x', rfl, rfl, rfl, fun hh => absurd rfl hh⟩
        · cases hu
    · rw [if_neg ht] at hz
      obtain ⟨chain, p, hlive, hfit, hlink, hta, past, hpast⟩ := h.life u z s hz hs
      have hnone : obsOf chain e = [] := by
        refine obsOf_other fun ev hev => ?_
        rw [(he ev hev).1]
        cases hc : chain.get t with
        | none => rfl
        | some c =>
          obtain ⟨y, hy, _⟩ := hlink.req t c hc
          rw [hx] at hy
          cases hy
      have hpart : Part w' z.req.identifier chain (evs ++ e) := by
        refine ⟨past, ?_⟩
        rw [obsOf_append, obsOf_append, hunder, hpast, hnone, List.append_nil]
        have : obsOf (w'.under z.req.identifier) e = [] := by
          rcases hsh with hsh | hsh
          · exact obsOf_hidden _ hsh
          · cases hown : x'.stage.owner? with
            | none => exact absurd hown hsh
            | some s0 =>
              refine obsOf_other fun ev hev => ?_
              rw [(he ev hev).1, under_get hget',
                if_neg (ho'.apart hget' hown (by rw [hw, FMap.get_insert, if_neg ht]; exact hz) hs ht)]
        rw [this, List.append_nil]
      refine ⟨chain, p, ?_, hfit, ⟨hlink.last, ?_⟩, hta.append (hnt _ _), hpart⟩
      · rw [obsOf_append, hnone, List.append_nil]
        exact hmono hlive
      · intro v c hv
        obtain ⟨y, hy, h5, h6, h7⟩ := hlink.req v c hv
        rw [hw, FMap.get_insert]
        by_cases htv : t = v
        · subst htv
          rw [hx] at hy
          cases hy
        · rw [if_neg htv]
          exact ⟨y, hy, h5, h6, h7⟩

/-- Nothing happens to any task. -/
theorem LifeIn.same (h : LifeIn G cfg ext w evs)
    (hmono : ∀ {pr obs p}, LivesIn G cfg ext pr obs p → LivesIn G' cfg ext pr obs p)
    (hw : w'.tasks = w.tasks) :
    LifeIn G' cfg ext w' (evs ++ []) := by
  rw [List.append_nil]
  constructor
  · rw [hw]; exact h.quiet
  · intro t x s hx hs
    rw [hw] at hx
    obtain ⟨chain, p, h1, h2, h3, h4, past, h5⟩ := h.life t x s hx hs
    refine ⟨chain, p, hmono h1, h2, ⟨h3.last, by rw [hw]; exact h3.req⟩, h4, past, ?_⟩
    rw [← h5]
    unfold World.under World.request
    rw [hw]

/-- The session goes to another task. -/
theorem LifeIn.hand (h : LifeIn G cfg ext w evs)
    (hmono : ∀ {pr obs p}, LivesIn G cfg ext pr obs p → LivesIn G' cfg ext pr obs p)
    (ho : OInv w) {t b : TaskId} {x y x' : Task} {s old : Session}
    {level : Level}
    (hx : w.tasks.get t = some x) (hs : x.stage.owner? = some s) (hne : x.stage.early = false)
    (hx' : x'.req = x.req) (hg : x'.stage = .gone)
    (hy : w.tasks.get b = some y) (hb : y.stage.early = true) (hyo : y.stage.owner? = none)
    (hpr : y.req.level.proto = x.req.level.proto) (hid : y.req.identifier = x.req.identifier)
    (hw : w'.tasks = (w.tasks.insert t x').insert b { y with stage := .granted old level })
    (he : ∀ ev ∈ e, ev.task = t) (hcl : old.clientId = s.clientId)
    (htook : ∀ d src m, Event.took t d src m ∈ e → d = s.clientId)
    (hl : ∀ chain p, chain.get t = some x.req.params →
        LivesIn G cfg ext x.req.level.proto (obsOf chain evs) p → Fits p x.stage → ∃ p',
          LivesIn G' cfg ext x.req.level.proto (obsOf chain evs ++ obsOf chain e) p' ∧
          p'.session.withWill old.will = old) :
    LifeIn G' cfg ext w' (evs ++ e) := by
  have hbt : b ≠ t := by
    rintro rfl
    rw [hx] at hy
    cases hy
    rw [hs] at hyo
    cases hyo
  have hbefore := h.before hy hb
  have hget : ∀ u, w'.tasks.get u = if b = u then some { y with stage := .granted old level }
      else if t = u then some x' else w.tasks.get u := by
    intro u
    rw [hw, FMap.get_insert, FMap.get_insert]
  have hnewb : ∀ (chain : Chain) c l, (∀ ev ∈ l, ev.task ≠ b) →
      obsOf (chain.more b c) l = obsOf chain l := by
    intro chain c l hb'
    refine obsOf_same fun ev hev => ?_
    rw [more_get, if_neg (fun hh => hb' ev hev hh.symm)]
  have hunder : ∀ i, obsOf (w'.under i) evs = obsOf (w.under i) evs := by
    intro i
    refine under_obs fun ev hev => ?_
    obtain ⟨q, hq, _⟩ := h.quiet ev hev
    by_cases ht : t = ev.task
    · exact ⟨x, x', by rw [← ht]; exact hx,
        by rw [hget, if_neg (fun hh => hbefore ev hev hh.symm), if_pos ht], hx'⟩
    · exact ⟨q, q, hq,
        by rw [hget, if_neg (fun hh => hbefore ev hev hh.symm), if_neg ht]; exact hq, rfl⟩
  have hget' : w'.tasks.get t = some x' := by rw [hget, if_neg hbt, if_pos rfl]
  constructor
  · intro ev hev
    rw [hget]
    rw [List.mem_append] at hev
    rcases hev with hev | hev
    · rw [if_neg (fun hh => hbefore ev hev hh.symm)]
      split
      · exact ⟨x', rfl, by rw [hg]; rfl⟩
      · exact h.quiet ev hev
    · rw [he ev hev, if_neg hbt, if_pos rfl]
      exact ⟨x', rfl, by rw [hg]; rfl⟩
  · intro u z s1 hz hs1
    rw [hget] at hz
    split at hz
    · rename_i hbu
      subst hbu
      cases hz
      obtain ⟨chain, p, hlive, hfit, hlink, hta, past, hpast⟩ := h.life t x s hx hs
      obtain ⟨p', h1, h2⟩ := hl chain p hlink.last hlive hfit
      have hs1' : s1 = old := by cases hs1; rfl
      subst hs1'
      have hpart : Part w' y.req.identifier (chain.more b y.req.params) (evs ++ e) := by
        refine ⟨past, ?_⟩
        rw [obsOf_append, obsOf_append, hunder, hid, hpast, hnewb _ _ _ hbefore,
          hnewb _ _ _ (fun ev hev => by rw [he ev hev]; exact fun hh => hbt hh.symm),
          List.append_assoc]
        congr 2
        refine obsOf_same fun ev hev => ?_
        rw [he ev hev, under_get hget', hx', if_pos rfl, hlink.last]
      refine ⟨chain.more b y.req.params, p', ?_, h2, ⟨?_, ?_⟩, TookAs.append ?_ ?_, hpart⟩
      rotate_left 3
      · intro t' d src m hm hc
        rw [more_get, if_neg (fun hh => hbefore _ hm hh.symm)] at hc
        rw [hcl]; exact hta t' d src m hm hc
      · intro t' d src m hm hc
        rw [show t' = t from he _ hm] at hm
        rw [hcl]; exact htook d src m hm
      · simp only [hpr]
        rw [obsOf_append, hnewb _ _ _ hbefore, hnewb _ _ _ (fun ev hev => by
          rw [he ev hev]; exact fun hh => hbt hh.symm)]
        exact h1
      · rw [more_get, if_pos rfl]
      · intro v c hv
        rw [more_get] at hv
        rw [hget]
        split at hv
        · rename_i hbv
          cases hv
          rw [if_pos hbv]
          exact ⟨_, rfl, rfl, rfl, fun hh => absurd hbv.symm hh⟩
        · rename_i hbv
          rw [if_neg hbv]
          obtain ⟨q, hq, h5, h6, h7⟩ := hlink.req v c hv
          split
          · rename_i htv
            subst htv
            rw [hx] at hq
            cases hq
            exact ⟨x', rfl, by rw [hx']; exact h5, by rw [hx', hid], fun _ => hg⟩
          · rename_i htv
            exact ⟨q, hq, h5, by rw [h6, hid], fun _ => h7 (fun hh => htv hh.symm)⟩
    · rename_i hbu
      split at hz
      · cases hz
        rw [hg] at hs1
        cases hs1
      · rename_i htu
        obtain ⟨chain, p, hlive, hfit, hlink, hta, past, hpast⟩ := h.life u z s1 hz hs1
        have hno : ∀ v y', w.tasks.get v = some y' → y'.stage ≠ .gone → v ≠ u →
            chain.get v = none := by
          intro v y' hv hng hvu
          cases hc : chain.get v with
          | none => rfl
          | some c =>
            obtain ⟨q, hq, _, _, h7⟩ := hlink.req v c hc
            rw [hv] at hq
            cases hq
            exact absurd (h7 hvu) hng
        have ht0 := hno t x hx (by intro hh; rw [hh] at hs; cases hs) htu
        have hb0 := hno b y hy (by intro hh; rw [hh] at hb; cases hb) hbu
        have hpart : Part w' z.req.identifier chain (evs ++ e) := by
          refine ⟨past, ?_⟩
          rw [obsOf_append, obsOf_append, hunder, hpast,
            obsOf_other (e := e) (chain := chain) (fun ev hev => by rw [he ev hev, ht0]),
            obsOf_other (e := e) (chain := w'.under z.req.identifier) (fun ev hev => by
              rw [he ev hev, under_get hget', hx', if_neg (ho.apart hx hs hz hs1 htu)]),
            List.append_nil, List.append_nil]
        refine ⟨chain, p, ?_, hfit, ⟨hlink.last, ?_⟩, hta.append ?_, hpart⟩
        rotate_left 2
        · intro t' d src m hm hc
          rw [show t' = t from he _ hm] at hc
          exact absurd ht0 hc
        · rw [obsOf_append, obsOf_other (e := e) (fun ev hev => by rw [he ev hev, ht0]), List.append_nil]
          exact hmono hlive
        · intro v c hv
          obtain ⟨q, hq, h5, h6, h7⟩ := hlink.req v c hv
          rw [hget]
          rw [if_neg (by rintro rfl; rw [hb0] at hv; cases hv),
            if_neg (by rintro rfl; rw [ht0] at hv; cases hv)]
          exact ⟨q, hq, h5, h6, h7⟩

theorem will_obs {chain : Chain} {t : TaskId} {s s' : Session} {m : Option SendPub} :
    obsOf chain (willEvents t s s' m) = [] := by
  cases m with
  | none => rfl
  | some m =>
    simp only [willEvents, obsOf, List.flatMap_cons, List.flatMap_nil, Event.obs]
    cases chain.get t <;> simp [Event.task] <;> split <;> rfl

theorem will_task {t : TaskId} {s s' : Session} {m : Option SendPub} :
    ∀ ev ∈ willEvents t s s' m, ev.task = t := by
  cases m with
  | none => intro ev h; cases h
  | some m =>
    intro ev h
    simp only [willEvents, List.mem_cons, List.not_mem_nil, or_false] at h
    rcases h with rfl | rfl <;> rfl

theorem will_took {t u : TaskId} {s s' : Session} {m : Option SendPub} {d : ClientId}
    {src : TaskId} {n : NormalMsg} (h : Event.took u d src n ∈ willEvents t s s' m) : False := by
  cases m <;> simp [willEvents] at h

theorem Fits.sending {p : Peer} {st : Stage} {s : Session} (h : Fits p st)
    (hs : st.sending? = some s) (ho : st.owner? = some s) (b : FMap ClientId (List NormalMsg))
    (n : Nat) :
    Fits { p with session := { p.session with bcast := b, bcastCnt := n } }
      (st.setSession { s with bcast := b, bcastCnt := n }) := by
  cases st <;> cases hs <;> cases ho
  · cases h; rfl
  all_goals
    obtain ⟨h1, h2⟩ := h
    refine ⟨h1, ?_⟩
    rw [← h2]
    rfl

theorem setSession_early {st : Stage} {s s' : Session} (h : st.sending? = some s) :
    (st.setSession s').early = false := by
  cases st <;> first | rfl | cases h

theorem setSession_owner {st : Stage} {s s1 s' : Session} (h : st.sending? = some s)
    (h' : (st.setSession s1).owner? = some s') : st.owner? = some s := by
  cases st <;> first | (cases h'; done) | exact h | (cases h; done)

theorem waiting_stage {st : Stage} {id : ClientId} (h : st.waiting? = some id) :
    st = .waiting id := by
  cases st <;> cases h
  rfl

theorem LifeIn.sending (h : LifeIn G cfg ext w evs)
    (hmono : ∀ {pr obs p}, LivesIn G cfg ext pr obs p → LivesIn G' cfg ext pr obs p)
    (ho : OInv w) {t : TaskId} {x x' : Task} {s : Session}
    (hx : w.tasks.get t = some x) (hs : x.stage.sending? = some s)
    (b : FMap ClientId (List NormalMsg)) (n : Nat)
    (hw : w'.tasks = w.tasks.insert t
      { x' with stage := x.stage.setSession { s with bcast := b, bcastCnt := n } })
    (hr : x'.req = x.req) : LifeIn G' cfg ext w' (evs ++ []) := by
  refine h.own hmono ho (.inl fun ev hev => by cases hev) hx hw hr (fun ev hev => by cases hev) (.inr ?_) ?_ ?_
  · exact setSession_early hs
  · intro hh; rw [hh] at hs; cases hs
  · intro s' hs'
    have ho : x.stage.owner? = some s := setSession_owner hs hs'
    refine ⟨s, ho, ?_, (fun d src m hm => by cases hm),
      fun chain p hc hlive hfit => ⟨chain, _, ?_, hfit.sending hs ho b n, .inl rfl⟩⟩
    rotate_left
    · rw [List.append_nil]
      exact hmono (hlive.passed b n)
    · revert hs hs'
      cases x.stage <;> intro hs hs' <;> cases hs <;> cases hs' <;> rfl

theorem LifeIn.case {a : Act} (h : LifeIn G cfg ext w evs) (ho : OInv w) (ho' : OInv w')
    (hc : WCase cfg ext w a w' e) (hG : G'.allows w a) (hstp : G.steps G' a) :
    LifeIn G' cfg ext w' (evs ++ e) := by
  have hmono : ∀ {pr obs p}, LivesIn G cfg ext pr obs p → LivesIn G' cfg ext pr obs p :=
    fun h => h.mono hstp
  have hnew : w.tasks.get w.nextTask = none := by
    cases hn : w.tasks.get w.nextTask with
    | none => rfl
    | some x =>
      exact absurd (ho.fresh w.nextTask (by simp [Tasks.name, hn])) (Nat.lt_irrefl _)
  cases hc with
  | idle a => exact h.same hmono rfl
  | fresh req env r id hadd hw s out hs =>
    rw [pendings_start] at hs
    cases hs
    refine h.new hmono ho' (.inr (by simp [Stage.owner?])) hnew rfl ?_ (fun _ _ _ _ _ _ hm => by simp at hm) ?_
    · intro ev hev
      simp only [List.mem_cons, List.not_mem_nil, or_false] at hev
      rcases hev with rfl | rfl <;> exact ⟨rfl, rfl⟩
    · intro s' _
      refine ⟨_, ?_, rfl⟩
      simp only [obsOf, List.flatMap_cons, List.flatMap_nil, Event.obs, Event.task, one_get, if_true,
        List.map_nil, List.append_nil]
      exact LivesIn.start ..
  | stillborn req env wr r id hadd =>
    exact h.new hmono ho' (.inl fun ev hev => by cases hev) hnew rfl (fun ev hev => by cases hev) (fun _ _ => TookAs.nil _ _) (fun s' hs' => by cases hs')
  | wait req env wr r id q hadd hq =>
    exact h.new hmono ho' (.inl fun ev hev => by cases hev) hnew rfl (fun ev hev => by cases hev) (fun _ _ => TookAs.nil _ _) (fun s' hs' => by cases hs')
  | locked req env wr r id hadd hq =>
    exact h.new hmono ho' (.inl fun ev hev => by cases hev) hnew rfl (fun ev hev => by cases hev) (fun _ _ => TookAs.nil _ _) (fun s' hs' => by cases hs')
  | accept t env x old level hx hst hw s0 present h0 s out hs =>
    refine h.own hmono ho (.inr (by rw [hst]; simp [Stage.owner?])) hx rfl rfl ?_ (.inr rfl) (by rw [hst]; exact fun hh => by cases hh) ?_
    · intro ev hev
      cases present <;>
      · simp at hev
        rcases hev with rfl | rfl | rfl <;> rfl
    · intro s' hs'
      refine ⟨old, by rw [hst]; rfl, (by
        cases hs'
        have h2 := session_client cfg x.req old level
        rw [h0] at h2
        exact (sameId_pendings hs).client.trans h2),
      (fun d src m hm => by cases present <;> simp at hm),
      fun chain p hc hlive hfit => ?_⟩
      have hb := h.before hx (by rw [hst]; rfl)
      unfold Request.session at h0
      split at h0
      · cases h0
        rw [hst] at hfit
        have hfit' : p.session.withWill old.will = old := hfit
        have hres : p.session.resume cfg x.req.level.proto x.req.params =
            old.resume cfg x.req.level.proto x.req.params := by
          rw [← hfit']; rfl
        have := hlive.resume env x.req.params hstp.1 hG.2.2 hstp.2.2
        rw [hres, hs] at this
        refine ⟨chain, _, ?_, rfl, .inl rfl⟩
        rw [obsOf_append]
        simpa [obsOf, Event.obs, Event.task, hc] using this
      · cases h0
        rw [pendings_start] at hs
        cases hs
        refine ⟨Chain.one t x.req.params, _, ?_, rfl, .inr ⟨rfl, by rw [hst]; rfl⟩⟩
        rw [obsOf_append, one_before hb]
        simp [obsOf, Event.obs, Event.task, one_get]
        exact LivesIn.start ..
  | refused t env wr x old level hx hst =>
    exact h.own hmono ho (.inr (by rw [hst]; simp [Stage.owner?])) hx rfl rfl (fun ev hev => by
        rw [List.mem_singleton] at hev; subst hev; rfl) (.inr rfl)
      (by rw [hst]; exact fun hh => by cases hh) (fun s' hs' => by cases hs')
  | packet t env after size p x s hx hst hd r hr =>
    refine h.own hmono ho (.inr (by rw [hst]; simp [Stage.owner?])) hx rfl rfl ?_ (.inr (by simp only; split <;> rfl))
      (by rw [hst]; exact fun hh => by cases hh) ?_
    · intro ev hev
      simp only [List.mem_cons, List.not_mem_nil, or_false] at hev
      rcases hev with rfl | rfl | rfl | rfl <;> rfl
    · intro s' hs'
      refine ⟨s, by rw [hst]; rfl, (by
        have h2 := (ends_onPacket hr).1.client
        revert hs'
        simp only
        split <;> (intro hs'; cases hs'; exact h2)),
      (fun d src m hm => by simp at hm),
      fun chain q hc hlive hfit => ?_⟩
      rw [hst] at hfit
      cases hfit
      have := hlive.packet hd hr hstp.1 ⟨hG.1, hG.2.2⟩ hstp.2.2
      refine ⟨chain, { session := r.session, online := !r.closed }, ?_, ?_, .inl rfl⟩
      · rw [obsOf_append]
        simpa [obsOf, Event.obs, Event.task, hc] using this
      · simp only
        split
        · rename_i hcl; rw [hcl]; exact ⟨rfl, rfl⟩
        · rename_i hcl
          rw [show r.closed = false by simpa using hcl]
          rfl
  | normalOn t env x s hx hst hd src m rest hi =>
    refine h.own hmono ho (.inr (by rw [hst]; simp [Stage.owner?])) hx rfl rfl ?_ (.inr rfl) (by rw [hst]; exact fun hh => by cases hh) ?_
    · intro ev hev
      simp only [List.mem_cons, List.not_mem_nil, or_false] at hev
      rcases hev with rfl | rfl <;> rfl
    · intro s' hs'
      refine ⟨s, by rw [hst]; rfl, (by cases hs'; exact sameEnd_onNormal.1.client),
      (fun d src' m' hm => by simp at hm; exact hm.1),
      fun chain q hc hlive hfit => ?_⟩
      rw [hst] at hfit
      cases hfit
      refine ⟨chain, _, ?_, rfl, .inl rfl⟩
      rw [obsOf_append]
      have := hlive.normal env w.global hd m hstp.1 ⟨hG.1, hG.2.2, hG.2.1 _ _ hi _ List.mem_cons_self⟩
        hstp.2.2
      simpa [obsOf, Event.obs, Event.task, hc] using this
  | normalOff t env x s hx hst hd src m rest hi =>
    refine h.own hmono ho (.inr (by rw [hst]; simp [Stage.owner?])) hx rfl rfl ?_ (.inr rfl) (by rw [hst]; exact fun hh => by cases hh) ?_
    · intro ev hev
      rw [List.mem_singleton] at hev
      subst hev; rfl
    · intro s' hs'
      refine ⟨s, by rw [hst]; rfl, (by cases hs'; exact sameEnd_normal.1.client),
      (fun d src' m' hm => by simp at hm; exact hm.1),
      fun chain q hc hlive hfit => ?_⟩
      rw [hst] at hfit
      obtain ⟨q, on⟩ := q
      obtain ⟨rfl, hfit⟩ := hfit
      refine ⟨chain, { session := (handleNormalOf cfg x.req.level.proto (env.now 0 0) q m).1
                       online := false }, ?_, ?_, .inl rfl⟩
      · rw [obsOf_append]
        have := (hmono hlive).offline env m ⟨hG.2.2, hG.2.1 _ _ hi _ List.mem_cons_self⟩
        simpa [obsOf, Event.obs, Event.task, hc] using this
      · refine ⟨rfl, ?_⟩
        have hwl := fun v => normal_will q v cfg x.req.level.proto (env.now 0 0) m
        have h2 := hwl s.will
        rw [show q.withWill s.will = s from hfit] at h2
        rw [h2]
        rfl
  | handOn t env x s hx hst b y q hq hy =>
    have hqb := ho.queue _ _ _ b hq List.mem_cons_self
    obtain ⟨h1, h2⟩ := hqb
    have hst' : y.stage = .waiting s.clientId := by
      refine waiting_stage ?_
      simpa [Tasks.waiting, hy] using h1
    have hid : y.req.identifier = x.req.identifier := by
      have := ho.wait b s.clientId t h1 (by simp [Tasks.client, hx, hst, Stage.session?])
      simpa [Tasks.name, hx, hy] using this
    refine h.hand hmono ho (s := s) (x' := { x with stage := .gone, sinks := [] }) hx (by rw [hst]; rfl) (by rw [hst]; rfl) (by rfl) (by rfl) hy
      (by rw [hst']; rfl) (by rw [hst']; rfl) (by simpa [Tasks.proto, hy] using h2) hid (by rfl) ?_ (by rfl)
      (fun d src m hm => by simp at hm) ?_
    · intro ev hev
      rw [List.mem_singleton] at hev
      subst hev; rfl
    · intro chain p hc hlive hfit
      rw [hst] at hfit
      cases hfit
      refine ⟨{ session := s }, ?_, rfl⟩
      simpa [obsOf, Event.obs, Event.task, hc] using hmono hlive
  | handOff t env x s hx hst hd b y q hq hy msgs inbox hm =>
    have hqb := ho.queue _ _ _ b hq List.mem_cons_self
    obtain ⟨h1, h2⟩ := hqb
    have hst' : y.stage = .waiting s.clientId := by
      refine waiting_stage ?_
      simpa [Tasks.waiting, hy] using h1
    have hid : y.req.identifier = x.req.identifier := by
      have := ho.wait b s.clientId t h1 (by simp [Tasks.client, hx, hst, Stage.session?])
      simpa [Tasks.name, hx, hy] using this
    refine h.hand hmono ho (s := s) (x' := { x with stage := .gone, sinks := [] }) hx (by rw [hst]; rfl) (by rw [hst]; rfl) (by rfl) (by rfl) hy
      (by rw [hst']; rfl) (by rw [hst']; rfl) (by simpa [Tasks.proto, hy] using h2) hid (by rfl) ?_
      (SameEnd.of_core (core_drain s msgs)).1.client (fun d src m hm => by
        simp at hm; obtain ⟨_, _, _, h3, _⟩ := hm; exact h3.symm) ?_
    · intro ev hev
      rw [List.mem_append, List.mem_map, List.mem_singleton] at hev
      rcases hev with ⟨_, _, rfl⟩ | rfl <;> rfl
    · intro chain p hc hlive hfit
      rw [hst] at hfit
      obtain ⟨p, on⟩ := p
      obtain ⟨rfl, hfit⟩ := hfit
      refine ⟨{ session := drainInbox cfg x.req.level.proto env p msgs, online := false }, ?_, ?_⟩
      · have hmsgs : ∀ e ∈ msgs, G'.msg e.2 := by
          rcases hm with ⟨_, rfl, _⟩ | ⟨_, rfl, _⟩
          · intro e he
            cases hi : w.inbox.get s.clientId with
            | none => rw [hi] at he; cases he
            | some l => rw [hi] at he; exact hG.2.1 _ _ hi _ he
          · intro e he; cases he
        have := (hmono hlive).drain env msgs ⟨hG.2.2, hmsgs⟩
        have hobs : obsOf chain (msgs.map (fun e => Event.took t s.clientId e.1 e.2) ++
            [.dropped t (x.held s)]) = msgs.map fun e => .took e.2 := by
          rw [obsOf_append]
          have h3 : obsOf chain [Event.dropped t (x.held s)] = [] := by
            simp [obsOf, Event.obs, Event.task, hc]
          rw [h3, List.append_nil]
          clear hm this ho' hmsgs
          induction msgs with
          | nil => rfl
          | cons e l ih =>
            rw [List.map_cons, List.map_cons, ← ih]
            simp [obsOf, Event.obs, Event.task, hc]
        rw [hobs]
        exact this
      · have h3 := drain_will cfg x.req.level.proto env p s.will msgs
        rw [show p.withWill s.will = s from hfit] at h3
        rw [h3]
        rfl
  | deny t env x s hx hst pr b y q hq hpr hy =>
    exact h.own hmono ho (.inl fun ev hev => by cases hev) hy rfl rfl (fun ev hev => by cases hev) (.inr rfl) (fun _ => ⟨rfl, rfl⟩)
      (fun s' hs' => by cases hs')
  | ignored t env x s hx hst c q hq hc => exact h.same hmono rfl
  | kicked t env x s hx hst q hq =>
    refine h.own hmono ho (.inl fun ev hev => by cases hev) hx rfl rfl (fun ev hev => by cases hev) (.inr rfl)
      (by rw [hst]; exact fun hh => by cases hh) ?_
    intro s' hs'
    refine ⟨s, by rw [hst]; rfl, (by cases hs'; rfl),
      (fun d src m hm => by cases hm),
      fun chain p hc hlive hfit => ?_⟩
    rw [hst] at hfit
    cases hfit
    exact ⟨chain, _, by rw [List.append_nil]; exact (hmono hlive).lost, ⟨rfl, rfl⟩, .inl rfl⟩
  | expire t env x s hx hst hd time q hq hpr ht s' g m hw r route hrem =>
    refine h.own hmono ho (.inr (by rw [hst]; simp [Stage.owner?])) hx rfl rfl ?_ (.inr rfl) (by rw [hst]; exact fun hh => by cases hh)
      (fun s' hs' => by cases hs')
    intro ev hev
    rw [List.mem_append, List.mem_singleton] at hev
    rcases hev with hev | rfl
    · exact will_task _ hev
    · rfl
  | lateWill t env x s hx hst hd time q hq hpr ht s' g m hw =>
    refine h.own hmono ho (.inr (by rw [hst]; simp [Stage.owner?])) hx rfl rfl will_task (.inr rfl) (by rw [hst]; exact fun hh => by cases hh) ?_
    intro s1 hs'
    refine ⟨s, by rw [hst]; rfl, (by cases hs'; obtain ⟨b, n, v, rfl⟩ := will_parts hw; rfl),
      (fun d src m hm => (will_took hm).elim),
      fun chain p hc hlive hfit => ?_⟩
    rw [hst] at hfit
    obtain ⟨b, n, v, rfl⟩ := will_parts hw
    obtain ⟨h1, h2⟩ := hfit
    refine ⟨chain, { p with session := { p.session with bcast := b, bcastCnt := n } },
      by rw [obsOf_append, will_obs, List.append_nil]; exact (hmono hlive).passed b n,
      ⟨h1, ?_⟩, .inl rfl⟩
    rw [← h2]; rfl
  | lose t x s hx hst =>
    refine h.own hmono ho (.inl fun ev hev => by cases hev) hx rfl rfl (fun ev hev => by cases hev) (.inr rfl)
      (by rw [hst]; exact fun hh => by cases hh) ?_
    intro s' hs'
    refine ⟨s, by rw [hst]; rfl, (by cases hs'; rfl),
      (fun d src m hm => by cases hm),
      fun chain p hc hlive hfit => ?_⟩
    rw [hst] at hfit
    cases hfit
    exact ⟨chain, _, by rw [List.append_nil]; exact (hmono hlive).lost, ⟨rfl, rfl⟩, .inl rfl⟩
  | closeQuiet t env lost x s hx hst hd =>
    refine h.own hmono ho (.inr (by rw [hst]; simp [Stage.owner?])) hx rfl rfl (fun ev hev => by rw [List.mem_singleton] at hev; subst hev; rfl)
      (.inr rfl) (by rw [hst]; exact fun hh => by cases hh) ?_
    intro s' hs'
    refine ⟨s, by rw [hst]; rfl, (by cases hs'; rfl),
      (fun d src m hm => by simp at hm),
      fun chain p hc hlive hfit => ?_⟩
    rw [hst] at hfit
    refine ⟨chain, p, ?_, hfit, .inl rfl⟩
    rw [obsOf_append]
    simpa [obsOf, Event.obs, Event.task, hc] using hmono hlive
  | closeWill t env lost x s hx hst hd hp s' g m hw =>
    refine h.own hmono ho (.inr (by rw [hst]; simp [Stage.owner?])) hx rfl rfl ?_ (.inr rfl) (by rw [hst]; exact fun hh => by cases hh) ?_
    · intro ev hev
      rw [List.mem_cons] at hev
      rcases hev with rfl | hev
      · rfl
      · exact will_task _ hev
    · intro s1 hs'
      refine ⟨s, by rw [hst]; rfl, (by cases hs'; obtain ⟨b, n, v, rfl⟩ := will_parts hw; rfl),
      (fun d src m hm => by
        rw [List.mem_cons] at hm
        exact hm.elim (fun hh => by cases hh) (fun hh => (will_took hh).elim)),
      fun chain p hc hlive hfit => ?_⟩
      rw [hst] at hfit
      obtain ⟨b, n, v, rfl⟩ := will_parts hw
      obtain ⟨h1, h2⟩ := hfit
      refine ⟨chain, { p with session := { p.session with bcast := b, bcastCnt := n } }, ?_,
        ⟨h1, ?_⟩, .inl rfl⟩
      · rw [obsOf_append, ← List.singleton_append, obsOf_append, will_obs]
        simpa [obsOf, Event.obs, Event.task, hc] using (hmono hlive).passed b n
      · rw [← h2]; rfl
  | closeDelayed t env lost x s hx hst hd hp =>
    refine h.own hmono ho (.inr (by rw [hst]; simp [Stage.owner?])) hx rfl rfl (fun ev hev => by rw [List.mem_singleton] at hev; subst hev; rfl)
      (.inr rfl) (by rw [hst]; exact fun hh => by cases hh) ?_
    intro s' hs'
    refine ⟨s, by rw [hst]; rfl, (by cases hs'; rfl),
      (fun d src m hm => by simp at hm),
      fun chain p hc hlive hfit => ?_⟩
    rw [hst] at hfit
    refine ⟨chain, p, ?_, hfit, .inl rfl⟩
    rw [obsOf_append]
    simpa [obsOf, Event.obs, Event.task, hc] using hmono hlive
  | push t d x s hx hst m rest hq hk =>
    exact h.sending hmono ho (x' := { x with sinks := x.sinks.insert d m }) hx hst _ _ rfl rfl
  | flush t d x hx m q hk hi hl =>
    refine h.own hmono ho (.inl fun ev hev => by cases hev) hx rfl rfl (fun ev hev => by cases hev) (.inl ⟨rfl, rfl⟩)
      (fun hh => ⟨hh, rfl⟩) ?_
    intro s' hs'
    exact ⟨s', hs', rfl, (fun d src m hm => by cases hm), fun chain p hc hlive hfit =>
      ⟨chain, p, by rw [List.append_nil]; exact hmono hlive, hfit, .inl rfl⟩⟩
  | giveUp t d x s hx hst hi =>
    exact h.sending hmono ho (x' := { x with sinks := x.sinks.erase d }) hx hst _ _ rfl rfl
  | remove t x s hx hst hd r route hrem =>
    refine h.own hmono ho (.inl fun ev hev => by
        rw [List.mem_singleton] at hev; subst hev; trivial) hx rfl rfl (fun ev hev => by rw [List.mem_singleton] at hev; subst hev; rfl)
      (.inr rfl) ?_ (fun s' hs' => by cases hs')
    rcases hst with ⟨hst, _⟩ | hst <;> rw [hst] <;> exact fun hh => by cases hh
  | rest t x s hx hst hd he r hr timers htm =>
    refine h.own hmono ho (.inl fun ev hev => by cases hev) hx rfl rfl (fun ev hev => by cases hev) (.inr rfl)
      (by rw [hst]; exact fun hh => by cases hh) ?_
    intro s' hs'
    refine ⟨s, by rw [hst]; rfl, (by cases hs'; rfl),
      (fun d src m hm => by cases hm),
      fun chain p hc hlive hfit => ?_⟩
    rw [hst] at hfit
    exact ⟨chain, p, by rw [List.append_nil]; exact hmono hlive, hfit, .inl rfl⟩
  | fire i tm ht w' hw =>
    refine h.same hmono ?_
    rcases hw with ⟨rfl, _⟩ | ⟨q, _, _, rfl⟩ <;> rfl
  | kick id q hr hq => exact h.same hmono rfl

theorem LifeIn.runs {G : List Act → Good} {acts : List Act} (h : Reaches cfg ext acts w evs)
    (hG : ∀ acts1 a acts2 w1 evs1, acts = acts1 ++ a :: acts2 → Reaches cfg ext acts1 w1 evs1 →
      (G (acts1 ++ [a])).allows w1 a ∧ (G acts1).steps (G (acts1 ++ [a])) a) :
    LifeIn (G acts) cfg ext w evs := by
  have : ∀ acts w evs, Reaches cfg ext acts w evs → (∀ acts1 a acts2 w1 evs1,
      acts = acts1 ++ a :: acts2 → Reaches cfg ext acts1 w1 evs1 →
        (G (acts1 ++ [a])).allows w1 a ∧ (G acts1).steps (G (acts1 ++ [a])) a) →
      LifeIn (G acts) cfg ext w evs := by
    intro acts
    induction acts using snoc_induction with
    | nil =>
      intro w evs h _
      cases h
      exact ⟨(fun ev hev => by cases hev), (fun t x s hx _ => by cases hx)⟩
    | snoc acts a ih =>
      intro w evs h hG
      obtain ⟨w1, e1, e2, h1, h2, rfl⟩ := run_snoc_world.mp h
      have hb := BrokerInv.run h1
      obtain ⟨h3, h4⟩ := hG acts a [] w1 e1 rfl h1
      exact (ih w1 e1 h1 fun l1 b l2 w2 e3 hl hr =>
          hG l1 b (l2 ++ [a]) w2 e3 (by rw [hl]; simp) hr).case hb.own (hb.step h2).own
        (step_cases h2) h3 h4
  exact this acts w evs h hG

theorem LifeIn.run {acts : List Act} (h : Reaches cfg ext acts w evs)
    (hG : ∀ acts1 a acts2 w1 evs1, acts = acts1 ++ a :: acts2 → Reaches cfg ext acts1 w1 evs1 →
      G.allows w1 a) (hr : ∀ l, G.run l := by exact fun _ => trivial) : LifeIn G cfg ext w evs :=
  LifeIn.runs (G := fun _ => G) h fun l1 a l2 w1 e1 hl h1 =>
    ⟨hG l1 a l2 w1 e1 hl h1, Good.steps_self hr a⟩

/-- Without conditions. -/
abbrev LifeInv := LifeIn Good.any

theorem Good.any_allows (w : World) (a : Act) : Good.any.allows w a := by
  refine ⟨trivial, fun _ _ _ _ _ => trivial, ?_⟩
  cases a <;> first | trivial | exact ⟨trivial, trivial⟩

theorem LifeInv.run {acts : List Act} (h : Reaches cfg ext acts w evs) :
    LifeInv cfg ext w evs := LifeIn.run h fun _ _ _ _ _ _ _ => Good.any_allows _ _

end Akasa
