import Verif.Proof.Announced
import Verif.Props.Return
/-!
# C96: the broker keeps to the limits it announces

A server can be configured with a highest QoS and without retained messages.  MQTT 5 clients are told
so in the CONNACK.
-/
namespace Akasa

variable {cfg : Config} {ext : Ext} {w : World} {evs : List Event}

/-- **C96, sent.**  No PUBLISH that is sent on any connection has a higher QoS than is allowed; and if
retained messages are not available, none that is sent to an MQTT 5 client has RETAIN set. -/
theorem C96_sent {acts : List Act} (hrun : Reaches cfg ext acts w evs) {t : TaskId} {req : Request}
    (hreq : w.request t = some req) {out : List OutPkt} (hev : .sent t out ∈ evs) {p : Publish}
    (hp : .publish p ∈ out) :
    p.qosPid.qos ≤ cfg.maxAllowedQos ∧
      (req.level.proto = .v5 → cfg.retainAvailable = false → p.retain = false) := by
  obtain ⟨A, B, hev⟩ := List.append_of_mem hev
  obtain ⟨acts1, a, acts2, w1, w2, evs1, e, y, s, A2, rfl, h1, h2, rfl, hy, hs, -,
    L, M, hlm, -, hl⟩ := life_at hrun hev rfl
  obtain ⟨_, hreq2⟩ := run_prefix h2 (acts2 := acts2) (by rw [List.append_assoc]; exact hrun)
  have hyr : w2.request t = some y.req := by
    unfold World.request
    rw [show w2.tasks.get t = some y from hy]; rfl
  have := hreq2 t _ hyr
  rw [hreq] at this
  cases this
  obtain ⟨q, i, id, cp, sevs, recs, h3, h4, _, h5⟩ := (below_life h2).lifeOf hy hs
  have hm := hl (.sent (.publish p)) (by
    unfold Event.obs
    rw [under_self hy]
    exact List.mem_map.2 ⟨_, hp, rfl⟩)
  replace hm : Obs.sent (.publish p) ∈ L ++ M := List.mem_append.2 (.inr hm)
  rw [← hlm, h4] at hm
  obtain ⟨r, hr, ho⟩ := (mem_obs hm).2 _ rfl
  exact sent_within h3 h5.1 hr ho

/-- **C96, SUBSCRIBE.**  If retained messages are not available, a SUBSCRIBE of an MQTT 5 client is
answered with a SUBACK (or, for a protocol error, a DISCONNECT) alone: no retained message is sent
or queued. -/
theorem C96_subscribe (hr : cfg.retainAvailable = false) {env : Env} {g : Global} {s : Session}
    {size : Nat} {pid : Pid} {topics : List (Str × SubOpts)} {id : Option Nat} {r : Res}
    (h : handlePacket cfg ext .v5 env g s size (.subscribe pid topics id) = some r) :
    ((∃ codes, r.out = [.suback pid codes]) ∨ ∃ code, r.out = [.disconnect code]) ∧
      r.session.sender = s.sender := by
  simp only [handlePacket, handlePacketV5] at h
  split at h
  · cases h; exact ⟨.inr ⟨_, rfl⟩, rfl⟩
  · simp only [handleSubscribeV5] at h
    split at h
    · cases h; exact ⟨.inr ⟨_, rfl⟩, rfl⟩
    · split at h
      · cases h; exact ⟨.inl ⟨_, rfl⟩, rfl⟩
      · rw [Option.map_eq_some_iff] at h
        obtain ⟨⟨a, b, c, d⟩, h1, rfl⟩ := h
        obtain ⟨rfl, h2⟩ := subscribeLoopV5_quiet hr h1
        exact ⟨.inl ⟨_, rfl⟩, h2⟩

/-- **C96, wills** (partial).  An MQTT 5 client that is accepted has no will beyond the limits.
Missing: PUBLISH packets beyond the limits are not refused (`C96_qos_false`, `C96_retain_false`). -/
theorem C96_will_partial {acts : List Act} (hrun : Reaches cfg ext acts w evs) {t : TaskId}
    {present : Bool} (ha : .accepted t present ∈ evs) {req : Request} (hreq : w.request t = some req)
    (hv : req.level.proto = .v5) {wl : Will} (hw : req.params.will = some wl) :
    wl.qos ≤ cfg.maxAllowedQos ∧ (cfg.retainAvailable = false → wl.retain = false) := by
  suffices req.willRefused cfg = false by
    unfold Request.willRefused at this
    rw [hv, hw] at this
    simp only [Bool.or_eq_false_iff, Bool.and_eq_false_iff, Bool.not_eq_false',
      decide_eq_false_iff_not] at this
    refine ⟨Fin.not_lt.1 this.2, fun hr => ?_⟩
    rw [hr] at this
    simpa using this.1
  have key := world_induction (P := fun w evs => BrokerInv w ∧ ∀ t b, .accepted t b ∈ evs →
    ∃ req, w.request t = some req ∧ req.willRefused cfg = false)
    ⟨.init, fun t b h => by cases h⟩ ?_ hrun
  · obtain ⟨req', h1, h2⟩ := key.2 t present ha
    rw [hreq] at h1
    cases h1
    exact h2
  · rintro w evs a w' e ⟨hi, h1⟩ hs
    have hc := step_cases hs
    refine ⟨hi.step hs, fun t b hm => ?_⟩
    rcases List.mem_append.1 hm with hm | hm
    · obtain ⟨req, h2, h3⟩ := h1 t b hm
      exact ⟨req, (seen_step hi.own hc t).keeps _ h2, h3⟩
    · clear h1 hi hs
      have will : ∀ {u : TaskId} {s s' : Session} {m : Option SendPub},
          Event.accepted t b ∉ willEvents u s s' m := by
        intro u s s' m h
        unfold willEvents at h
        split at h <;> simp at h
      cases hc with
      | fresh req env r id hadd hw s out hs =>
        simp only [List.mem_cons, Event.accepted.injEq, reduceCtorEq, List.not_mem_nil, or_false] at hm
        obtain ⟨rfl, -⟩ := hm
        exact ⟨req, by simp [World.request], hw⟩
      | accept u env x old level hx hst hw s0 present h0 s out hs =>
        have : t = u := by
          rcases List.mem_append.1 hm with hm | hm
          · split at hm
            · cases hm
            · rw [List.mem_singleton] at hm; cases hm
          · simp only [List.mem_cons, Event.accepted.injEq, reduceCtorEq, List.not_mem_nil,
              or_false] at hm
            exact hm.1
        subst this
        exact ⟨x.req, by simp [World.request], hw⟩
      | expire u env x s hx hst hd time q hq hpr ht s' g m hw r route hrem =>
        rcases List.mem_append.1 hm with hm | hm
        · exact (will hm).elim
        · simp at hm
      | lateWill u env x s hx hst hd time q hq hpr ht s' g m hw => exact (will hm).elim
      | closeWill u env lost x s hx hst hd hp s' g m hw =>
        rcases List.mem_cons.1 hm with hm | hm
        · cases hm
        · exact (will hm).elim
      | handOff u env x s hx hst hd c y q hq hy msgs inbox hmm =>
        simp at hm
      | _ => simp at hm

/-! ## What is not refused -/

/-- The run ends in a state and with events that have this property. -/
theorem reaches_of {cfg : Config} {acts : List Act} {P : World × List Event → Bool}
    (h : (World.run cfg exExt {} acts).any P = true) :
    ∃ w evs, Reaches cfg exExt acts w evs ∧ P (w, evs) = true := by
  rw [Option.any_eq_true] at h
  obtain ⟨⟨w, evs⟩, h1, h2⟩ := h
  exact ⟨w, evs, h1, h2⟩

/-- Only QoS 0, and no retained messages. -/
def exLow : Config := { maxAllowedQos := 0, retainAvailable := false }

/-- An MQTT 5 client subscribes with QoS 2, and another publishes with QoS 1 and RETAIN; an MQTT 3
client subscribes then. -/
def exBeyond : List Act :=
  [.connect { level := .v500, identifier := str "c", clean := true } {} true,
   .packet 0 {} (Clock.const 0) 10 (.subscribe 1 [(str "a", { maxQos := 2, retainAsPublished := true })] none),
   .connect { level := .v500, identifier := str "d", clean := true } {} true,
   .packet 1 {} (Clock.const 0) 10 (.publish
    { dup := false, retain := true, qosPid := .level1 7, topic := str "a", payload := [1] }),
   .push 1 0, .flush 1 0, .normal 0 { clk := fun _ => Clock.const 100 },
   .connect { level := .v311, identifier := str "e", clean := true } {} true,
   .packet 2 { clk := fun _ => Clock.const 100 } (Clock.const 0) 10 (.subscribe 1 [(str "#", { maxQos := 1 })] none)]

/-- The packets sent on a connection. -/
def sentOn (t : TaskId) (evs : List Event) : List OutPkt :=
  evs.flatMap fun
    | .sent u out => if u = t then out else []
    | _ => []

/-- **C96** is false of the code for the QoS of a PUBLISH: only QoS 0 is allowed and announced, an
MQTT 5 client publishes with QoS 1; the message is accepted, passed on and answered with success. -/
theorem C96_qos_false : ∃ acts w evs m, Reaches exLow exExt acts w evs ∧ w.request 1 ≠ none ∧
    (w.request 1).map (·.level) = some .v500 ∧ (1, m) ∈ published evs ∧ exLow.maxAllowedQos < m.qos ∧
    sentOn 1 evs = [.puback 7 .success] := by
  obtain ⟨w, evs, h1, h2⟩ := reaches_of (cfg := exLow) (acts := exBeyond)
    (P := fun r => (r.1.request 1).map (·.level) == some .v500 &&
      (published r.2).any (fun m => m.1 == 1 && decide (exLow.maxAllowedQos < m.2.qos)) &&
      sentOn 1 r.2 == [.puback 7 .success]) (by decide +kernel)
  simp only [Bool.and_eq_true, beq_iff_eq, List.any_eq_true, decide_eq_true_eq] at h2
  obtain ⟨⟨h3, ⟨u, m⟩, h4, rfl, h5⟩, h6⟩ := h2
  refine ⟨_, w, evs, m, h1, fun h => ?_, h3, h4, h5, h6⟩
  rw [h] at h3
  cases h3

/-- **C96** is false of the code for RETAIN: retained messages are not available, an MQTT 5 client
publishes one; it is accepted, answered with success and stored, and an MQTT 3 client that subscribes
later gets it. -/
theorem C96_retain_false : ∃ cfg acts w evs m, cfg.retainAvailable = false ∧
    Reaches cfg exExt acts w evs ∧ (w.request 1).map (·.level) = some .v500 ∧ (1, m) ∈ published evs ∧
    m.retain = true ∧ sentOn 1 evs = [.puback 7 .success] ∧
    ∃ p, .publish p ∈ sentOn 2 evs ∧ p.retain = true ∧ p.payload = m.payload := by
  obtain ⟨w, evs, h1, h2⟩ := reaches_of (cfg := { retainAvailable := false }) (acts := exBeyond)
    (P := fun r => (r.1.request 1).map (·.level) == some .v500 &&
      (published r.2).any (fun m => m.1 == 1 && m.2.retain && m.2.payload == [1]) &&
      sentOn 1 r.2 == [.puback 7 .success] &&
      (sentOn 2 r.2).any (fun | .publish p => p.retain && p.payload == [1] | _ => false))
    (by decide +kernel)
  simp only [Bool.and_eq_true, beq_iff_eq, List.any_eq_true] at h2
  obtain ⟨⟨⟨h3, ⟨u, m⟩, h4, ⟨rfl, h5⟩, h6⟩, h7⟩, o, h8, h9⟩ := h2
  split at h9
  · rename_i p
    rw [Bool.and_eq_true, beq_iff_eq] at h9
    exact ⟨_, _, w, evs, m, rfl, h1, h3, h4, h5, h7, p, h8, h9.1, h9.2.trans h6.symm⟩
  · cases h9

/-! ## Examples -/

/-- The first client of `exBeyond` subscribes with QoS 2 and asks to be told of RETAIN; it gets the
message with QoS 0 and without RETAIN. -/
example : ∃ w evs out p, Reaches exLow exExt exBeyond w evs ∧ w.request 0 ≠ none ∧
    .sent 0 out ∈ evs ∧ .publish p ∈ out ∧ p.qosPid = .level0 ∧ p.retain = false ∧
    p.payload = [1] := by
  obtain ⟨w, evs, h1, h2⟩ := reaches_of (cfg := exLow) (acts := exBeyond)
    (P := fun r => (r.1.request 0).isSome && r.2.any (fun
      | .sent 0 out => out.any (fun
        | .publish p => p.qosPid == .level0 && !p.retain && p.payload == [1]
        | _ => false)
      | _ => false)) (by decide +kernel)
  simp only [Bool.and_eq_true, List.any_eq_true] at h2
  obtain ⟨h3, ev, h4, h5⟩ := h2
  split at h5
  · rename_i out
    rw [List.any_eq_true] at h5
    obtain ⟨o, h6, h7⟩ := h5
    split at h7
    · rename_i p
      simp only [Bool.and_eq_true, beq_iff_eq, Bool.not_eq_true'] at h7
      exact ⟨w, evs, out, p, h1, fun h => (by rw [h] at h3; cases h3), h4, h6, h7.1.1, h7.1.2, h7.2⟩
    · cases h7
  · cases h5

/-- With a retained message for the filter in the store, a SUBSCRIBE is answered with a SUBACK. -/
example : ∃ r, handlePacket exLow exExt .v5 {}
      { retain := RetainTable.empty.publish { publisher := str "d", qos := 0, topic := str "a"
                                              payload := [1], props := none, encodeLen := 10 }
        route := RouteTable.empty, registered := fun _ => false }
      (Session.start exLow .v5 (str "c") 0 {}) 10 (.subscribe 3 [(str "a", { maxQos := 2 })] none) =
        some r ∧ r.out = [.suback 3 [.grantedQos 0]] :=
  ⟨_, rfl, by decide +kernel⟩

/-- A client with a will within the limits is accepted. -/
example : ∃ w evs req wl, Reaches exLow exExt
      [.connect { level := .v500, identifier := str "c", clean := true
                  params := { will := some { topic := str "w", payload := [7], qos := 0
                                             retain := false } } } {} true] w evs ∧
      .accepted 0 false ∈ evs ∧ w.request 0 = some req ∧ req.level.proto = .v5 ∧
      req.params.will = some wl :=
  ⟨_, _, _, _, rfl, List.mem_cons_self, rfl, rfl, rfl⟩

end Akasa
