import Verif.Proof.Returns
import Verif.Props.Announced
/-!
# C105: a message for a shared subscription goes to one member of the group
-/
namespace Akasa

variable {cfg : Config} {ext : Ext} {w w' : World} {evs e : List Event}

/-- **C105, at most one member.**  For every run of the broker and every message (or will) that is
passed on: among all copies queued for all clients, at most one says that it is sent because of a
given shared subscription. -/
theorem C105_once {acts : List Act} (hrun : Reaches cfg ext acts w evs) {a : Act}
    (hs : w.step cfg ext a = some (w', e)) {t : TaskId} {m : SendPub} (hp : Publishes t m e)
    (hv : ValidTopic m.topic) {g f : Str} (hg : '/' ∉ g) {id id' : ClientId} {c c' : NormalMsg}
    (hc : c ∈ queuedFor t id e) (hn : c.names (shareFilter g f))
    (hc' : c' ∈ queuedFor t id' e) (hn' : c'.names (shareFilter g f)) :
    id = id' ∧ queuedFor t id e = [c] ∧ c = c' := by
  obtain ⟨ops, h⟩ := subsInv_run (full := false) hrun (fun h => by cases h)
  obtain ⟨x, s, s2, s', env, g', n, h1, h2, h3, h4, h5, _⟩ := publishes_send hs hp
  obtain ⟨l, h6, h7, _⟩ := send_shared h3 h.run hv id
  obtain ⟨l', h6', h7', _⟩ := send_shared h3 h.run hv id'
  have h8 := h5 id l h6
  rw [h8] at hc
  rw [h5 id' l' h6'] at hc'
  obtain ⟨_, h9, q, h10⟩ := h7 c hc g f hg hn
  obtain ⟨_, h9', q', h10'⟩ := h7' c' hc' g f hg hn'
  rw [h10] at h10'
  simp only [Option.some.injEq, Prod.mk.injEq] at h10'
  obtain ⟨rfl, _⟩ := h10'
  rw [h6] at h6'
  have hl := List.append_cancel_left h6'
  refine ⟨rfl, by rw [h8, h9], ?_⟩
  rw [h9, h9'] at hl
  exact (List.cons.inj hl).1

/-- **C105, messages of MQTT 3 clients.**  For every run of the broker: a message (or will) of a
client that speaks MQTT 3 is passed on to nobody because of a shared subscription. -/
theorem C105_v3 {acts : List Act} (hrun : Reaches cfg ext acts w evs) {a : Act}
    (hs : w.step cfg ext a = some (w', e)) {t : TaskId} {m : SendPub} (hp : Publishes t m e)
    (hv : ValidTopic m.topic) {req : Request} (hreq : w.request t = some req)
    (h3 : req.level ≠ .v500) {g f : Str} (hg : '/' ∉ g) {id : ClientId} {c : NormalMsg}
    (hc : c ∈ queuedFor t id e) : ¬ c.names (shareFilter g f) := by
  intro hn
  obtain ⟨ops, h⟩ := subsInv_run (full := false) hrun (fun h => by cases h)
  obtain ⟨x, s, s2, s', env, g', n, h1, h2, h3', h4, h5, _⟩ := publishes_send hs hp
  obtain ⟨l, h6, h7, _⟩ := send_shared h3' h.run hv id
  rw [h5 id l h6] at hc
  have h8 := (h7 c hc g f hg hn).1
  unfold World.request at hreq
  rw [h1] at hreq
  simp only [Option.map_some, Option.some.injEq] at hreq
  subst hreq
  apply h3
  cases hl : x.req.level <;> rw [hl] at h8 <;> first | rfl | cases h8

/-- **C105, one member (partial).**  If no subscriptions were lost with a discarded session and
nobody has come back to a shared subscription after leaving it: a message (or will) of an MQTT 5
client whose topic matches a shared subscription that somebody has is passed on to exactly one of
those who have it, in exactly one copy, with at least the QoS granted to that client.

Missing: publishers that speak MQTT 3 (`C105_v3`, `C105_v3_false`), sessions that were discarded
(`C105_left_false`), and members that leave and come back (`C26_shared_false`) or whose session
expires (`C36_shared_false`). -/
theorem C105_one_partial {acts : List Act} (hrun : Reaches cfg ext acts w evs)
    (hd : NoneDiscarded evs) (hl : NobodyReturns cfg ext acts) {a : Act}
    (hs : w.step cfg ext a = some (w', e)) {t : TaskId} {m : SendPub} (hp : Publishes t m e)
    (hv : ValidTopic m.topic) {req : Request} (hreq : w.request t = some req)
    (h5 : req.level = .v500) {g f : Str} (hg : '/' ∉ g) (hm : Matches f m.topic)
    (hmem : ∃ id q, w.lists (shareFilter g f) id q) :
    ∃ id q c, w.lists (shareFilter g f) id q ∧ queuedFor t id e = [c] ∧
      c.names (shareFilter g f) ∧ IsCopyFor m (shareFilter g f) q c ∧
      ∀ id' c', c' ∈ queuedFor t id' e → c'.names (shareFilter g f) → id' = id ∧ c' = c := by
  obtain ⟨ops, h2⟩ := returns_run hrun hd hl
  have h1 := h2.calls
  obtain ⟨tab, h3, h4, h6⟩ := run_noRejoin ops h2.none.noRejoin
  rw [h1.run] at h3; cases h3
  obtain ⟨x, s, s2, s', env, g', n, h7, h8, h9, h10, h11, _⟩ := publishes_send hs hp
  have hsel := selects h4 env.pick g f hg
  cases hso : selOf w.route env.pick g f with
  | none =>
    obtain ⟨id, q, hq⟩ := hmem
    have := hsel.2 hso id
    rw [(lists_of_ops h1).2 hq] at this; cases this
  | some p =>
    obtain ⟨id, q⟩ := p
    have hq := (lists_of_ops h1).1 (hsel.1 id q hso)
    have hreg : w.global.registered id = true := by
      obtain ⟨u, s0, d0, k1, k2, k3, k4⟩ := hq
      obtain ⟨y, hy, hs0⟩ := owned_stage k1
      rw [← k2]; exact owner_registered (BrokerInv.run hrun).own hy hs0
    have hpr : x.req.level.proto = .v5 := by
      unfold World.request at hreq
      rw [h7] at hreq
      simp only [Option.map_some, Option.some.injEq] at hreq
      rw [hreq, h5]; rfl
    obtain ⟨l, h12, h13, h14⟩ := send_shared h9 h1.run hv id
    obtain ⟨c, hc, hcf, hcn⟩ := h14 hpr hreg g f q hg hm hso
    have hl' := h11 id l h12
    refine ⟨id, q, c, hq, ?_, hcn, hcf, ?_⟩
    · rw [hl', (h13 c hc g f hg hcn).2.1]
    · intro id' c' hc' hn'
      obtain ⟨k1, _, k2⟩ := C105_once hrun hs hp hv hg (by rw [hl']; exact hc) hcn hc' hn'
      exact ⟨k1.symm, k2.symm⟩

/-! ## Runs -/

/-- Two clients share a subscription, a third one is there to publish. -/
def exTeam (level : Level) : List Act :=
  [.connect (exReq .v500 false 100 5) {} true,
   .packet 0 {} (Clock.const 0) 10 (.subscribe 1 [(str "$share/g/+", { maxQos := 1 })] none),
   .connect { level := .v500, identifier := str "d", clean := true } {} true,
   .packet 1 {} (Clock.const 0) 10 (.subscribe 1 [(str "$share/g/+", { maxQos := 2 })] none),
   .connect { level, identifier := str "p", clean := true } {} true]

/-- The third client publishes; `k` is the number that picks the member. -/
def exTeamPub (t : TaskId) (k : Nat) : Act :=
  .packet t { pick := fun _ _ => k } (Clock.const 0) 10 (.publish
    { dup := false, retain := false, qosPid := .level1 7, topic := str "a", payload := [1] })

/-- The subscriptions of all sessions are still there. -/
def keepsSubs (w w' : World) : Bool :=
  w.tasks.keys.all fun t => (w.owned t).all fun s => w'.tasks.keys.any fun t' =>
    (w'.owned t').any fun s' => decide (s'.clientId = s.clientId) &&
      s.subscribes.keys.all fun F => s'.subscribes.contains F

/-- The same in every step of a run. -/
def keepsAll (cfg : Config) (ext : Ext) : World → List Act → Bool
  | _, [] => true
  | w, a :: acts =>
    match w.step cfg ext a with
    | none => true
    | some (w', _) => keepsSubs w w' && keepsAll cfg ext w' acts

theorem keepsSubs_lists (h : keepsSubs w w' = true) {F : Str} {id : ClientId} {q : QoS}
    (hl : w.lists F id q) : ∃ q', w'.lists F id q' := by
  obtain ⟨t, s, d, h1, rfl, h2, rfl⟩ := hl
  obtain ⟨x, hx, _⟩ := owned_stage h1
  have h3 := List.all_eq_true.1 h t (FMap.mem_keys_of_mem (FMap.mem_of_get hx))
  rw [h1] at h3
  simp only [Option.all_some, List.any_eq_true, Option.any_eq_true, Bool.and_eq_true,
    decide_eq_true_eq, List.all_eq_true] at h3
  obtain ⟨t', _, s', h4, h5, h6⟩ := h3
  have h7 := h6 F (FMap.mem_keys_of_mem (FMap.mem_of_get h2))
  obtain ⟨d', h8⟩ := Option.isSome_iff_exists.1 h7
  exact ⟨_, t', s', d', h4, h5, h8, rfl⟩

theorem nobodyLeaves_of {acts : List Act} (h : keepsAll cfg ext {} acts = true) :
    NobodyLeaves cfg ext acts := by
  suffices ∀ (A : List Act) (w0 : World) (acts : List Act), keepsAll cfg ext w0 acts = true →
      ∀ a B, acts = A ++ a :: B → ∀ w evs w' e, World.run cfg ext w0 A = some (w, evs) →
      w.step cfg ext a = some (w', e) → keepsSubs w w' = true by
    intro A a B hAB w evs w' e h1 h2 F id q _ hl
    exact keepsSubs_lists (this A {} acts h a B hAB w evs w' e h1 h2) hl
  intro A
  induction A with
  | nil =>
    rintro w0 _ hk a B rfl w evs w' e h1 h2
    cases h1
    simp only [List.nil_append, keepsAll, h2, Bool.and_eq_true] at hk
    exact hk.1
  | cons b A ih =>
    rintro w0 _ hk a B rfl w evs w' e h1 h2
    rw [List.cons_append] at hk
    simp only [keepsAll] at hk
    simp only [World.run] at h1
    cases hst : w0.step cfg ext b with
    | none => rw [hst] at h1; cases h1
    | some p =>
      obtain ⟨w1, e1⟩ := p
      rw [hst] at hk h1
      simp only [Bool.and_eq_true] at hk
      simp only [Option.map_eq_some_iff] at h1
      obtain ⟨⟨w2, e2⟩, h3, h4⟩ := h1
      cases h4
      exact ih w1 _ hk.2 a B rfl w2 e2 w' e h3 h2

/-- Both members are listed; the number decides who gets the message. -/
example (k : Fin 2) : ∃ w evs w' e m, Reaches {} exExt (exTeam .v500) w evs ∧ NoneDiscarded evs ∧
    NobodyLeaves {} exExt (exTeam .v500) ∧
    w.step {} exExt (exTeamPub 2 k) = some (w', e) ∧ Publishes 2 m e ∧ ValidTopic m.topic ∧
    Matches (str "+") m.topic ∧ w.lists (shareFilter (str "g") (str "+")) 0 1 ∧
    w.lists (shareFilter (str "g") (str "+")) 1 2 ∧
    queuedFor 2 k.1 e = [m.copyV5 [shareFilter (str "g") (str "+")] (if k = 0 then 1 else 2)] ∧
    queuedFor 2 (1 - k.1) e = [] := by
  have hk : keepsAll {} exExt {} (exTeam .v500) = true := by decide +kernel
  match k with
  | 0 => exact ⟨_, _, _, _, _, rfl, noneDiscarded_of (by decide +kernel), nobodyLeaves_of hk, rfl,
      .inl ⟨_, .tail _ List.mem_cons_self, List.mem_cons_self⟩, by unfold ValidTopic; decide,
      ⟨.plus _ .done, by decide⟩, ⟨0, _, _, rfl, rfl, rfl, rfl⟩, ⟨1, _, _, rfl, rfl, rfl, rfl⟩,
      rfl, rfl⟩
  | 1 => exact ⟨_, _, _, _, _, rfl, noneDiscarded_of (by decide +kernel), nobodyLeaves_of hk, rfl,
      .inl ⟨_, .tail _ List.mem_cons_self, List.mem_cons_self⟩, by unfold ValidTopic; decide,
      ⟨.plus _ .done, by decide⟩, ⟨0, _, _, rfl, rfl, rfl, rfl⟩, ⟨1, _, _, rfl, rfl, rfl, rfl⟩,
      rfl, rfl⟩

/-- The first member gives the shared subscription up. -/
def exTeamLeave : Act :=
  .packet 0 {} (Clock.const 0) 10 (.unsubscribe 9 [str "$share/g/+"])

/-- After the first member has left, the second one gets the message whatever the number is. -/
example (k : Fin 2) : ∃ w evs w' e m, Reaches {} exExt (exTeam .v500 ++ [exTeamLeave]) w evs ∧
    NoneDiscarded evs ∧ NobodyReturns {} exExt (exTeam .v500 ++ [exTeamLeave]) ∧
    w.step {} exExt (exTeamPub 2 k) = some (w', e) ∧ Publishes 2 m e ∧ ValidTopic m.topic ∧
    Matches (str "+") m.topic ∧ w.lists (shareFilter (str "g") (str "+")) 1 2 ∧
    queuedFor 2 1 e = [m.copyV5 [shareFilter (str "g") (str "+")] 2] ∧ queuedFor 2 0 e = [] := by
  have hk : keepsAll {} exExt {} (exTeam .v500) = true := by decide +kernel
  match k with
  | 0 => exact ⟨_, _, _, _, _, rfl, noneDiscarded_of (by decide +kernel),
      returns_leave (nobodyLeaves_of hk) 0 {} (Clock.const 0) 10 9 (by decide), rfl,
      .inl ⟨_, .tail _ List.mem_cons_self, List.mem_cons_self⟩, by unfold ValidTopic; decide,
      ⟨.plus _ .done, by decide⟩, ⟨1, _, _, rfl, rfl, rfl, rfl⟩, rfl, rfl⟩
  | 1 => exact ⟨_, _, _, _, _, rfl, noneDiscarded_of (by decide +kernel),
      returns_leave (nobodyLeaves_of hk) 0 {} (Clock.const 0) 10 9 (by decide), rfl,
      .inl ⟨_, .tail _ List.mem_cons_self, List.mem_cons_self⟩, by unfold ValidTopic; decide,
      ⟨.plus _ .done, by decide⟩, ⟨1, _, _, rfl, rfl, rfl, rfl⟩, rfl, rfl⟩

/-- **C105 is false of the code for publishers that speak MQTT 3**: a client has the shared
subscription, the topic matches, and nobody gets the message. -/
theorem C105_v3_false : ∃ w evs w' e m, Reaches {} exExt (exTeam .v311) w evs ∧ NoneDiscarded evs ∧
    NobodyLeaves {} exExt (exTeam .v311) ∧
    w.step {} exExt (exTeamPub 2 0) = some (w', e) ∧ Publishes 2 m e ∧ ValidTopic m.topic ∧
    Matches (str "+") m.topic ∧ w.lists (shareFilter (str "g") (str "+")) 0 1 ∧
    w.lists (shareFilter (str "g") (str "+")) 1 2 ∧ ∀ id, queuedFor 2 id e = [] := by
  exact ⟨_, _, _, _, _, rfl, noneDiscarded_of (by decide +kernel),
    nobodyLeaves_of (by decide +kernel), rfl,
    .inl ⟨_, .tail _ List.mem_cons_self, List.mem_cons_self⟩, by unfold ValidTopic; decide,
    ⟨.plus _ .done, by decide⟩, ⟨0, _, _, rfl, rfl, rfl, rfl⟩, ⟨1, _, _, rfl, rfl, rfl, rfl⟩,
    fun _ => rfl⟩

/-- The second member has a plain subscription too: it gets the message because of that one. -/
example : ∃ w evs w' e m req, Reaches {} exExt (exTeam .v311 ++
      [.packet 1 {} (Clock.const 0) 10 (.subscribe 2 [(str "a", { maxQos := 1 })] none)]) w evs ∧
    w.step {} exExt (exTeamPub 2 0) = some (w', e) ∧ Publishes 2 m e ∧ ValidTopic m.topic ∧
    w.request 2 = some req ∧ req.level ≠ .v500 ∧ queuedFor 2 1 e = [m.copyV3 (str "a", 1)] :=
  ⟨_, _, _, _, _, _, rfl, rfl, .inl ⟨_, .tail _ List.mem_cons_self, List.mem_cons_self⟩,
    by unfold ValidTopic; decide, rfl, by decide, rfl⟩

/-- The first member comes back with a clean session and does not subscribe again. -/
def exTeamClean : List Act :=
  exTeam .v500 ++ [.connect (exReq .v500 true 100 5) {} true, .control 0 {}, .accept 3 {} true]

/-- **C105 is false of the code after a clean start**: the client that comes back has no
subscription, and the message goes to that client and not to the only one that has the shared
subscription. -/
theorem C105_left_false : ∃ w evs w' e m c, Reaches {} exExt exTeamClean w evs ∧
    w.step {} exExt (exTeamPub 2 0) = some (w', e) ∧ Publishes 2 m e ∧ ValidTopic m.topic ∧
    Matches (str "+") m.topic ∧ w.lists (shareFilter (str "g") (str "+")) 1 2 ∧
    (∀ q, ¬ w.lists (shareFilter (str "g") (str "+")) 0 q) ∧
    queuedFor 2 0 e = [c] ∧ c.names (shareFilter (str "g") (str "+")) ∧
    queuedFor 2 1 e = [] := by
  have key : ∃ w evs w' e m c, Reaches {} exExt exTeamClean w evs ∧
      w.step {} exExt (exTeamPub 2 0) = some (w', e) ∧ Publishes 2 m e ∧ ValidTopic m.topic ∧
      Matches (str "+") m.topic ∧ w.lists (shareFilter (str "g") (str "+")) 1 2 ∧
      (∀ t s, w.owned t = some s → (decide (s.clientId ≠ 0) || s.subscribes.isEmpty) = true) ∧
      queuedFor 2 0 e = [c] ∧ c.names (shareFilter (str "g") (str "+")) ∧
      queuedFor 2 1 e = [] := by
    refine ⟨_, _, _, _, _, _, rfl, rfl, .inl ⟨_, .tail _ List.mem_cons_self, List.mem_cons_self⟩,
      by unfold ValidTopic; decide, ⟨.plus _ .done, by decide⟩, ⟨1, _, _, rfl, rfl, rfl, rfl⟩, ?_,
      rfl, List.mem_cons_self, rfl⟩
    intro t s hs
    exact owned_all (P := fun s => decide (s.clientId ≠ 0) || s.subscribes.isEmpty)
      (by decide +kernel) hs
  obtain ⟨w, evs, w', e, m, c, h1, h2, h3, h4, h5, h6, h7, h8, h9, h10⟩ := key
  refine ⟨w, evs, w', e, m, c, h1, h2, h3, h4, h5, h6, ?_, h8, h9, h10⟩
  rintro q ⟨t, s, d, k1, k2, k3, k4⟩
  have h11 := h7 t s k1
  simp only [k2, ne_eq, not_true_eq_false, decide_false, Bool.false_or, List.isEmpty_iff] at h11
  rw [h11] at k3
  cases k3

end Akasa
