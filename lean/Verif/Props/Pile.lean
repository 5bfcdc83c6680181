import Verif.Props.Leftover
import Verif.Props.Route
/-!
# C104: leftover subscriptions grow without bound
-/
namespace Akasa

variable {ext : Ext} {w : World}

/-- Client `n` with a kept session and its connections `2 n` and `2 n + 1`: it connects, subscribes to
`a`, and connects again; the CONNACK of the second connection cannot be written. -/
def pileRound (name : Nat → Str) (n : Nat) : List Act :=
  [.connect { level := .v500, identifier := name n, clean := false } {} true,
   .packet (2 * n) {} (Clock.const 0) 10
     (.subscribe 1 [(str "a", { maxQos := 1, retainHandling := .doNotSend })] none),
   .connect { level := .v500, identifier := name n, clean := false } {} true,
   .control (2 * n) {}, .accept (2 * n + 1) {} false]

/-- What `n` such clients leave. -/
structure Pile (w : World) (name : Nat → Str) (n : Nat) : Prop where
  next : w.registry.nextId = n
  task : w.nextTask = 2 * n
  fresh : ∀ i, n ≤ i → w.registry.identMap.get (name i) = none
  gone : ∀ t x, w.tasks.get t = some x → x.stage = .gone
  table : RouteTable.empty.run ((List.range n).map fun i => .sub (str "a") i 1) = some w.route

/-- The session of client `n`. -/
def pileSession (name : Nat → Str) (n : Nat) : Session :=
  Session.start {} .v5 (name n) n {}

/-- The CONNECT of client `n`. -/
def pileRequest (name : Nat → Str) (n : Nat) : Request :=
  { level := .v500, identifier := name n, clean := false }

theorem pile_first {name : Nat → Str} {n : Nat} (h : Pile w name n) :
    ∃ w' e, w.step {} ext (.connect (pileRequest name n) {} true) = some (w', e) ∧
      w'.tasks = w.tasks.insert (2 * n)
        { req := pileRequest name n, stage := .online (pileSession name n), connectedAt := some w.clock } ∧
      w'.registry.nextId = n + 1 ∧ w'.registry.identMap = w.registry.identMap.insert (name n) n ∧
      w'.registry.clients.contains n = true ∧ w'.control.get n = some [] ∧
      w'.nextTask = 2 * n + 1 ∧ w'.route = w.route := by
  have hf := h.fresh n (Nat.le_refl n)
  have hn := h.next
  have ht := h.task
  apply Exists.intro
  apply Exists.intro
  apply And.intro
  · show World.connect _ _ _ _ _ = _
    unfold World.connect Registry.add pileRequest
    simp only [hf, hn, ht]
    rfl
  · refine ⟨rfl, rfl, rfl, ?_, ?_, rfl, rfl⟩
    · show FMap.contains (FMap.insert w.registry.clients n ()) n = true
      simp [FMap.contains]
    · show FMap.get (FMap.insert w.control n []) n = _
      simp

theorem pile_subscribes {name : Nat → Str} {n t : Nat} {x : Task} {t1 : RouteTable}
    (hx : w.tasks.get t = some x) (hreq : x.req = pileRequest name n)
    (hst : x.stage = .online (pileSession name n)) (hs : w.route.subscribe (str "a") n 1 = some t1) :
    ∃ w' e s, w.step {} ext (.packet t {} (Clock.const 0) 10
        (.subscribe 1 [(str "a", { maxQos := 1, retainHandling := .doNotSend })] none)) = some (w', e) ∧
      w'.tasks = w.tasks.insert t { x with stage := .online s } ∧ s.clientId = n ∧
      w'.registry = w.registry ∧ w'.control = w.control ∧ w'.nextTask = w.nextTask ∧
      w'.route = t1 := by
  have key : ∃ r, onPacket {} ext .v5 {} (Clock.const 0) w.global (pileSession name n) 10
      (.subscribe 1 [(str "a", { maxQos := 1, retainHandling := .doNotSend })] none) = some r ∧
      r.closed = false ∧ r.session.clientId = n ∧ r.global.route = t1 := by
    apply Exists.intro
    apply And.intro
    · unfold onPacket handlePacket handlePacketV5
      simp only [handleSubscribeV5, subscribeLoopV5]
      have hc : acceptV5 {} {} 0 w.global (pileSession name n) (str "a")
          { maxQos := 1, retainHandling := .doNotSend } none = some
          ({ pileSession name n with subscribes := [(str "a",
              { opts := { maxQos := 1, retainHandling := .doNotSend }, id := none })] },
            { w.global with route := t1 }, []) := by
        unfold acceptV5
        simp only
        split
        · rename_i h2
          have h2 : w.route.subscribe (str "a") n 1 = none := h2
          rw [hs] at h2; cases h2
        · rename_i t2 h2
          have h2 : w.route.subscribe (str "a") n 1 = some t2 := h2
          rw [hs] at h2; cases h2
          rfl
      have hcode : subscribeCode {} (str "a") { maxQos := 1, retainHandling := .doNotSend } =
        .grantedQos 1 := by decide
      simp only [hcode, hc]
      rfl
    · exact ⟨rfl, rfl, rfl⟩
  obtain ⟨r, h1, h2, h3, h4⟩ := key
  apply Exists.intro
  apply Exists.intro
  refine ⟨r.session, ?_, ?_⟩
  · show World.packet _ _ _ _ _ _ _ _ = _
    unfold World.packet
    rw [hx]
    simp only [hst, hreq]
    have hb : ((pileSession name n).disconnected ||
      decide (bcastMax ≤ (pileSession name n).bcastCnt)) = false := rfl
    have h1' : onPacket {} ext (pileRequest name n).level.proto {} (Clock.const 0) w.global
      (pileSession name n) 10
      (.subscribe 1 [(str "a", { maxQos := 1, retainHandling := .doNotSend })] none) = some r := h1
    rw [hb, h1']
    simp only [Bool.false_eq_true, if_false, h2]
    rfl
  · refine ⟨?_, h3, rfl, rfl, rfl, h4⟩
    rw [← hreq]
    rfl

theorem pile_again {name : Nat → Str} {n : Nat} (hi : w.registry.identMap.get (name n) = some n)
    (hc : w.registry.clients.contains n = true) (hq : w.control.get n = some []) :
    ∃ w' e, w.step {} ext (.connect (pileRequest name n) {} true) = some (w', e) ∧
      w'.tasks = w.tasks.insert w.nextTask { req := pileRequest name n, stage := .waiting n } ∧
      w'.registry.nextId = w.registry.nextId ∧ w'.registry.identMap = w.registry.identMap ∧
      w'.control.get n = some [.online .v5 w.nextTask] ∧
      w'.nextTask = w.nextTask + 1 ∧ w'.route = w.route := by
  apply Exists.intro
  apply Exists.intro
  apply And.intro
  · show World.connect _ _ _ _ _ = _
    unfold World.connect Registry.add
    have hi' : w.registry.identMap.get (pileRequest name n).identifier = some n := hi
    simp only [hi', hc, if_true, hq]
    rfl
  · refine ⟨rfl, rfl, rfl, ?_, rfl, rfl⟩
    show FMap.get (FMap.insert w.control n _) n = _
    simp
    rfl

theorem pile_hands {name : Nat → Str} {n t u : Nat} {x y : Task} {s : Session}
    (hx : w.tasks.get t = some x) (hst : x.stage = .online s) (hid : s.clientId = n)
    (hreq : x.req = pileRequest name n) (hy : w.tasks.get u = some y)
    (hq : w.control.get n = some [.online .v5 u]) :
    ∃ w' e, w.step {} ext (.control t {}) = some (w', e) ∧
      w'.tasks = (w.tasks.insert t { x with stage := .gone, sinks := [] }).insert u
        { y with stage := .granted s .v500 } ∧
      w'.registry = w.registry ∧ w'.nextTask = w.nextTask ∧ w'.route = w.route := by
  subst hid
  apply Exists.intro
  apply Exists.intro
  apply And.intro
  · show World.handleControl _ _ _ _ _ = _
    unfold World.handleControl
    rw [hx]
    simp only [hst]
    unfold World.onControl
    have hp : Proto.v5 = x.req.level.proto := by rw [hreq]; rfl
    simp only [hq, hy, if_pos hp, Bool.false_and, Bool.false_eq_true, if_false, drainInbox]
    rfl
  · refine ⟨?_, rfl, rfl, rfl⟩
    rw [hreq]
    rfl

theorem pile_fails {u : Nat} {y : Task} {s : Session} (hy : w.tasks.get u = some y)
    (hst : y.stage = .granted s .v500) :
    ∃ w' e, w.step {} ext (.accept u {} false) = some (w', e) ∧
      w'.tasks = w.tasks.insert u { req := y.req, stage := .gone } ∧
      w'.registry = w.registry ∧ w'.nextTask = w.nextTask ∧ w'.route = w.route := by
  refine ⟨(w.setTask u { req := y.req, stage := .gone }).dropReceivers
    (y.req.session {} s .v500).1.clientId, [.discarded u s], ?_, rfl, rfl, rfl, rfl⟩
  show some (World.accept _ _ _ _ _) = _
  unfold World.accept World.setUp
  rw [hy]
  simp only [hst, Bool.false_and, Bool.and_false, Bool.false_eq_true, if_false]

theorem pile_round {name : Nat → Str} (hinj : ∀ i j, name i = name j → i = j) {n : Nat}
    (h : Pile w name n) : ∃ w' e, World.run {} ext w (pileRound name n) = some (w', e) ∧
      Pile w' name (n + 1) := by
  obtain ⟨t1, ht1⟩ := C01_no_panic_plain ((List.range (n + 1)).map fun i => .sub (str "a") i 1)
    (by simp only [List.mem_map]; rintro op ⟨i, -, rfl⟩; show IsPlain (str "a"); decide)
  have hsub : w.route.subscribe (str "a") n 1 = some t1 := by
    have h1 := ht1
    rw [List.range_succ, List.map_append, run_append, h.table] at h1
    simp only [List.map_cons, List.map_nil, Option.bind_some, RouteTable.run] at h1
    split at h1
    · cases h1
    · rename_i t' h2
      cases h1
      exact h2
  obtain ⟨w1, e1, a1, a2, a3, a4, a5, a6, a7, a8⟩ := pile_first (ext := ext) h
  obtain ⟨w2, e2, s, b1, b2, b3, b4, b5, b6, b7⟩ := pile_subscribes (ext := ext) (w := w1) (t := 2 * n)
    (t1 := t1) (by rw [a2, FMap.get_insert_self]) rfl rfl (by rw [a8]; exact hsub)
  obtain ⟨w3, e3, c1, c2, c3, c4, c5, c6, c7⟩ := pile_again (ext := ext) (w := w2) (name := name) (n := n)
    (by rw [b4, a4, FMap.get_insert_self]) (by rw [b4]; exact a5) (by rw [b5]; exact a6)
  have hu : w2.nextTask = 2 * n + 1 := by rw [b6, a7]
  rw [hu] at c2 c5 c6
  obtain ⟨w4, e4, d1, d2, d3, d4, d5⟩ := pile_hands (ext := ext) (w := w3) (name := name) (n := n)
    (t := 2 * n) (u := 2 * n + 1)
    (by rw [c2, FMap.get_insert_ne _ _ (Nat.succ_ne_self _), b2, FMap.get_insert_self]) rfl b3 rfl
    (by rw [c2, FMap.get_insert_self]) c5
  obtain ⟨w5, e5, f1, f2, f3, f4, f5⟩ := pile_fails (ext := ext) (w := w4) (u := 2 * n + 1)
    (by rw [d2, FMap.get_insert_self]) rfl
  refine ⟨w5, e1 ++ (e2 ++ (e3 ++ (e4 ++ (e5 ++ [])))), ?_, ?_⟩
  · unfold pileRound
    unfold pileRequest at a1 c1
    simp only [World.run, a1, b1, c1, d1, f1]
    rfl
  · refine ⟨?_, ?_, fun i hi => ?_, fun t x hx => ?_, ?_⟩
    · rw [f3, d3, c3, b4, a3]
    · rw [f4, d4, c6]; exact (Nat.mul_succ 2 n).symm
    · rw [f3, d3, c4, b4, a4, FMap.get_insert_ne _ _ (fun e => by have := hinj _ _ e; omega)]
      exact h.fresh i (by omega)
    · rw [f2, FMap.get_insert] at hx
      split at hx
      · cases hx; rfl
      rw [d2, FMap.get_insert] at hx
      split at hx
      · contradiction
      rw [FMap.get_insert] at hx
      split at hx
      · cases hx; rfl
      rw [c2, FMap.get_insert] at hx
      split at hx
      · contradiction
      rw [b2, FMap.get_insert] at hx
      split at hx
      · contradiction
      rw [a2, FMap.get_insert] at hx
      split at hx
      · contradiction
      exact h.gone t x hx
    · rw [f5, d5, c7, b7]; exact ht1

theorem pile_run (ext : Ext) {name : Nat → Str} (hinj : ∀ i j, name i = name j → i = j) (n : Nat) :
    ∃ w evs, Reaches {} ext ((List.range n).flatMap (pileRound name)) w evs ∧ Pile w name n := by
  induction n with
  | zero => exact ⟨{}, [], rfl, rfl, rfl, fun _ _ => rfl, (fun _ _ h => by cases h), rfl⟩
  | succ n ih =>
    obtain ⟨w, evs, hr, h⟩ := ih
    obtain ⟨w', e, h1, h2⟩ := pile_round (ext := ext) hinj h
    refine ⟨w', evs ++ e, ?_, h2⟩
    rw [List.range_succ, List.flatMap_append, List.flatMap_cons, List.flatMap_nil, List.append_nil]
    exact run_append_world hr h1

/-- Nor is there a limit to the subscriptions that are left: when `n` clients with a subscription have
failed to take up their sessions nobody has a session, and a message for the filter finds all `n` of
them, for ever. -/
theorem C104_pile_false (ext : Ext) {name : Nat → Str} (hinj : ∀ i j, name i = name j → i = j)
    (n : Nat) :
    ∃ acts w evs, Reaches {} ext acts w evs ∧ (∀ id, ¬ w.serves id) ∧
    ∀ acts' w' e, World.run {} ext w acts' = some (w', e) → ∀ i, i < n →
      ¬ w'.serves i ∧ w'.routes (str "a") (str "a") i 1 := by
  obtain ⟨w, evs, hr, h⟩ := pile_run ext hinj n
  have hn : ∀ id, ¬ w.serves id := by
    rintro id ⟨t, x, s, hx, _, hs⟩
    rw [h.gone t x hx] at hs
    rcases hs with hs | hs | hs | hs | hs | ⟨_, hs⟩ <;> cases hs
  refine ⟨_, w, evs, hr, hn, fun acts' w' e hr' i hi => ?_⟩
  obtain ⟨h1, h2⟩ := C104_stays hr (id := i) (by unfold World.gaveOut; rw [h.next]; exact hi) (hn i) hr'
  refine ⟨h1, (h2 _ _ _ (by unfold ValidTopic; decide)).2 ?_⟩
  unfold World.routes
  rw [lookup_iff h.table (by unfold ValidTopic; decide)]
  refine ⟨by decide, ⟨.same _ .done, by decide⟩, ?_⟩
  clear hr hr' h h1 h2 hn
  induction n with
  | zero => omega
  | succ n ih =>
    rw [List.range_succ, List.map_append, List.map_cons, List.map_nil, subscribed_snoc]
    by_cases he : i = n
    · subst he; simp [SubState.step]
    · have := ih (by omega)
      simp [SubState.step, this]

/-- Client identifiers `c`, `cc`, `ccc`, ... -/
example (n : Nat) : ∃ acts w evs, Reaches {} exExt acts w evs ∧ (∀ id, ¬ w.serves id) ∧
    ∀ acts' w' e, World.run {} exExt w acts' = some (w', e) → ∀ i, i < n →
      ¬ w'.serves i ∧ w'.routes (str "a") (str "a") i 1 :=
  C104_pile_false exExt (name := fun i => List.replicate (i + 1) 'c')
    (fun i j h => by have := congrArg List.length h; simpa using this) n

end Akasa
