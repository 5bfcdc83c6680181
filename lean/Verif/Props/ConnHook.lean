import Verif.Proof.ConnHookEnd
import Verif.Props.ConnAck
/-!
# C87–C90: the hooks for connections

The whole broker with the hooks before a connection, after a connection and after a disconnect.
-/
namespace Akasa

variable {c : ServerConfig} {x : ConnExt} {ext : Ext} {flags : HookFlags} {ticks : List HookTick}
  {f f' : Front} {log e : List HookedEvent}

/-! ## Examples -/

/-- To evaluate an example. -/
theorem hooked_of {α : Type} (g : Front → List HookedEvent → α) {v : α}
    (h : (Front.hookRun flags c x ext {} ticks).map (fun r => g r.1 r.2) = some v) :
    ∃ f log, HookReaches flags c x ext ticks f log ∧ g f log = v := by
  cases hr : Front.hookRun flags c x ext {} ticks with
  | none => rw [hr] at h; cases h
  | some r =>
    rw [hr] at h
    simp only [Option.map_some, Option.some.injEq] at h
    exact ⟨r.1, r.2, hr, h⟩

def exCaller (level : Level) : ConnectPkt :=
  { level, clientId := str "c"
    will := some { topic := str "w", payload := [7], qos := 1, retain := false } }

def exCall (level : Level) : FrontAct := .hello (exCaller level) (str "u") (str "r") {} true

/-- The hook lets the first client in and turns the others away. -/
def exDoor : List HookTick :=
  [{ act := exCall .v500 },
   { act := exCall .v500, before := some .quotaExceeded },
   { act := exCall .v311, before := some .notAuthorized },
   { act := exCall .v500, before := none }]

/-- A client connects, its connection breaks down and its session ends. -/
def exVisit : List HookTick :=
  [{ act := exCall .v311 }, { act := .act (.lose 0) }, { act := .act (.close 0 {} []) },
   { act := .act (.finish 0) }]

/-! ## C87 -/

/-- Every CONNECT is shown to the hook, and the hook is asked in the order they come. -/
theorem C87_asked (hf : flags.beforeConnect = true) (h : HookReaches flags c x ext ticks f log) :
    shownToHook log = (connects ticks).zipIdx.map fun a => (a.2, a.1) := by
  rw [(hook_shown h).2, if_pos hf]

example : ∃ f log, HookReaches {} {} exConnExt exExt exDoor f log ∧
    shownToHook log = [(0, exCaller .v500), (1, exCaller .v500), (2, exCaller .v311),
      (3, exCaller .v500)] :=
  hooked_of (fun _ log => shownToHook log) (by decide +kernel)

/-- A connection is accepted only if the hook agreed to its CONNECT before. -/
theorem C87_gate (hf : flags.beforeConnect = true) {pre post : List HookedEvent} {t : TaskId}
    {present : Bool}
    (h : HookReaches flags c x ext ticks f (pre ++ .front (.event (.accepted t present)) :: post)) :
    ∃ k p, f.served k p t ∧ .called (.beforeConnect k p (some .success)) ∈ pre :=
  hook_served hf h

example : ∃ f log, HookReaches {} {} exConnExt exExt exDoor f log ∧
    acceptedAs 0 log = [false] :=
  hooked_of (fun _ log => acceptedAs 0 log) (by decide +kernel)

/-- A connection the hook does not agree to is never served; nothing is sent on it but, in MQTT 5,
one CONNACK with the reason code the hook chose. -/
theorem C87_partial {k : ConnId} {p : ConnectPkt} {answer : Option HookConnectCode}
    (h : HookReaches flags c x ext ticks f log) (ha : answer ≠ some .success)
    (hc : .called (.beforeConnect k p answer) ∈ log) :
    (∀ q t, ¬ f.served k q t) ∧ repliesOn k log = [] ∧
      (∀ code, p.level = .v500 → answer = some code → refusalsOn k log = [code.byte]) ∧
      (answer = none → refusalsOn k log = []) := by
  obtain ⟨_, hg⟩ := hook_gate h
  obtain ⟨h1, h2⟩ := hg.answered k p answer hc
  obtain ⟨⟨o, h3⟩, h4, h5⟩ := h2 ha
  refine ⟨?_, h4, ?_, ?_⟩
  · rintro q t ⟨o', final, h6⟩
    rw [h3] at h6
    cases h6
  · rintro code hl rfl
    rw [h5]
    simp [toldOf, hl, Level.proto]
  · rintro rfl
    rw [h5]
    unfold toldOf
    split
    · rename_i h; cases h
    · rfl

example : ∃ f log, HookReaches {} {} exConnExt exExt exDoor f log ∧
    (refusalsOn 1 log, refusalsOn 3 log, repliesOn 1 log) = ([0x97], [], []) :=
  hooked_of (fun _ log => (refusalsOn 1 log, refusalsOn 3 log, repliesOn 1 log)) (by decide +kernel)

/-- **C87, the codes of MQTT 5**: the client is told what the hook answered, with the number that MQTT
5 gives to it, which is one of an error exactly if the hook does not agree. -/
theorem C87_codes (code : HookConnectCode) :
    code.byte = mqtt5Code code ∧ (code.byte ≥ 128 ↔ code ≠ .success) := by
  cases code <;> decide

example : HookConnectCode.quotaExceeded.byte = 151 := rfl

/-- False: a client of MQTT 3 that the hook refuses is not told why. -/
theorem C87_false : ¬ ∀ (flags : HookFlags) (c : ServerConfig) (x : ConnExt) (ext : Ext)
    (ticks : List HookTick) (f : Front) (log : List HookedEvent) (k : ConnId) (p : ConnectPkt)
    (code : HookConnectCode), HookReaches flags c x ext ticks f log →
    .called (.beforeConnect k p (some code)) ∈ log → code ≠ .success →
    repliesOn k log ≠ [] ∨ refusalsOn k log ≠ [] := by
  intro h
  obtain ⟨f, log, hr, hv⟩ := hooked_of (flags := {}) (c := {}) (x := exConnExt) (ext := exExt)
    (ticks := exDoor)
    (fun _ log => ((log.filterMap fun e => match e with | .called c => some c | _ => none).contains
      (.beforeConnect 2 (exCaller .v311) (some .notAuthorized)), repliesOn 2 log, refusalsOn 2 log))
    (v := (true, [], [])) (by decide +kernel)
  simp only [Prod.mk.injEq, List.contains_iff_mem, List.mem_filterMap] at hv
  obtain ⟨⟨a, h1, h2⟩, h3, h4⟩ := hv
  have ha : a = .called (.beforeConnect 2 (exCaller .v311) (some .notAuthorized)) := by
    split at h2
    · cases h2; rfl
    · cases h2
  subst ha
  rcases h _ _ _ _ _ _ _ _ _ _ hr h1 (by simp) with g | g
  · exact g h3
  · exact g h4

/-! ## C88 -/

/-- The hooks hear of a connection at most twice: when it is accepted, with the session-present flag
of its CONNACK, and then when it is over.  They do not hear of a connection that is not accepted. -/
theorem C88_order (h1 : flags.beforeConnect = true) (h2 : flags.afterDisconnect = true)
    (h : HookReaches flags c x ext ticks f log) (t : TaskId) :
    (acceptedAs t log = [] ∧ callsOf t log = []) ∨ ∃ p, acceptedAs t log = [p] ∧
      (callsOf t log = [.afterConnect t p] ∨
        ∃ b, callsOf t log = [.afterConnect t p, .afterDisconnect t b]) := by
  have ht := (hook_told h).2 t
  generalize (Tasks.life f.world.tasks t).cls = k at ht
  simp only [HeardOf, saysConnect, saysBye, h1, h2, if_true] at ht
  cases k with
  | before => exact .inl ht
  | on => obtain ⟨p, g1, g2⟩ := ht; exact .inr ⟨p, g1, .inl g2⟩
  | past => obtain ⟨p, g1, g2⟩ := ht; exact .inr ⟨p, g1, .inr ⟨_, g2⟩⟩
  | gone =>
    rcases ht with ht | ⟨p, g1, g2, _⟩ | ⟨p, b, g1, g2⟩
    · exact .inl ht
    · exact .inr ⟨p, g1, .inl g2⟩
    · exact .inr ⟨p, g1, .inr ⟨b, g2⟩⟩

example : ∃ f log, HookReaches {} {} exConnExt exExt exVisit f log ∧
    (acceptedAs 0 log, callsOf 0 log) =
      ([false], [.afterConnect 0 false, .afterDisconnect 0 false]) :=
  hooked_of (fun _ log => (acceptedAs 0 log, callsOf 0 log)) (by decide +kernel)

theorem cls_online (w : World) (t : TaskId) :
    (Tasks.life w.tasks t).cls = .on ↔ w.onlineSession t ≠ none := by
  unfold Tasks.life World.onlineSession
  cases hx : FMap.get w.tasks t with
  | none => simp [Life.cls]
  | some y => cases hst : y.stage <;> simp [hst, Stage.life, Life.cls]

/-- If the hook after a connection never fails and what follows it can always be written, the hooks
hear of every connection that is accepted and, once it is over, of its end. -/
theorem C88_partial (h1 : flags.beforeConnect = true) (h2 : flags.afterDisconnect = true)
    (h : HookReaches flags c x ext ticks f log) (hg : ∀ a ∈ ticks, a.Goes) {t : TaskId} {p : Bool}
    (ha : .front (.event (.accepted t p)) ∈ log) :
    (f.world.onlineSession t ≠ none → callsOf t log = [.afterConnect t p]) ∧
    (f.world.onlineSession t = none →
      ∃ b, callsOf t log = [.afterConnect t p, .afterDisconnect t b]) := by
  have ht := (hook_told h).2 t
  have hacc : p ∈ acceptedAs t log := by
    unfold acceptedAs
    rw [List.mem_filterMap]
    exact ⟨_, ha, by simp⟩
  have hon := cls_online f.world t
  generalize (Tasks.life f.world.tasks t).cls = k at ht hon
  simp only [HeardOf, saysConnect, saysBye, h1, h2, if_true] at ht
  cases k with
  | before => rw [ht.1] at hacc; cases hacc
  | on =>
    obtain ⟨q, g1, g2⟩ := ht
    rw [g1] at hacc
    cases List.mem_singleton.1 hacc
    exact ⟨fun _ => g2, fun h => absurd h (hon.1 rfl)⟩
  | past =>
    obtain ⟨q, g1, g2⟩ := ht
    rw [g1] at hacc
    cases List.mem_singleton.1 hacc
    exact ⟨fun h => (by cases hon.2 h), fun _ => ⟨_, g2⟩⟩
  | gone =>
    refine ⟨fun h => (by cases hon.2 h), fun _ => ?_⟩
    rcases ht with ht | ⟨q, g1, g2, g3⟩ | ⟨q, b, g1, g2⟩
    · rw [ht.1] at hacc; cases hacc
    · exact absurd hg g3
    · rw [g1] at hacc
      cases List.mem_singleton.1 hacc
      exact ⟨b, g2⟩

example : (∀ a ∈ exVisit, a.Goes) ∧ ∃ f log, HookReaches {} {} exConnExt exExt exVisit f log ∧
    (acceptedAs 0 log, (f.world.onlineSession 0).isNone) = ([false], true) :=
  ⟨by simp [exVisit, HookTick.Goes],
   hooked_of (fun f log => (acceptedAs 0 log, (f.world.onlineSession 0).isNone)) (by decide +kernel)⟩

/-- The hook after a disconnect is told whether the session went to another connection. -/
theorem C88_taken (h : HookReaches flags c x ext ticks f log) {tick : HookTick}
    (hs : f.hookStep flags c x ext tick = some (f', e)) {t : TaskId} {b : Bool}
    (hc : .called (.afterDisconnect t b) ∈ e) :
    (b = true → HandedOver f.world f'.world t) ∧
    (b = false → tick.bye = true → f'.world.owned t ≠ none) := by
  have hb := (hook_gate h).1
  have hno : ∀ (l : List FrontEvent), .called (.afterDisconnect t b) ∉ l.map HookedEvent.front := by
    intro l hm; obtain ⟨v, _, h⟩ := List.mem_map.1 hm; cases h
  cases hcases hb hs with
  | away p uuid random env wr hact hf hno =>
    exfalso
    rcases List.mem_append.1 hc with hc | hc
    · simp [asking, hact, hf] at hc
    · unfold Front.turnAway at hc
      simp only at hc
      split at hc
      · cases List.mem_singleton.1 hc
      · cases hc
  | goes f1 f' rs evs l hok hs0 hrs hw hm =>
    rcases List.mem_append.1 hc with hc | hc
    · exfalso
      unfold asking at hc
      split at hc
      · split at hc
        · cases List.mem_singleton.1 hc
        · cases hc
      · cases hc
    · cases hm with
      | plain => exact absurd hc (hno _)
      | up t' p pre out req s time he hpre hold hnew hoth =>
        exfalso
        rcases List.mem_append.1 hc with hc | hc
        · rcases List.mem_append.1 hc with hc | hc
          · exact hno _ hc
          · unfold saysConnect at hc
            split at hc
            · cases List.mem_singleton.1 hc
            · cases hc
        · split at hc
          · cases hc
          · cases List.mem_singleton.1 hc
      | down t' a hact he h1 h2 hon =>
        rcases List.mem_append.1 hc with hc | hc
        · exact absurd hc (hno _)
        have htb : t' = t ∧ (Tasks.life f1.world.tasks t').over = b := by
          unfold saysBye at hc
          split at hc
          · cases List.mem_singleton.1 hc; exact ⟨rfl, rfl⟩
          · cases hc
        obtain ⟨rfl, rfl⟩ := htb
        have hleft : ∃ cfg b', f.world.step cfg ext b' = some (f1.world, evs) := by
          rcases hw with ⟨hw, _⟩ | ⟨cfg, b', _, hstep, _⟩
          · rw [hw, h1] at h2; cases h2
          · exact ⟨cfg, b', hstep⟩
        obtain ⟨cfg, b', hstep⟩ := hleft
        obtain ⟨g1, g2⟩ := left_handed hb.own hstep h1 h2
        constructor
        · intro h
          rw [h]
          simpa using g1 h
        · intro h hbye
          rw [hbye]
          simpa using g2 h

/-- Another connection of the client takes the session over. -/
def exTakeover : List HookTick :=
  [{ act := .hello { exCaller .v500 with clean := false } (str "u") (str "r") {} true },
   { act := .hello { exCaller .v500 with clean := false } (str "u") (str "r") {} true },
   { act := .act (.control 0 {}) }, { act := .act (.accept 1 {} true) }]

example : ∃ f log, HookReaches {} {} exConnExt exExt exTakeover f log ∧
    (callsOf 0 log, callsOf 1 log) =
      ([.afterConnect 0 false, .afterDisconnect 0 true], [.afterConnect 1 true]) :=
  hooked_of (fun _ log => (callsOf 0 log, callsOf 1 log)) (by decide +kernel)

/-- The switch of the hook after a connection has no effect. -/
theorem C88_switch (b : Bool) (f : Front) :
    Front.hookRun { flags with afterConnect := b } c x ext f ticks =
      Front.hookRun flags c x ext f ticks := by
  induction ticks generalizing f with
  | nil => rfl
  | cons a as ih =>
    have hs : f.hookStep { flags with afterConnect := b } c x ext a =
        f.hookStep flags c x ext a := rfl
    simp only [Front.hookRun, hs]
    split
    · rfl
    · rw [ih]

/-- It is the switch of the hook before a connection that counts. -/
theorem C88_silent (hf : flags.beforeConnect = false) (h : HookReaches flags c x ext ticks f log)
    (t : TaskId) (p : Bool) : .afterConnect t p ∉ callsOf t log := by
  have ht := (hook_told h).2 t
  generalize (Tasks.life f.world.tasks t).cls = k at ht
  simp only [HeardOf, saysConnect, hf, Bool.false_eq_true, if_false, List.nil_append] at ht
  have hbye : ∀ b, .afterConnect t p ∉ saysBye flags t b := by
    intro b hm
    unfold saysBye at hm
    split at hm
    · cases List.mem_singleton.1 hm
    · cases hm
  cases k with
  | before => rw [ht.2]; simp
  | on => obtain ⟨q, _, g⟩ := ht; rw [g]; simp
  | past => obtain ⟨q, _, g⟩ := ht; rw [g]; exact hbye _
  | gone =>
    rcases ht with ht | ⟨q, _, g, _⟩ | ⟨q, b, _, g⟩
    · rw [ht.2]; simp
    · rw [g]; simp
    · rw [g]; exact hbye _

/-- False: a hook after a connection that is switched off is called, and one that is switched on is
not. -/
theorem C88_false :
    (∃ f log, HookReaches { afterConnect := false } {} exConnExt exExt exVisit f log ∧
      callsOf 0 log = [.afterConnect 0 false, .afterDisconnect 0 false]) ∧
    ∃ f log, HookReaches { beforeConnect := false } {} exConnExt exExt exVisit f log ∧
      callsOf 0 log = [.afterDisconnect 0 false] :=
  ⟨hooked_of (fun _ log => callsOf 0 log) (by decide +kernel),
   hooked_of (fun _ log => callsOf 0 log) (by decide +kernel)⟩

/-- False: if what follows CONNACK cannot be written, the hooks hear of the connection but never of
its end. -/
theorem C88_unpaired_false :
    ∃ f log, HookReaches {} {} exConnExt exExt [{ act := exCall .v311, written := false }] f log ∧
      callsOf 0 log = [.afterConnect 0 false] ∧ f.world.stopped 0 := by
  obtain ⟨f, log, h1, h2⟩ := hooked_of (flags := {}) (c := {}) (x := exConnExt) (ext := exExt)
    (ticks := [{ act := exCall .v311, written := false }])
    (fun f log => (callsOf 0 log, f.world.isGone 0))
    (v := ([.afterConnect 0 false], true)) (by decide +kernel)
  simp only [Prod.mk.injEq] at h2
  refine ⟨f, log, h1, h2.1, ?_⟩
  have h3 := h2.2
  unfold World.isGone at h3
  cases hx : f.world.tasks.get 0 with
  | none => rw [hx] at h3; cases h3
  | some y =>
    rw [hx] at h3
    refine ⟨y, hx, ?_⟩
    cases hst : y.stage <;> simp [hst] at h3
    rfl

/-! ## C89 -/

/-- The hook after a connection fails (or what follows cannot be written): nobody can connect with
this client identifier any more. -/
theorem C89_locked_connect (h : HookReaches flags c x ext ticks f log) {tick : HookTick}
    (hs : f.hookStep flags c x ext tick = some (f', e)) {t : TaskId} {p : Bool}
    (hc : .front (.event (.accepted t p)) ∈ e)
    (hfail : (flags.beforeConnect = true ∧ tick.after = false) ∨ tick.written = false) :
    ∃ req, f'.world.request t = some req ∧
      f'.HookLockedOut flags c x ext req.identifier ∧
      ∀ ticks' f'' log', Front.hookRun flags c x ext f' ticks' = some (f'', log') →
        hookedWills t log' = [] := by
  have hb := (hook_gate h).1
  have hb' := hook_broker hb hs
  cases hcases hb hs with
  | away q uuid random env wr hact hf hno =>
    exfalso
    rcases List.mem_append.1 hc with hc | hc
    · exact accepted_asking hc
    · exact accepted_turned hc
  | goes f1 f' rs evs l hok hs0 hrs hw hm =>
    have hc : .front (.event (.accepted t p)) ∈ l := by
      rcases List.mem_append.1 hc with hc | hc
      · exact absurd hc accepted_asking
      · exact hc
    have hev := mem_moves hrs hm hc
    have hb1 : BrokerInv f1.world := by
      rcases hw with ⟨hw, _⟩ | ⟨cfg, b, _, hstep, _⟩
      · rw [hw]; exact hb
      · exact hb.step hstep
    cases hm with
    | plain he => exact absurd hev (he t p)
    | down t' a hact he => exact absurd hev (he t p)
    | up t' p' pre out req s time he hpre hold hnew hoth =>
      have ht : t' = t := by
        rw [he] at hev
        rcases hpre with rfl | ⟨old, rfl⟩ <;> simp at hev <;> exact hev.1.symm
      subst ht
      have hfails : tick.fails flags = true := by
        unfold HookTick.fails
        rcases hfail with ⟨g1, g2⟩ | g
        · simp [g1, g2]
        · simp [g]
      rw [hfails] at hb' ⊢
      simp only [if_true] at hb' ⊢
      obtain ⟨g1, g2⟩ := vanish_makes_dead hb1 hnew (.inl rfl)
      refine ⟨req, ?_, dead_hookLocked hb' g1, fun _ _ _ hr => gone_no_will hb' g2 hr⟩
      show (f1.world.vanish t').request t' = some req
      rw [vanish_request]
      simp [World.request, hnew]

/-- The hook after a disconnect fails and the session was not handed over: nobody can connect with
this client identifier any more, and the will is never published. -/
theorem C89_locked_disconnect (h : HookReaches flags c x ext ticks f log) {tick : HookTick}
    (hs : f.hookStep flags c x ext tick = some (f', e)) {t : TaskId}
    (hc : .called (.afterDisconnect t false) ∈ e) (hfail : tick.bye = false) :
    ∃ req, f'.world.request t = some req ∧
      f'.HookLockedOut flags c x ext req.identifier ∧
      ∀ ticks' f'' log', Front.hookRun flags c x ext f' ticks' = some (f'', log') →
        hookedWills t log' = [] := by
  have hb := (hook_gate h).1
  have hb' := hook_broker hb hs
  have hno : ∀ (l : List FrontEvent),
      .called (.afterDisconnect t false) ∉ l.map HookedEvent.front := by
    intro l hm; obtain ⟨v, _, h⟩ := List.mem_map.1 hm; cases h
  cases hcases hb hs with
  | away p uuid random env wr hact hf hno =>
    exfalso
    rcases List.mem_append.1 hc with hc | hc
    · simp [asking, hact, hf] at hc
    · unfold Front.turnAway at hc
      simp only at hc
      split at hc
      · cases List.mem_singleton.1 hc
      · cases hc
  | goes f1 f' rs evs l hok hs0 hrs hw hm =>
    rcases List.mem_append.1 hc with hc | hc
    · exfalso
      unfold asking at hc
      split at hc
      · split at hc
        · cases List.mem_singleton.1 hc
        · cases hc
      · cases hc
    · cases hm with
      | plain => exact absurd hc (hno _)
      | up t' p pre out req s time he hpre hold hnew hoth =>
        exfalso
        rcases List.mem_append.1 hc with hc | hc
        · rcases List.mem_append.1 hc with hc | hc
          · exact hno _ hc
          · unfold saysConnect at hc
            split at hc
            · cases List.mem_singleton.1 hc
            · cases hc
        · split at hc
          · cases hc
          · cases List.mem_singleton.1 hc
      | down t' a hact he h1 h2 hon =>
        rcases List.mem_append.1 hc with hc | hc
        · exact absurd hc (hno _)
        have htb : flags.afterDisconnect = true ∧ t' = t ∧
            (Tasks.life f1.world.tasks t').over = false := by
          unfold saysBye at hc
          split at hc
          · rename_i hd
            have := List.mem_singleton.1 hc
            simp only [HookedEvent.called.injEq, HookCall.afterDisconnect.injEq] at this
            exact ⟨hd, this.1.symm, this.2.symm⟩
          · cases hc
        obtain ⟨hd, rfl, hover⟩ := htb
        have hleft : ∃ cfg b', f.world.step cfg ext b' = some (f1.world, evs) := by
          rcases hw with ⟨hw, _⟩ | ⟨cfg, b', _, hstep, _⟩
          · rw [hw, h1] at h2; cases h2
          · exact ⟨cfg, b', hstep⟩
        obtain ⟨cfg, b', hstep⟩ := hleft
        obtain ⟨y, s, hy, hst⟩ := left_closed hb.own hstep h1 h2 hover
        have hb1 := hb.step hstep
        simp only [hd, hfail, hover, Bool.not_false, Bool.and_self, if_true] at hb' ⊢
        obtain ⟨g1, g2⟩ := vanish_makes_dead hb1 hy (.inr hst)
        refine ⟨y.req, ?_, dead_hookLocked hb' g1, fun _ _ _ hr => gone_no_will hb' g2 hr⟩
        rw [vanish_request]
        simp [World.request, hy]

/-- False: a client whose hook failed once cannot connect again.  Here the hook after a disconnect
fails, the will is lost, and the second CONNECT of the client gets no answer. -/
theorem C89_false :
    (∃ f log, HookReaches {} {} exConnExt exExt
        (exVisit ++ [{ act := exCall .v311 }]) f log ∧
      (hookedWills 0 log).length = 1 ∧ acceptedAs 1 log = [false]) ∧
    ∃ f log, HookReaches {} {} exConnExt exExt
        ([{ act := exCall .v311 }, { act := .act (.lose 0), bye := false },
          { act := .act (.close 0 {} []) }, { act := .act (.finish 0) }] ++
          [{ act := exCall .v311 }]) f log ∧
      hookedWills 0 log = [] ∧ acceptedAs 1 log = [] ∧
      f.HookLockedOut {} {} exConnExt exExt (str "c") := by
  refine ⟨?_, ?_⟩
  · obtain ⟨f, log, h1, h2⟩ := hooked_of (flags := {}) (c := {}) (x := exConnExt) (ext := exExt)
      (ticks := exVisit ++ [{ act := exCall .v311 }])
      (fun _ log => ((hookedWills 0 log).length, acceptedAs 1 log)) (v := (1, [false]))
      (by decide +kernel)
    simp only [Prod.mk.injEq] at h2
    exact ⟨f, log, h1, h2⟩
  · obtain ⟨f, log, h1, h2⟩ := hooked_of (flags := {}) (c := {}) (x := exConnExt) (ext := exExt)
      (ticks := [{ act := exCall .v311 }, { act := .act (.lose 0), bye := false },
          { act := .act (.close 0 {} []) }, { act := .act (.finish 0) }] ++
          [{ act := exCall .v311 }])
      (fun f log => ((hookedWills 0 log).length, acceptedAs 1 log,
        f.world.registry.identMap.get (str "c"), f.world.inbox.contains 0))
      (v := (0, [], some 0, false)) (by decide +kernel)
    simp only [Prod.mk.injEq, List.length_eq_zero_iff] at h2
    exact ⟨f, log, h1, h2.1, h2.2.1, dead_hookLocked (hook_gate h1).1 ⟨h2.2.2.1, h2.2.2.2⟩⟩

/-- What a failing hook costs besides: nothing.  A connection refused by the hook before a connection
leaves the broker as it was; a failure of another hook takes from the broker, compared with the step
without hooks, only the session and the queues of the client itself. -/
theorem C89_partial (h : HookReaches flags c x ext ticks f log) {tick : HookTick}
    (hs : f.hookStep flags c x ext tick = some (f', e)) :
    (tick.before ≠ some .success ∧ f'.world = f.world) ∨
    ∃ f1 fevs, f.step c x ext tick.act = some (f1, fevs) ∧ (f'.world = f1.world ∨
      ∃ t s, f1.world.owned t = some s ∧ f1.world.LosesOnly f'.world t s.clientId ∧
        ((∃ p, .front (.event (.accepted t p)) ∈ e ∧ ¬ tick.Goes) ∨
          (.called (.afterDisconnect t false) ∈ e ∧ tick.bye = false))) := by
  have hb := (hook_gate h).1
  cases hcases hb hs with
  | away p uuid random env wr hact hf hno => exact .inl ⟨hno, rfl⟩
  | goes f1 f' rs evs l hok hs0 hrs hw hm =>
    refine .inr ⟨f1, _, hs0, ?_⟩
    cases hm with
    | plain => exact .inl rfl
    | up t p pre out req s time he hpre hold hnew hoth =>
      cases hfails : tick.fails flags with
      | false => exact .inl rfl
      | true =>
        refine .inr ⟨t, s, by simp [World.owned, hnew], vanish_loses _ hnew (.inl rfl),
          .inl ⟨p, by simp, ?_⟩⟩
        rintro ⟨g1, g2⟩
        simp [HookTick.fails, g1, g2] at hfails
    | down t a hact he h1 h2 hon =>
      cases hcond : flags.afterDisconnect && (!tick.bye && !(Tasks.life f1.world.tasks t).over) with
      | false => exact .inl rfl
      | true =>
        simp only [Bool.and_eq_true, Bool.not_eq_true'] at hcond
        obtain ⟨c1, c2, c3⟩ := hcond
        have hleft : ∃ cfg b', f.world.step cfg ext b' = some (f1.world, evs) := by
          rcases hw with ⟨hw, _⟩ | ⟨cfg, b', _, hstep, _⟩
          · rw [hw, h1] at h2; cases h2
          · exact ⟨cfg, b', hstep⟩
        obtain ⟨cfg, b', hstep⟩ := hleft
        obtain ⟨y, s, hy, hst⟩ := left_closed hb.own hstep h1 h2 c3
        exact .inr ⟨t, s, by simp [World.owned, hy, hst], vanish_loses _ hy (.inr hst),
          .inr ⟨by simp [saysBye, c1, c3], c2⟩⟩

/-- Two clients are online; the hook fails when one of them leaves. -/
example : ∃ f log, HookReaches {} {} exConnExt exExt
    [{ act := exCall .v311 },
     { act := .hello { exCaller .v500 with clientId := str "d" } (str "u") (str "r") {} true },
     { act := .act (.lose 0), bye := false }] f log ∧
    (f.world.isGone 0, f.world.isOnline 1, f.world.inbox.contains 0, f.world.inbox.contains 1) =
      (true, true, false, true) :=
  hooked_of (fun f _ => (f.world.isGone 0, f.world.isOnline 1, f.world.inbox.contains 0,
    f.world.inbox.contains 1)) (by decide +kernel)

/-! ## C90 -/

/-- Hooks that agree to everything and never fail do not change what the broker does: the same state
is reached and the same things happen in the same order as without hooks, and where the broker without
hooks does not panic, the broker with hooks does not. -/
theorem C90_transparent (ha : ∀ a ∈ ticks, HookTick.Agrees a) :
    (Front.hookRun flags c x ext {} ticks).map (fun r => (r.1, frontEvents r.2)) =
      Front.run c x ext {} (ticks.map (·.act)) :=
  agreed_run ha .init

/-- So what is known of the broker holds with such hooks, and the hooks only add calls. -/
theorem C90_reaches (ha : ∀ a ∈ ticks, HookTick.Agrees a)
    (h : HookReaches flags c x ext ticks f log) :
    FrontReaches c x ext (ticks.map (·.act)) f (frontEvents log) ∧
      ∀ k, refusalsOn k log = [] := by
  have hrun : FrontReaches c x ext (ticks.map (·.act)) f (frontEvents log) := by
    have := C90_transparent (flags := flags) (c := c) (x := x) (ext := ext) ha
    unfold HookReaches at h
    rw [h] at this
    exact this.symm
  refine ⟨hrun, fun k => ?_⟩
  refine (hook_induction (f0 := {}) (P := fun ticks f log => BrokerInv f.world ∧
    ((∀ a ∈ ticks, HookTick.Agrees a) → refusalsOn k log = [])) ⟨.init, fun _ => rfl⟩ ?_ h).2 ha
  rintro ticks f log a f' e ⟨hb, ih⟩ hs
  refine ⟨hook_broker hb hs, fun ha => ?_⟩
  rw [refusalsOn_append, ih fun b hb => ha b (by simp [hb]), List.nil_append]
  cases hcases hb hs with
  | away p uuid random env wr hact hf hno => exact absurd (ha a (by simp)).1 hno
  | goes f1 f' rs evs l hok hs0 hrs hw hm =>
    rw [refusalsOn_append, (asking_silent ..).2, (hm.silent k).1]
    rfl

example : (∀ a ∈ exTakeover, a.Agrees) ∧
    ∃ f log, HookReaches {} {} exConnExt exExt exTakeover f log ∧
      acceptedAs 1 log = [true] :=
  ⟨by simp [exTakeover, HookTick.Agrees],
   hooked_of (fun _ log => acceptedAs 1 log) (by decide +kernel)⟩

end Akasa
