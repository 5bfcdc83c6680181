import Verif.Model.HookConnect
import Verif.Props.Hook
/-!
# C108: what the hook after a connection asks for

For every session, state of the broker, and answer of the hook.
-/
namespace Akasa

variable {cfg : Config} {ext : HookExt} {pr : Proto} {env : Nat → Env} {clk : Clock} {g : Global}
  {s : Session} {meanwhile : Global → Global} {as : List HookAction} {r : Res}

/-- The session without its subscriptions and the copies for other clients. -/
def Session.besides (s : Session) : Session := { s with subscribes := [], bcast := [], bcastCnt := 0 }

/-- The action is a subscription. -/
def HookAction.subscribes : HookAction → Bool
  | .subscribe _ => true
  | _ => false

theorem besides_push (registered : ClientId → Bool) (copies : List (ClientId × NormalMsg))
    (s : Session) : (s.pushCopies registered copies).besides = s.besides := by
  unfold Session.pushCopies
  have key : ∀ (l : List (ClientId × NormalMsg)) (s : Session),
      (l.foldl (fun s c => s.pushCopy registered c.1 c.2) s).besides = s.besides := by
    intro l
    induction l with
    | nil => intro s; rfl
    | cons c l ih =>
      intro s
      rw [List.foldl_cons, ih]
      unfold Session.pushCopy
      split
      · rfl
      · split <;> rfl
  rw [key]
  rfl

theorem besides_subscribe {env : Env} {topics : List (Str × QoS)} {i : Nat}
    {r : Session × Global × List OutPkt × List Reason}
    (h : subscribeLoopV5 cfg env none i g s
      (topics.map fun t => (t.1, { maxQos := t.2, retainHandling := .doNotSend })) = some r) :
    r.1.besides = s.besides := by
  induction topics generalizing i g s r with
  | nil => cases h; rfl
  | cons t ts ih =>
    rw [List.map_cons] at h
    unfold subscribeLoopV5 at h
    split at h
    · split at h
      · cases h
      · rename_i s1 g1 out hacc
        rw [Option.map_eq_some_iff] at h
        obtain ⟨r', h, rfl⟩ := h
        refine (ih h).trans ?_
        unfold acceptV5 at hacc
        simp only at hacc
        split at hacc
        · cases hacc
        · rw [if_neg (by simp [sendsRetained])] at hacc
          cases hacc
          rfl
    · rw [Option.map_eq_some_iff] at h
      obtain ⟨r', h, rfl⟩ := h
      exact ih (r := r') h

theorem besides_unsubscribe {topics : List Str} {pid : Pid} {r : Res} :
    (handleUnsubscribeV3 g s pid topics = some r → r.session.besides = s.besides) ∧
    (handleUnsubscribeV5 g s pid topics = some r → r.session.besides = s.besides) := by
  unfold handleUnsubscribeV3 handleUnsubscribeV5
  constructor
  · intro h
    rw [Option.map_eq_some_iff] at h
    obtain ⟨r', h, rfl⟩ := h
    show r'.1.besides = _
    induction topics generalizing g s r' with
    | nil => cases h; rfl
    | cons t ts ih =>
      unfold unsubscribeLoopV3 at h
      split at h
      · cases h
      · exact (ih _ h).trans rfl
  · intro h
    rw [Option.map_eq_some_iff] at h
    obtain ⟨r', h, rfl⟩ := h
    show r'.1.besides = _
    induction topics generalizing g s r' with
    | nil => cases h; rfl
    | cons t ts ih =>
      unfold unsubscribeLoopV5 at h
      split at h
      · cases h
      · rw [Option.map_eq_some_iff] at h
        obtain ⟨r2, h, rfl⟩ := h
        exact (ih _ h).trans rfl

theorem besides_action {env : Env} {a : HookAction} (hp : pr = .v5 ∨ a.subscribes = false)
    (h : applyAction cfg ext pr env g s a = some r) : r.session.besides = s.besides := by
  unfold applyAction at h
  cases a with
  | publish a =>
    simp only at h
    split at h
    · cases pr with
      | v3 =>
        simp only [Option.map_eq_some_iff] at h
        obtain ⟨r', h, rfl⟩ := h
        unfold sendPublishV3 at h
        simp only at h
        split at h
        · cases h
        · cases h; exact besides_push ..
      | v5 =>
        simp only [Option.map_eq_some_iff] at h
        obtain ⟨r', h, rfl⟩ := h
        unfold sendPublishV5 at h
        simp only at h
        split at h
        · cases h
        · cases h; exact besides_push ..
    · cases h; rfl
  | subscribe topics =>
    rcases hp with rfl | hp
    · simp only [Option.map_eq_some_iff] at h
      obtain ⟨r', h, rfl⟩ := h
      unfold handleSubscribeV5 at h
      rw [if_neg (by simp), if_neg (by simp), Option.map_eq_some_iff] at h
      obtain ⟨r1, h, rfl⟩ := h
      exact besides_subscribe h
    · cases hp
  | unsubscribe topics =>
    cases pr with
    | v3 =>
      simp only [Option.map_eq_some_iff] at h
      obtain ⟨r', h, rfl⟩ := h
      exact (besides_unsubscribe (r := r')).1 h
    | v5 =>
      simp only [Option.map_eq_some_iff] at h
      obtain ⟨r', h, rfl⟩ := h
      exact (besides_unsubscribe (r := r')).2 h

theorem besides_actions {i : Nat} (hp : pr = .v5 ∨ ∀ a ∈ as, a.subscribes = false)
    (h : applyActions cfg ext pr env i g s as = some r) : r.session.besides = s.besides := by
  induction as generalizing i g s r with
  | nil => cases h; rfl
  | cons a as ih =>
    unfold applyActions at h
    split at h
    · cases h
    · rename_i r1 h1
      have h2 := besides_action (hp.imp_right fun h => h a (by simp)) h1
      split at h
      · cases h; exact h2
      · rw [Option.map_eq_some_iff] at h
        obtain ⟨r2, h, rfl⟩ := h
        exact (ih (hp.imp_right fun h b hb => h b (by simp [hb])) h).trans h2

/-- What is sent next, and what it does to the session, have nothing to do with the subscriptions and
the copies for others. -/
theorem after_besides (pr : Proto) (clk : Clock) (s : Session) :
    (afterPacket pr clk s).2 = (afterPacket pr clk s.besides).2 ∧
    (afterPacket pr clk s).1.besides = (afterPacket pr clk s.besides).1 := by
  cases pr with
  | v3 => exact ⟨rfl, rfl⟩
  | v5 =>
    have hd : s.besides.disconnected = s.disconnected := rfl
    unfold afterPacket
    simp only [hd]
    split <;> exact ⟨rfl, rfl⟩

/-- What an action makes of the state it finds: the `i`-th action of the hook. -/
abbrev Does (cfg : Config) (ext : HookExt) (pr : Proto) (env : Nat → Env) :
    Nat → Global → Session → HookAction → Option Res :=
  fun i g s a => applyAction cfg ext pr (env i) g s a

/-- **C108, nothing asked for.**  If the hook asks for nothing, or is not called, the client is served
as if there were no hook. -/
theorem C108_silent (called : Bool) :
    afterConnectHook cfg ext pr called env (some []) id clk g s =
      some { session := (afterPacket pr clk s).1, global := g, out := (afterPacket pr clk s).2 } := by
  cases called <;> rfl

/-- **C108, in order.**  What the hook asks for is done one by one, in order, before anything is sent to
the client; all messages that it publishes are passed on.  (That each action is like one of the client
is C70.) -/
theorem C108_order
    (h : afterConnectHook cfg ext pr true env (some as) meanwhile clk g s = some r) :
    ∃ r0, OneByOne (Does cfg ext pr env) 0 (meanwhile g) s as r0 ∧ r.closed = r0.closed ∧
      r.global = r0.global ∧ r.routed = r0.routed ∧
      (r.closed = false → r.session = (afterPacket pr clk r0.session).1 ∧
        r.out = (afterPacket pr clk r0.session).2) := by
  unfold afterConnectHook at h
  simp only [if_true] at h
  split at h
  · cases h
  · rename_i r0 h0
    refine ⟨r0, C70_in_order h0, ?_⟩
    split at h
    · rename_i hc
      cases h
      exact ⟨rfl, rfl, rfl, fun hf => by rw [hc] at hf; cases hf⟩
    · cases h
      exact ⟨rfl, rfl, rfl, fun _ => ⟨rfl, rfl⟩⟩

/-- The full claim: whatever the hook asks for, the client is sent what it would be sent without the
hook. -/
def SentAsWithout (pr : Proto) : Prop :=
  ∀ (cfg : Config) (ext : HookExt) (env : Nat → Env) (as : List HookAction)
    (meanwhile : Global → Global) (clk : Clock) (g : Global) (s : Session) (r : Res),
    afterConnectHook cfg ext pr true env (some as) meanwhile clk g s = some r → r.closed = false →
      r.out = (afterPacket pr clk s).2

/-- **C108, the client, partial.**  In MQTT 5, and in MQTT 3 if the hook asks for no subscription:
whatever it asks for, if the connection goes on then the client is sent what it would be sent without
the hook, and its session is what it would be but for the subscriptions and the copies for other
clients.  Missing: subscriptions in MQTT 3 (`C108_false`). -/
theorem C108_sent_partial (hp : pr = .v5 ∨ ∀ a ∈ as, a.subscribes = false)
    (h : afterConnectHook cfg ext pr true env (some as) meanwhile clk g s = some r)
    (hc : r.closed = false) :
    r.out = (afterPacket pr clk s).2 ∧
      r.session.besides = (afterPacket pr clk s).1.besides := by
  unfold afterConnectHook at h
  simp only [if_true] at h
  split at h
  · cases h
  · rename_i r0 h0
    have hb := besides_actions hp h0
    split at h
    · rename_i hcl
      cases h
      rw [hcl] at hc; cases hc
    · cases h
      refine ⟨?_, ?_⟩
      · show (afterPacket pr clk r0.session).2 = _
        rw [(after_besides pr clk r0.session).1, hb, ← (after_besides pr clk s).1]
      · show (afterPacket pr clk r0.session).1.besides = _
        rw [(after_besides pr clk r0.session).2, hb, ← (after_besides pr clk s).2]

/-- **C108, MQTT 5.**  The full claim. -/
theorem C108_v5 : SentAsWithout .v5 :=
  fun _ _ _ _ _ _ _ _ _ h hc => (C108_sent_partial (.inl rfl) h hc).1

/-- What the handlers of an action want to send is dropped. -/
theorem out_action {env : Env} {a : HookAction} (h : applyAction cfg ext pr env g s a = some r) :
    r.out = [] := by
  unfold applyAction at h
  cases a with
  | publish a =>
    simp only at h
    split at h
    · cases pr <;> (simp only [Option.map_eq_some_iff] at h; obtain ⟨_, _, rfl⟩ := h; rfl)
    · cases h; rfl
  | subscribe topics =>
    cases pr <;> (simp only [Option.map_eq_some_iff] at h; obtain ⟨_, _, rfl⟩ := h; rfl)
  | unsubscribe topics =>
    cases pr <;> (simp only [Option.map_eq_some_iff] at h; obtain ⟨_, _, rfl⟩ := h; rfl)

theorem out_actions {i : Nat} (h : applyActions cfg ext pr env i g s as = some r) : r.out = [] := by
  induction as generalizing i g s r with
  | nil => cases h; rfl
  | cons a as ih =>
    unfold applyActions at h
    split at h
    · cases h
    · rename_i r1 h1
      split at h
      · cases h; exact out_action h1
      · rw [Option.map_eq_some_iff] at h
        obtain ⟨r2, h, rfl⟩ := h
        exact ih (r := r2) h

/-- **C108, failures.**  The connection ends exactly if the hook fails or publishes a message that no
packet can hold, and then the client is sent nothing more.  If the hook fails, neither the session nor
the state of the broker is touched. -/
theorem C108_failed {answer : Option (List HookAction)}
    (h : afterConnectHook cfg ext pr true env answer meanwhile clk g s = some r) :
    (r.closed = true ↔ answer = none ∨
      ∃ as a, answer = some as ∧ .publish a ∈ as ∧ ext.fits (a.packet pr) = false) ∧
    (r.closed = true → r.out = []) ∧
    (answer = none → r.session = s ∧ r.global = meanwhile g ∧ r.routed = []) := by
  have hact : ∀ {env : Env} {g : Global} {s : Session} {a : HookAction} {r : Res},
      applyAction cfg ext pr env g s a = some r →
      (r.closed = true ↔ ∃ b, a = .publish b ∧ ext.fits (b.packet pr) = false) := by
    intro env g s a r h
    unfold applyAction at h
    cases a with
    | publish a =>
      simp only at h
      split at h
      · rename_i hf
        have hc : r.closed = false := by
          cases pr <;> (simp only [Option.map_eq_some_iff] at h; obtain ⟨_, _, rfl⟩ := h; rfl)
        simp [hc, hf]
      · rename_i hf
        cases h
        simpa using hf
    | subscribe topics =>
      have hc : r.closed = false := by
        cases pr <;> (simp only [Option.map_eq_some_iff] at h; obtain ⟨_, _, rfl⟩ := h; rfl)
      simp [hc]
    | unsubscribe topics =>
      have hc : r.closed = false := by
        cases pr <;> (simp only [Option.map_eq_some_iff] at h; obtain ⟨_, _, rfl⟩ := h; rfl)
      simp [hc]
  have hacts : ∀ {as : List HookAction} {i : Nat} {g : Global} {s : Session} {r : Res},
      applyActions cfg ext pr env i g s as = some r →
      (r.closed = true ↔ ∃ a, .publish a ∈ as ∧ ext.fits (a.packet pr) = false) := by
    intro as
    induction as with
    | nil => intro i g s r h; cases h; simp
    | cons b as ih =>
      intro i g s r h
      unfold applyActions at h
      split at h
      · cases h
      · rename_i r1 h1
        have h2 := hact h1
        split at h
        · rename_i hc
          cases h
          obtain ⟨b', rfl, hb⟩ := h2.1 hc
          exact ⟨fun _ => ⟨b', by simp, hb⟩, fun _ => hc⟩
        · rename_i hc
          rw [Option.map_eq_some_iff] at h
          obtain ⟨r2, h, rfl⟩ := h
          refine (ih h).trans ⟨fun ⟨a, ha, hf⟩ => ⟨a, by simp [ha], hf⟩, fun ⟨a, ha, hf⟩ => ?_⟩
          rcases List.mem_cons.1 ha with rfl | ha
          · exact absurd (h2.2 ⟨a, rfl, hf⟩) hc
          · exact ⟨a, ha, hf⟩
  unfold afterConnectHook at h
  simp only [if_true] at h
  cases answer with
  | none => cases h; exact ⟨by simp, fun _ => rfl, fun _ => ⟨rfl, rfl, rfl⟩⟩
  | some as =>
    simp only at h
    split at h
    · cases h
    · rename_i r0 h0
      have h1 := hacts h0
      split at h
      · rename_i hc
        cases h
        exact ⟨by simpa using h1, fun _ => out_actions h0, fun hn => by cases hn⟩
      · rename_i hc
        cases h
        exact ⟨by simpa using h1, fun hcl => absurd hcl hc, fun hn => by cases hn⟩

/-- The hook publishes, subscribes and unsubscribes for a client for which a message waits. -/
example : ∃ r, afterConnectHook {} exHookExt .v5 true (fun _ => {})
      (some [.subscribe [(str "+", 1)], .unsubscribe [str "x"]]) id (Clock.const 100) exKept
      ((exPeer .v5).session.enqueue 1 { topic := str "t", qos := 1, retain := false, payload := [7] }) =
      some r ∧ r.closed = false ∧ r.session.subscribes.keys = [str "+"] ∧ r.out.length = 1 :=
  ⟨_, rfl, rfl, rfl, rfl⟩

/-- The second message is too large: nothing is sent, the first one was passed on. -/
example : ∃ r, afterConnectHook {} { exHookExt with fits := fun p => p.payload.isEmpty } .v5 true
      (fun _ => {}) (some [.publish { retain := false, qos := 0, topic := str "a", payload := [] },
        .publish { retain := false, qos := 0, topic := str "a", payload := [1] }]) id (Clock.const 100)
      exKept (exPeer .v5).session = some r ∧ r.closed = true ∧ r.out = [] :=
  ⟨_, rfl, rfl, rfl⟩

/-- False of the code for MQTT 3: for a subscription that the hook asks for the client is sent the
retained messages with QoS 1 and 2, although the documentation of the action says that it is not. -/
theorem C108_false : ¬ SentAsWithout .v3 := by
  intro h
  have h1 : ∃ r, afterConnectHook {} exHookExt .v3 true (fun _ => {})
      (some [.subscribe [(str "+", 1)]]) id (Clock.const 100) exKept (exPeer .v3).session = some r ∧
      r.closed = false ∧ r.out.length = 1 ∧
      (afterPacket .v3 (Clock.const 100) (exPeer .v3).session).2.length = 0 := ⟨_, rfl, rfl, rfl, rfl⟩
  obtain ⟨r, h1, h2, h3, h4⟩ := h1
  rw [h {} exHookExt _ _ _ _ _ _ r h1 h2, h4] at h3
  cases h3

end Akasa
