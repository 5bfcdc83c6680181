import Verif.Proof.Accept
/-!
# C83, C84, C85: accepting a connection
-/
namespace Akasa.Accept

/-- What C83 demands: when the time is over and the task of the connection is polled, the connection
is closed, unless the client has sent all that it has to send by then (then it is connected, or
refused, or, in MQTT 5, being sent the next AUTH packet). -/
def ClosedInTime (l : Listener) : Prop :=
  ∀ (before after : List Act) (io : Io),
    ((Task.start l.args).run (before ++ [.timer] ++ after ++ [.poll io])).stage.over = true ∨
    ((Task.start l.args).run (before ++ [.timer] ++ after ++ [.poll io])).stage.writing = true

theorem over_or_writing (l : Listener) (before after : List Act) (io : Io) :
    let t := (Task.start l.args).run (before ++ [.timer] ++ after ++ [.poll io])
    t.stage.over = true ∨ t.stage.writing = true ∨ (t.stage = .websocket ∧ l.isWs = true) := by
  intro t
  have h1 : ((Task.start l.args).run (before ++ [.timer] ++ after)).token = true ∨
      ((Task.start l.args).run (before ++ [.timer] ++ after)).stage.over = true := by
    rw [run_append, run_append]
    exact run_token _ _ (.inl rfl)
  have ht : t = ((Task.start l.args).run (before ++ [.timer] ++ after)).poll io := by
    simp only [t]
    rw [run_append]
    rfl
  have h2 : t.token = true ∨ t.stage.over = true := by
    rw [ht]; exact act_token _ (.poll io) h1
  have h3 : t.stage1 io = none := by rw [ht]; exact poll_waits _ io
  have h4 : t.args.fits t.stage := (orderInv_run _ _ _ (orderInv_start l.args)).fits
  have h5 : t.args = l.args := run_args _ _
  rcases h2 with h2 | h2
  · unfold Task.stage1 at h3
    split at h3
    case h_3 =>
      rename_i hs
      rw [hs, h5] at h4
      refine .inr (.inr ⟨hs, ?_⟩)
      cases l <;> first | rfl | cases h4
    case h_8 => rename_i hs; rw [hs]; exact .inr (.inl rfl)
    case h_9 => rename_i hs; rw [hs]; exact .inr (.inl rfl)
    case h_11 => rename_i hs; rw [hs]; exact .inl rfl
    case h_12 => rename_i hs; rw [hs]; exact .inl rfl
    all_goals
      have := (await_none h3).2
      rw [h2] at this
      cases this
  · exact .inl h2

/-- **C83, partial**: on listeners without WebSocket, whatever the client sends and when, and whatever
the TLS layer does, the connection is closed at the first poll after the five seconds unless the
client has sent all it has to send.  Missing: listeners for WebSocket (`C83_false`), for which
`C83_websocket_partial` tells what is left. -/
theorem C83_in_time_partial (l : Listener) (h : l.isWs = false) : ClosedInTime l := by
  intro before after io
  rcases over_or_writing l before after io with h1 | h1 | ⟨_, h1⟩
  · exact .inl h1
  · exact .inr h1
  · rw [h] at h1; cases h1

/-- The client sends a part of its CONNECT and then nothing more. -/
example : ((Task.start (Listener.mqtts false).args).run
    [.poll {}, .poll { tls := .ready (), header := .ready 0x10 }, .timer, .poll {}]).stage =
    .ended .timeout := by decide

/-- The CONNECT arrives in time. -/
example : ((Task.start (Listener.mqtts false).args).run
    [.poll { tls := .ready () }, .poll { header := .ready 0x10, protocol := .ready .v311 },
     .poll { connectV3 := .ready true }, .timer, .poll {}]).stage = .handed .v311 := by decide

/-- **C83, partial**, WebSocket: also there the connection is closed, unless the broker waits for the
WebSocket handshake. -/
theorem C83_websocket_partial (l : Listener) (before after : List Act) (io : Io) :
    let t := (Task.start l.args).run (before ++ [.timer] ++ after ++ [.poll io])
    t.stage.over = true ∨ t.stage.writing = true ∨ t.stage = .websocket := by
  rcases over_or_writing l before after io with h1 | h1 | ⟨h1, _⟩
  · exact .inl h1
  · exact .inr (.inl h1)
  · exact .inr (.inr h1)

/-- **C83 is false of the code for WebSocket**: a client that opens a connection and does not send its
handshake is never disconnected, however long it waits and however often the task is polled. -/
theorem C83_false : ∀ n, ((Task.start (Listener.ws none).args).run
    (.timer :: List.replicate n (.poll {}))).stage = .websocket := by
  have key : ∀ (n : Nat) (t : Task), t.stage = .websocket →
      (t.run (List.replicate n (.poll {}))).stage = .websocket := by
    intro n
    induction n with
    | zero => intro t h; exact h
    | succ n ih =>
      intro t h
      refine ih (t.poll {}) ?_
      have : t.stage1 {} = none := by simp [Task.stage1, h, await]
      simp [Task.poll, h, Task.stages, this]
  intro n
  exact key n _ rfl

theorem C83_ws_false : ¬ ∀ l, ClosedInTime l := by
  intro h
  rcases h (.ws none) [] [] {} with h | h
  · revert h; decide
  · revert h; decide

/-- **C83, not too early**: the broker ends a connection for lack of time only if the time is over. -/
theorem C83_not_early (l : Listener) (acts : List Act)
    (h : ((Task.start l.args).run acts).stage = .ended .timeout) : .timer ∈ acts := by
  refine Classical.byContradiction fun hn => ?_
  refine (run_untimed acts (Task.start l.args) rfl ?_ hn).2 h
  unfold Task.start Args.afterProxy Args.afterTls
  repeat' split
  all_goals simp

example : ((Task.start (Listener.mqtt none).args).run [.poll {}, .timer, .poll {}]).stage =
    .ended .timeout := by decide

/-- **C84**: a client becomes connected only after all layers of its listener have been passed, one
after the other: PROXY header, TLS, WebSocket, then a packet that begins like CONNECT, of a known
version, and that is accepted by the code for that version. -/
theorem C84_layers (l : Listener) (acts : List Act) (v : Version)
    (h : ((Task.start l.args).run acts).stage = .handed v) :
    InOrder (l.layers ++ [FirstIsConnect, Speaks v, Accepted v]) (polls acts) := by
  have hi := orderInv_run acts _ _ (orderInv_start l.args)
  have hp := hi.passed
  rw [h, show ((Task.start l.args).run acts).args = l.args from run_args _ _] at hp
  cases l with
  | mqtt p => cases p <;> exact hp
  | mqtts p => cases p <;> exact hp
  | ws p => cases p <;> exact hp
  | wss p => cases p <;> exact hp

/-- A header of the proxy. -/
def exHeader : Proxy.Header :=
  { protocol := .stream
    addresses := .ipv4 ⟨#[10, 0, 0, 7], rfl⟩ 40000 ⟨#[10, 0, 0, 1], rfl⟩ 8883
    sni := none }

/-- MQTT 5 over WebSocket over TLS behind a proxy, with an AUTH packet. -/
def exActs : List Act :=
  [.poll { proxy := .ready (some exHeader) },
   .poll { tls := .ready (), websocket := .ready (some "mqtt".toList) },
   .poll { header := .ready 0x10, protocol := .ready .v500, connectV5 := .ready .challenge
           writeAuth := fun _ => .ready () },
   .poll { auth := fun _ => .ready .accept }]

example : ((Task.start (Listener.wss true).args).run exActs).stage = .handed .v500 := by decide

/-- **C84**, the address: the address of the client is that in the PROXY header if the listener
expects one, and otherwise the other end of the connection. -/
theorem C84_address (l : Listener) (acts : List Act) (v : Version)
    (h : ((Task.start l.args).run acts).stage = .handed v) :
    (l.proxied = false → ((Task.start l.args).run acts).peer = .socket) ∧
    (l.proxied = true → ∃ io ∈ polls acts, ∃ hd, io.proxy = .ready (some hd) ∧
      source hd = some ((Task.start l.args).run acts).peer) := by
  have hi := orderInv_run acts _ _ (orderInv_start l.args)
  have ha : ((Task.start l.args).run acts).args = l.args := run_args _ _
  have hpr : l.proxied = l.args.proxy := by cases l <;> rfl
  rw [hpr]
  refine ⟨fun hp => hi.plain (by rw [ha]; exact hp), fun hp => ?_⟩
  rcases hi.peer (by rw [ha]; exact hp) (by simp [h]) with ⟨why, hw⟩ | hx
  · rw [h] at hw; cases hw
  · simpa using hx

example : ((Task.start (Listener.wss true).args).run exActs).peer =
    .ipv4 ⟨#[10, 0, 0, 7], rfl⟩ 40000 := by decide

/-- **C84**, what is refused: a health check of the proxy, a Unix address, another first packet and
another subprotocol end the connection. -/
theorem C84_refused (t : Task) (io : Io) :
    (t.stage = .proxy → io.proxy = .ready none → (t.poll io).stage = .ended .healthCheck) ∧
    (t.stage = .proxy → (∃ h src dst, io.proxy = .ready (some h) ∧ h.addresses = .unix src dst) →
      (t.poll io).stage = .ended .invalid) ∧
    (t.stage = .header → (∃ b, io.header = .ready b ∧ b ≠ 0x10) →
      (t.poll io).stage = .ended .invalid) ∧
    (t.stage = .websocket → (∃ p, io.websocket = .ready (some p) ∧ p ≠ "mqtt".toList) →
      (t.poll io).stage = .ended .invalid) := by
  have hend : ∀ (why : Why) (t : Task) (n : Nat), t.stage = .ended why →
      (t.stages io n).stage = .ended why := by
    intro why t n h
    cases n with
    | zero => exact h
    | succ n => simp [Task.stages, Task.stage1, h]
  refine ⟨fun hs hp => ?_, fun hs ⟨h, src, dst, hp, ha⟩ => ?_, fun hs ⟨b, hp, hb⟩ => ?_,
    fun hs ⟨p, hp, hb⟩ => ?_⟩
  · unfold Task.poll
    rw [hs, Stage.rank, Task.stages]
    simp only [Task.stage1, hs, hp, await]
    exact hend _ _ _ rfl
  · unfold Task.poll
    rw [hs, Stage.rank, Task.stages]
    simp only [Task.stage1, hs, hp, await]
    exact hend _ _ _ (by simp [Task.onProxy, ha])
  · unfold Task.poll
    rw [hs, Stage.rank, Task.stages]
    simp only [Task.stage1, hs, hp, await, if_neg hb]
    exact hend _ _ _ rfl
  · unfold Task.poll
    rw [hs, Stage.rank, Task.stages]
    have : subprotocolOk (some p) = false := by simpa [subprotocolOk] using hb
    simp only [Task.stage1, hs, hp, await, this]
    exact hend _ _ _ rfl

example : ((Task.start (Listener.mqtt (some .normal)).args).run
    [.poll { proxy := .ready none, header := .ready 0x10 }]).stage = .ended .healthCheck := by decide

/-- The broker goes on after the WebSocket handshake. -/
def HandshakeTaken (offer : Option Str) : Prop :=
  ((Task.start (Listener.ws none).args).run [.poll { websocket := .ready offer }]).stage = .header

/-- What C85 demands. -/
def TakesMqtt (offer : Option Str) : Prop := HandshakeTaken offer ↔ OffersMqtt offer

theorem taken_iff (offer : Option Str) : HandshakeTaken offer ↔ subprotocolOk offer = true := by
  unfold HandshakeTaken
  cases h : subprotocolOk offer <;>
    simp [Task.run, Task.act, Task.poll, Task.start, Listener.args, Args.afterProxy, Args.afterTls,
      Stage.rank, Task.stages, Task.stage1, await, h]

/-- **C85, partial**: a client that offers a single subprotocol is let in exactly if it is `mqtt`.
Missing: clients that offer several, or none. -/
theorem C85_single_partial (name : Str) (h : names name = [name]) : TakesMqtt (some name) := by
  unfold TakesMqtt
  rw [taken_iff]
  simp only [subprotocolOk, OffersMqtt, h, List.mem_singleton, decide_eq_true_eq]
  exact eq_comm

example : names "mqtt".toList = ["mqtt".toList] ∧ names "soap".toList = ["soap".toList] := by decide

/-- **C85 is false of the code**: a client that offers `mqtt` and another subprotocol is refused. -/
theorem C85_several_false : ¬ TakesMqtt (some "mqtt, mqttv3.1".toList) := by
  unfold TakesMqtt
  rw [taken_iff]
  intro h
  have h1 : OffersMqtt (some "mqtt, mqttv3.1".toList) := by unfold OffersMqtt; decide
  have h2 := h.mpr h1
  revert h2
  decide

/-- **C85 is false of the code**: a client that offers no subprotocol is let in. -/
theorem C85_none_false : ¬ TakesMqtt none := by
  unfold TakesMqtt
  rw [taken_iff]
  intro h
  exact h.mp rfl

end Akasa.Accept
