import Verif.Props.Announced
import Verif.Props.Origin
import Verif.Spec.Expiry
/-!
# C100: messages live as long as their publisher said

The broker counts the time that a message with QoS 1 or 2 waits in the queue of a session (C18).  It
does not count the time for which the message was retained, nor the time that it waited before the
session of the receiver took it; and it does not count at all for MQTT 3 receivers.
-/
namespace Akasa

variable {cfg : Config} {ext : Ext} {w : World} {evs : List Event}

/-- **C100, partial.**  Every PUBLISH that is sent carries a message that was published before.  If it
names an expiry interval, so did the publisher, and the interval is not longer than the publisher's;
and between MQTT 5 clients the interval is never left out.
Missing, as it is false (`C100_retained_false`, `C100_waiting_false`, `C100_v3_false`): that the interval
is shorter by the time that has passed since the message was published, and that nothing is sent
after that.  What holds for the time in the queue is C18. -/
theorem C100_interval_partial {acts : List Act} (hrun : Reaches cfg ext acts w evs) {t : TaskId}
    {req : Request} (hreq : w.request t = some req) {A B : List Event} {out : List OutPkt}
    (hev : evs = A ++ .sent t out :: B) {p : Publish} (hp : .publish p ∈ out) :
    ∃ u m from', (u, m) ∈ published A ∧ w.request u = some from' ∧ p.payload = m.payload ∧
      (∀ x, p.props.messageExpiry = some x → ∃ v, m.props.messageExpiry = some v ∧ x ≤ v) ∧
      (∀ v, m.props.messageExpiry = some v → from'.level.proto = .v5 → req.level.proto = .v5 →
        ∃ x, p.props.messageExpiry = some x) := by
  obtain ⟨u, m, from', h1, h2, h3, _, _, h4, _⟩ := C75_sent hrun hreq hev hp
  refine ⟨u, m, from', h1, h2, h3, ?_, ?_⟩
  · intro x hx
    unfold SamePropsAs at h4
    split at h4
    · cases hm : m.props.messageExpiry with
      | none => rw [(h4.2.1).2 hm] at hx; cases hx
      | some v => exact ⟨v, rfl, h4.2.2 v x hm hx⟩
    · rw [h4.2] at hx; cases hx
  · intro v hv h5 h6
    unfold SamePropsAs at h4
    rw [if_pos ⟨h5, h6⟩] at h4
    cases hp : p.props.messageExpiry with
    | none => rw [(h4.2.1).1 hp] at hv; cases hv
    | some x => exact ⟨x, rfl⟩

/-! ## What is sent although it has expired -/

/-- The clocks show this time. -/
def exShows (n : Nat) : Env := { now := fun _ _ => n, clk := fun _ => Clock.const n }

theorem exShows_reads {n : Nat} {acts : List Act}
    (h : ∀ a ∈ acts, (a.env? = none ∨ a.env? = some (exShows n)) ∧
      (a.after? = none ∨ a.after? = some (Clock.const n))) :
    ∀ a ∈ acts, ∀ k, a.Reads k → k = n := by
  intro a ha k hk
  obtain ⟨h1, h2⟩ := h a ha
  rcases hk with ⟨env, h3, h4⟩ | ⟨c, i, h3, h4⟩
  · rcases h1 with h1 | h1 <;> rw [h1] at h3 <;> cases h3
    rcases h4 with ⟨i, j, h4⟩ | ⟨i, j, h4 | h4⟩ <;> exact h4
  · rcases h2 with h2 | h2 <;> rw [h2] at h3 <;> cases h3
    rcases h4 with h4 | h4 <;> exact h4

/-- A way to show by computation that something is sent although it has expired. -/
theorem sentExpired_of {acts1 acts2 : List Act} {early late v : Nat} {P : Request → TaskId → Publish → Bool}
    (h1 : ∀ a ∈ acts1, (a.env? = none ∨ a.env? = some (exShows early)) ∧
      (a.after? = none ∨ a.after? = some (Clock.const early)))
    (h2 : ∀ a ∈ acts2, (a.env? = none ∨ a.env? = some (exShows late)) ∧
      (a.after? = none ∨ a.after? = some (Clock.const late))) (hv : early + v ≤ late)
    (h : ((World.run {} exExt {} acts1).bind fun r1 => (World.run {} exExt r1.1 acts2).map fun r2 =>
      (published r2.2).isEmpty && (published r1.2).all (fun e => e.2.props.messageExpiry == some v) &&
      r2.2.any fun
        | .sent t out => out.any fun
          | .publish p => !p.dup && (r2.1.request t).any fun req => P req t p
          | _ => false
        | _ => false) = some true) :
    ∃ req t p, SentExpired {} exExt early late req t p ∧ P req t p = true := by
  rw [Option.bind_eq_some_iff] at h
  obtain ⟨r1, hr1, h⟩ := h
  rw [Option.map_eq_some_iff] at h
  obtain ⟨r2, hr2, h⟩ := h
  simp only [Bool.and_eq_true, List.isEmpty_iff, List.all_eq_true, beq_iff_eq, List.any_eq_true] at h
  obtain ⟨⟨h3, h4⟩, ev, h5, h6⟩ := h
  split at h6
  · rename_i t out
    rw [List.any_eq_true] at h6
    obtain ⟨o, h7, h8⟩ := h6
    split at h8
    · rename_i p
      simp only [Bool.and_eq_true, Bool.not_eq_true', Option.any_eq_true] at h8
      obtain ⟨h8, req, h9, h10⟩ := h8
      refine ⟨req, t, p, ⟨acts1, acts2, r1.1, r2.1, r1.2, r2.2, out, hr1, ?_, ?_, ?_, h3, ?_, h5, h7,
        h8, h9⟩, h10⟩
      · exact run_append_world hr1 hr2
      · exact fun a ha n hn => Nat.le_of_eq (exShows_reads h1 a ha n hn)
      · exact fun a ha n hn => Nat.le_of_eq (exShows_reads h2 a ha n hn).symm
      · exact fun e he => ⟨v, h4 e he, hv⟩
    · cases h8
  · cases h6

/-- A message that expires after five seconds. -/
def exShort (qosPid : QosPid) (retain : Bool) : InPkt :=
  .publish { dup := false, retain, qosPid, topic := str "a", payload := [1]
             props := { messageExpiry := some 5 } }

/-- **C100 is false of retained messages.**  A message with an expiry interval of five seconds is
retained; fifteen minutes later a client subscribes and is sent the message, with the interval of
five seconds. -/
theorem C100_retained_false : ∃ req t p, SentExpired {} exExt 100 1000 req t p ∧
    req.level.proto = .v5 ∧ p.retain = true ∧ p.props.messageExpiry = some 5 := by
  obtain ⟨req, t, p, h1, h2⟩ := sentExpired_of (early := 100) (late := 1000) (v := 5)
    (acts1 := [.connect { level := .v500, identifier := str "d", clean := true } (exShows 100) true,
      .packet 0 (exShows 100) (Clock.const 100) 10 (exShort (.level1 7) true)])
    (acts2 := [.connect { level := .v500, identifier := str "c", clean := true } (exShows 1000) true,
      .packet 1 (exShows 1000) (Clock.const 1000) 10
        (.subscribe 1 [(str "a", { maxQos := 2, retainAsPublished := true })] none)])
    (P := fun req _ p => decide (req.level.proto = .v5) && p.retain &&
      p.props.messageExpiry == some 5)
    (by simp [Act.env?, Act.after?]) (by simp [Act.env?, Act.after?]) (by decide)
    (by decide +kernel)
  simp only [Bool.and_eq_true, decide_eq_true_eq, beq_iff_eq] at h2
  exact ⟨req, t, p, h1, h2.1.1, h2.1.2, h2.2⟩

/-- **C100 is false of MQTT 3 receivers.**  A message with an expiry interval of five seconds is put
into the queue of a session whose client is away; it is sent when the client is back fifteen minutes
later. -/
theorem C100_v3_false : ∃ req t p, SentExpired {} exExt 100 1000 req t p ∧
    req.level.proto = .v3 ∧ p.retain = false ∧ p.qosPid.qos = 1 := by
  obtain ⟨req, t, p, h1, h2⟩ := sentExpired_of (early := 100) (late := 1000) (v := 5)
    (acts1 := [.connect { level := .v311, identifier := str "c", clean := false } (exShows 100) true,
      .packet 0 (exShows 100) (Clock.const 100) 10 (.subscribe 1 [(str "a", { maxQos := 1 })] none),
      .lose 0, .close 0 (exShows 100) [], .finish 0,
      .connect { level := .v500, identifier := str "d", clean := true } (exShows 100) true,
      .packet 1 (exShows 100) (Clock.const 100) 10 (exShort (.level1 7) false),
      .push 1 0, .flush 1 0, .normal 0 (exShows 100)])
    (acts2 := [.connect { level := .v311, identifier := str "c", clean := false } (exShows 1000) true,
      .control 0 (exShows 1000), .accept 2 (exShows 1000) true])
    (P := fun req _ p => decide (req.level.proto = .v3) && !p.retain && p.qosPid.qos == 1)
    (by simp [Act.env?, Act.after?]) (by simp [Act.env?, Act.after?]) (by decide)
    (by decide +kernel)
  simp only [Bool.and_eq_true, decide_eq_true_eq, beq_iff_eq, Bool.not_eq_true'] at h2
  exact ⟨req, t, p, h1, h2.1.1, h2.1.2, h2.2⟩

/-- **C100 is false of messages that wait for the receiver.**  A copy waits in the inbox of a session
for fifteen minutes (the connection of the receiver takes no bytes, say); then it is sent with the
interval of five seconds. -/
theorem C100_waiting_false : ∃ req t p, SentExpired {} exExt 100 1000 req t p ∧
    req.level.proto = .v5 ∧ p.retain = false ∧ p.qosPid.qos = 1 ∧ p.props.messageExpiry = some 5 := by
  obtain ⟨req, t, p, h1, h2⟩ := sentExpired_of (early := 100) (late := 1000) (v := 5)
    (acts1 := [.connect { level := .v500, identifier := str "c", clean := true } (exShows 100) true,
      .packet 0 (exShows 100) (Clock.const 100) 10 (.subscribe 1 [(str "a", { maxQos := 1 })] none),
      .connect { level := .v500, identifier := str "d", clean := true } (exShows 100) true,
      .packet 1 (exShows 100) (Clock.const 100) 10 (exShort (.level1 7) false),
      .push 1 0, .flush 1 0])
    (acts2 := [.normal 0 (exShows 1000)])
    (P := fun req _ p => decide (req.level.proto = .v5) && !p.retain && p.qosPid.qos == 1 &&
      p.props.messageExpiry == some 5)
    (by simp [Act.env?, Act.after?]) (by simp [Act.env?, Act.after?]) (by decide)
    (by decide +kernel)
  simp only [Bool.and_eq_true, decide_eq_true_eq, beq_iff_eq, Bool.not_eq_true'] at h2
  exact ⟨req, t, p, h1, h2.1.1.1, h2.1.1.2, h2.1.2, h2.2⟩

/-- The client of an MQTT 5 session that took the message in time and is connected gets it, with
what is left of the interval. -/
example : ∃ w evs A B out p, Reaches {} exExt
      [.connect (exReq .v500 false 100 5) (exShows 100) true,
       .packet 0 (exShows 100) (Clock.const 100) 10 (.subscribe 1 [(str "a", { maxQos := 1 })] none),
       .lose 0, .close 0 (exShows 100) [], .finish 0,
       .connect { level := .v500, identifier := str "d", clean := true } (exShows 100) true,
       .packet 1 (exShows 100) (Clock.const 100) 10 (exShort (.level1 7) false),
       .push 1 0, .flush 1 0, .normal 0 (exShows 100),
       .connect (exReq .v500 false 100 5) (exShows 103) true,
       .control 0 (exShows 103), .accept 2 (exShows 103) true] w evs ∧
    w.request 2 ≠ none ∧ evs = A ++ .sent 2 out :: B ∧ .publish p ∈ out ∧
    p.props.messageExpiry = some 2 := by
  obtain ⟨w, evs, h1, h2⟩ := reaches_of (cfg := {}) (acts := [.connect (exReq .v500 false 100 5) (exShows 100) true,
       .packet 0 (exShows 100) (Clock.const 100) 10 (.subscribe 1 [(str "a", { maxQos := 1 })] none),
       .lose 0, .close 0 (exShows 100) [], .finish 0,
       .connect { level := .v500, identifier := str "d", clean := true } (exShows 100) true,
       .packet 1 (exShows 100) (Clock.const 100) 10 (exShort (.level1 7) false),
       .push 1 0, .flush 1 0, .normal 0 (exShows 100),
       .connect (exReq .v500 false 100 5) (exShows 103) true,
       .control 0 (exShows 103), .accept 2 (exShows 103) true])
    (P := fun (r : World × List Event) => (r.1.request 2).isSome && r.2.any (fun
      | .sent 2 out => out.any (fun
        | .publish p => p.props.messageExpiry == some 2
        | _ => false)
      | _ => false)) (by decide +kernel)
  simp only [Bool.and_eq_true, List.any_eq_true] at h2
  obtain ⟨h3, ev, h4, h5⟩ := h2
  obtain ⟨A, B, h6⟩ := List.append_of_mem h4
  split at h5
  · rename_i out
    rw [List.any_eq_true] at h5
    obtain ⟨o, h7, h8⟩ := h5
    split at h8
    · rename_i p
      rw [beq_iff_eq] at h8
      exact ⟨w, evs, A, B, out, p, h1, fun h => (by rw [h] at h3; cases h3), h6, h7, h8⟩
    · cases h8
  · cases h5

end Akasa
