import Verif.Proof.Selective
import Verif.Props.Announced
import Verif.Props.OrderV5
/-!
# C97: a client is sent only what it subscribed to

In the whole broker, whatever subscriptions others have or had: shared groups, sessions taken over,
entries left in the table, messages queued long before.
-/
namespace Akasa

variable {cfg : Config} {ext : Ext} {w : World} {evs : List Event}

/-- **C97, subscriptions.**  A session has a subscription only if the client asked for the filter
by a SUBSCRIBE in the life of the session, and it has not been told since, by UNSUBACK, that it is
unsubscribed. -/
theorem C97_held {acts : List Act} (hrun : Reaches cfg ext acts w evs) {t : TaskId} {s : Session}
    {req : Request} (ho : w.owned t = some s) (hreq : w.request t = some req) {F : Str}
    (hF : s.subs F ≠ none) : F ∈ askedFor (lifeOf w req.identifier evs) := by
  obtain ⟨x, hx, hs⟩ := owned_stage ho
  unfold World.request at hreq
  rw [hx] at hreq
  cases hreq
  obtain ⟨chain, p, h1, h2, h3, _, h4⟩ := (LifeInv.run hrun).life t x s hx hs
  rw [lifeOf_chain h1.lives h4]
  obtain ⟨i, id, c, sevs, recs, k1, k2, k3, _⟩ := h1
  rw [k2]
  refine askedFor_run (st := ([], [])) (isRun_of_run k1) (fun F hF => absurd (start_none F) hF) F ?_
  rw [← k3]
  intro hn
  refine hF ?_
  rw [← hn]
  cases hst : x.stage <;> rw [hst] at h2 hs <;> cases hs
  all_goals first
    | rw [show p = _ from h2]
    | rw [← show p.session.withWill s.will = s from h2]; rfl
    | rw [← show p.session.withWill s.will = s from h2.2]; rfl

/-- **C97, sent.**  Every PUBLISH that is sent to a client, at any time, is due to something seen
before in the life of the session.  Either a message was taken from the inbox, and at that moment
the client had asked for a filter, and not given it up, that covers the topic of the message.  Or
the client subscribed to a filter that the topic matches, and the message had been published with
the retain flag. -/
theorem C97_sent {acts : List Act} (hrun : Reaches cfg ext acts w evs)
    (hv : ∀ e ∈ published evs, ValidTopic e.2.topic) {t : TaskId} {s : Session} {req : Request}
    (ho : w.owned t = some s) (hreq : w.request t = some req) {A B : List Obs} {p : Publish}
    (hl : lifeOf w req.identifier evs = A ++ .sent (.publish p) :: B) :
    ∃ A1 x A2, A = A1 ++ x :: A2 ∧ SentFor evs (askedFor A1) p x := by
  obtain ⟨x, hx, hs⟩ := owned_stage ho
  unfold World.request at hreq
  rw [hx] at hreq
  cases hreq
  obtain ⟨q, i, id, c, sevs, recs, h1, h2, _, h3⟩ := (fitting_life hrun).lifeOf hx hs
  rw [h2] at hl
  obtain ⟨A1, x, A2, h4, h5, _⟩ := sent_for h1 h3.1 hv hl
  exact ⟨A1, x, A2, h4, h5⟩

/-- **C97, QoS 0.**  At the moment when a QoS 0 PUBLISH is sent to a client, the client has asked
for a filter, and not given it up, that covers the topic of the message. -/
theorem C97_now {acts : List Act} (hrun : Reaches cfg ext acts w evs)
    (hv : ∀ e ∈ published evs, ValidTopic e.2.topic) {t : TaskId} {s : Session} {req : Request}
    (ho : w.owned t = some s) (hreq : w.request t = some req) {A B : List Obs} {p : Publish}
    (hl : lifeOf w req.identifier evs = A ++ .sent (.publish p) :: B) (hq : p.qosPid = .level0) :
    ∃ F ∈ askedFor A, ∃ e ∈ published evs, p.about e.2.topic ∧ p.payload = e.2.payload ∧
      (ValidFilter F → Covers F e.2.topic) := by
  obtain ⟨x, hx, hs⟩ := owned_stage ho
  unfold World.request at hreq
  rw [hx] at hreq
  cases hreq
  obtain ⟨q, i, id, c, sevs, recs, h1, h2, _, h3⟩ := (fitting_life hrun).lifeOf hx hs
  rw [h2] at hl
  obtain ⟨A1, x, A2, rfl, h5, h6, h7⟩ := sent_for h1 h3.1 hv hl
  obtain ⟨h8, h9⟩ := h7 hq
  unfold askedFor
  rw [List.foldl_append, List.foldl_cons]
  cases x with
  | took m =>
    obtain ⟨k1, k2, F, k3, k4, k5⟩ := h5
    obtain ⟨e, k6, k7, k8⟩ := h6 m rfl
    refine ⟨F, ?_, e, k6, k7 ▸ k1, k2.trans k8, fun _ => k7 ▸ k5⟩
    rw [askedFor_neutrals (h9 m rfl)]
    exact k4
  | received pkt =>
    cases pkt with
    | subscribe pid topics sid =>
      obtain ⟨F, k1, e, k2, k3, k4, k5, k6⟩ := h5
      exact ⟨F, askedFor_kept h8 (List.mem_append.2 (.inr k1)) List.not_mem_nil, e, k2, k4, k5, k6⟩
    | _ => exact h5.elim
  | _ => exact h5.elim

/-- A client subscribes to `a/+` and gets a message.  A second message is already in its inbox when
it unsubscribes. -/
def exSelective : List Act :=
  [.connect (exReq .v500 false 100 5) {} true,
   .packet 0 exClk100 (Clock.const 100) 10 (.subscribe 1 [(str "a/+", { maxQos := 1 })] none),
   .connect { level := .v311, identifier := str "d", clean := true } {} true,
   .packet 1 exClk100 (Clock.const 100) 10 (.publish
    { dup := false, retain := false, qosPid := .level0, topic := str "a/b", payload := [1] }),
   .push 1 0, .flush 1 0, .normal 0 exClk100,
   .packet 1 exClk100 (Clock.const 100) 10 (.publish
    { dup := false, retain := false, qosPid := .level0, topic := str "a/b", payload := [2] }),
   .push 1 0, .flush 1 0,
   .packet 0 exClk100 (Clock.const 100) 10 (.unsubscribe 2 [str "a/+"]), .normal 0 exClk100]

/-- The client is subscribed at first. -/
example : ∃ w evs, Reaches {} exExt (exSelective.take 2) w evs ∧
    (match w.owned 0 with | some s => (s.subs (str "a/+")).isSome | none => false) = true :=
  reaches_of (cfg := {}) (acts := exSelective.take 2)
    (P := fun (r : World × List Event) =>
      match r.1.owned 0 with | some s => (s.subs (str "a/+")).isSome | none => false)
    (by decide +kernel)

/-- Both messages are taken from the inbox, the second after the UNSUBACK; only the first one is
sent. -/
example : ∃ w evs s req A p B, Reaches {} exExt exSelective w evs ∧
    (∀ e ∈ published evs, ValidTopic e.2.topic) ∧
    w.owned 0 = some s ∧ w.request 0 = some req ∧
    lifeOf w req.identifier evs = A ++ .sent (.publish p) :: B ∧ p.qosPid = .level0 ∧
    p.payload = [1] ∧ askedFor A = [str "a/+"] ∧
    (sentIn B).map OutPkt.isUnsuback = [true] ∧ (takenIn B).map (·.payload) = [[2]] ∧
    askedFor (lifeOf w req.identifier evs) = [] := by
  obtain ⟨w, evs, hrun, hp⟩ := reaches_of (cfg := {}) (acts := exSelective)
    (P := fun (r : World × List Event) => ((published r.2).all fun e => decide ('#' ∉ e.2.topic ∧ '+' ∉ e.2.topic)) &&
      match r.1.owned 0, r.1.request 0 with
      | some _, some req =>
        match (lifeOf r.1 req.identifier r.2)[4]? with
        | some (Obs.sent (.publish p)) => decide (p.qosPid = .level0) && decide (p.payload = [1]) &&
            decide (askedFor ((lifeOf r.1 req.identifier r.2).take 4) = [str "a/+"]) &&
            decide ((sentIn ((lifeOf r.1 req.identifier r.2).drop 5)).map OutPkt.isUnsuback =
              [true]) &&
            decide ((takenIn ((lifeOf r.1 req.identifier r.2).drop 5)).map (·.payload) = [[2]]) &&
            decide (askedFor (lifeOf r.1 req.identifier r.2) = [])
        | _ => false
      | _, _ => false) (by decide +kernel)
  rw [Bool.and_eq_true, List.all_eq_true] at hp
  obtain ⟨hv, hp⟩ := hp
  split at hp
  · rename_i s req ho hreq
    split at hp
    · rename_i p hget
      simp only [Bool.and_eq_true, decide_eq_true_eq] at hp
      obtain ⟨⟨⟨⟨⟨h1, h2⟩, h3⟩, h4⟩, h5⟩, h6⟩ := hp
      refine ⟨w, evs, s, req, _, p, _, hrun, fun e he => ?_, ho, hreq, ?_, h1, h2, h3, h4, h5, h6⟩
      · have := hv e he
        simp only [decide_eq_true_eq] at this
        exact this
      · obtain ⟨hlt, hg⟩ := List.getElem?_eq_some_iff.1 hget
        rw [← hg, List.getElem_cons_drop, List.take_append_drop]
    · cases hp
  · cases hp

end Akasa
