import Verif.Proof.Transfer
import Verif.Props.Fanout
/-!
# C44: copies on their way to the inboxes of other sessions
-/
namespace Akasa

section
variable {s : Session} {acts : List TransferAct} {w : Outgoing}
  {got : List (ClientId × NormalMsg)}

/-- **C44**: the internal consistency check never fails: no sequence of publishing and passing on
panics. -/
theorem C44_no_panic (hb : s.bcast = []) (hc : s.bcastCnt = 0) (acts : List TransferAct) :
    ∃ w got, Outgoing.run { session := s } acts = some (w, got) := by
  obtain ⟨w, got, h, _⟩ := transfer_run (tinv_new s hb hc) acts
  exact ⟨w, got, h⟩

/-- **C44**: the number of outstanding copies reported equals the number really queued. -/
theorem C44_count (hb : s.bcast = []) (hc : s.bcastCnt = 0)
    (hrun : Outgoing.run { session := s } acts = some (w, got)) :
    w.session.bcastCnt = (w.session.bcast.map fun e => e.2.length).sum := by
  obtain ⟨w', got', h, hi, _⟩ := transfer_run (tinv_new s hb hc) acts
  rw [h] at hrun
  cases hrun
  exact hi.count

/-- **C44**: as long as the receiver is registered and its inbox is open, the copies queued for it
are exactly those taken into its inbox followed by those on their way, in the order of queueing:
none is lost, duplicated or overtaken. -/
theorem C44_exactly_once (hb : s.bcast = []) (hc : s.bcastCnt = 0)
    (hrun : Outgoing.run { session := s } acts = some (w, got)) {id : ClientId}
    (hp : Present id acts) : addressedTo id got ++ w.inTransit id = copiesFor id acts := by
  obtain ⟨w', got', h, hi, hid⟩ := transfer_run (tinv_new s hb hc) acts
  rw [h] at hrun
  cases hrun
  have := (hid id).2 hp
  simpa [Outgoing.inTransit, hb] using this

/-- **C44**: in any case (the receiver may disappear) the inbox receives copies at most once, in the
order of queueing, and nothing that was not queued for it. -/
theorem C44_at_most_once (hb : s.bcast = []) (hc : s.bcastCnt = 0)
    (hrun : Outgoing.run { session := s } acts = some (w, got)) (id : ClientId) :
    (addressedTo id got).Sublist (copiesFor id acts) := by
  obtain ⟨w', got', h, hi, hid⟩ := transfer_run (tinv_new s hb hc) acts
  rw [h] at hrun
  cases hrun
  have := (hid id).1
  rw [show Outgoing.inTransit { session := s } id = [] by simp [Outgoing.inTransit, hb]] at this
  exact (List.sublist_append_left _ _).trans this

/-- **C44**: a pass during which the inbox of a receiver takes what it is offered delivers
everything that was on its way. -/
theorem C44_delivered (hb : s.bcast = []) (hc : s.bcastCnt = 0) {o : ClientId → Nat → PollRes}
    (hrun : Outgoing.run { session := s } (acts ++ [.pass o]) = some (w, got)) {id : ClientId}
    (hp : Present id acts) (ho : ∀ k, o id k = .accept) :
    addressedTo id got = copiesFor id acts := by
  obtain ⟨w1, got1, h1, hi, hid⟩ := transfer_run (tinv_new s hb hc) acts
  obtain ⟨w2, got2, h2, _, hid2⟩ := pass_spec (o := o) hi
  rw [run_append', h1] at hrun
  simp only [Option.bind_some, Outgoing.run, Outgoing.step, h2, Option.map_some, List.append_nil,
    Option.some.injEq, Prod.mk.injEq] at hrun
  obtain ⟨rfl, rfl⟩ := hrun
  have e1 := (hid id).2 hp
  have e2 := (hid2 id).2.1 (fun k => by rw [ho k]; simp)
  have e3 := (hid2 id).2.2 ho
  rw [e3, List.append_nil] at e2
  rw [addressedTo_append, e2, e1]
  simp [Outgoing.inTransit, hb]

/-- A message for the examples. -/
def exMsg (n : UInt8) : NormalMsg := .publishV3 false 1 (str "t") [n] (str "t") 1 10

/-- The inbox of client 7 is full in the first pass and takes two messages in the second; client 8 is
gone. -/
def exActs : List TransferAct :=
  [.push (fun _ => true) [(7, exMsg 1), (8, exMsg 1), (7, exMsg 2)],
   .pass (fun id _ => if id = 7 then .block else .gone),
   .push (fun id => decide (id = 7)) [(7, exMsg 3), (8, exMsg 3)],
   .pass (fun id k => if id = 7 ∧ k < 3 then .accept else .block)]

example : Present 7 exActs := by
  constructor
  · intro reg cs h
    simp only [exActs, List.mem_cons, TransferAct.push.injEq, reduceCtorEq, List.not_mem_nil,
      or_false, false_or] at h
    rcases h with ⟨rfl, _⟩ | ⟨rfl, _⟩ <;> rfl
  · intro o h k
    simp only [exActs, List.mem_cons, TransferAct.pass.injEq, reduceCtorEq, List.not_mem_nil,
      or_false, false_or] at h
    rcases h with rfl | rfl
    · simp
    · simp only; split <;> simp

example : (Outgoing.run { session := exFanSession } exActs).map
      (fun r => (r.2, r.1.inTransit 7, r.1.session.bcastCnt, copiesFor 7 exActs)) =
    some ([(7, exMsg 1), (7, exMsg 2)], [exMsg 3], 0, [exMsg 1, exMsg 2, exMsg 3]) := by
  decide +kernel

/-- **C59** is false of the code: a copy on its way to a receiver that stays connected can be lost
when the publisher's connection ends: it is held by the sink because the inbox is full, nothing is
queued behind it, and the sink is dropped. -/
theorem C59_false : ∃ (acts : List TransferAct) (w : Outgoing) (got : List (ClientId × NormalMsg)),
    Outgoing.run { session := exFanSession } acts = some (w, got) ∧ Present 7 acts ∧
    copiesFor 7 acts = [exMsg 1] ∧ addressedTo 7 got = [] ∧
    ∃ msgs, w.session.bcast.get 7 = some msgs ∧ (w.link (7, msgs)).finish .block = [] :=
  ⟨[.push (fun _ => true) [(7, exMsg 1)], .pass (fun _ _ => .block)], _, _, rfl,
    ⟨fun reg cs h => by
        simp only [List.mem_cons, TransferAct.push.injEq, reduceCtorEq, List.not_mem_nil,
          or_false] at h
        rw [h.1],
      fun o h k => by
        simp only [List.mem_cons, TransferAct.pass.injEq, reduceCtorEq, List.not_mem_nil, or_false,
          false_or] at h
        rw [h]; simp⟩, rfl, rfl, [], rfl, rfl⟩

/-- **C59**, the part that holds: at the end of the publisher's connection a receiver that stays
connected gets everything on its way, in order, if its inbox takes the message held by the sink at
once or other copies are queued behind it. -/
theorem C59_finish_partial (hb : s.bcast = []) (hc : s.bcastCnt = 0)
    (hrun : Outgoing.run { session := s } acts = some (w, got)) {id : ClientId}
    (hp : Present id acts) {msgs : List NormalMsg} (hm : w.session.bcast.get id = some msgs)
    {o : PollRes} (ho : o = .accept ∨ (o = .block ∧ msgs ≠ [])) :
    addressedTo id got ++ (w.link (id, msgs)).finish o = copiesFor id acts := by
  rw [← C44_exactly_once hb hc hrun hp]
  unfold Outgoing.inTransit
  rw [hm]
  have hl : (w.link (id, msgs)).msgs = msgs := rfl
  rcases ho with rfl | ⟨rfl, hne⟩
  · simp [Link.finish, hl]
  · simp [Link.finish, hl, hne]

end
end Akasa
