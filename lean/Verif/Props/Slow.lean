import Verif.Proof.Slow
import Verif.Proof.SlowLoop
import Verif.Props.Room
import Verif.Props.OnlineLoop
import Verif.Props.Return
/-!
# C94: a client that stops reading
-/
namespace Akasa

variable {cfg : Config} {ext : Ext} {w w' : World} {evs e : List Event}

/-- **C94**, as far as it holds, the messages on their way: whatever all other clients do or fail to
do, the messages a connection holds for a client whose session takes messages reach it, all of them
and in order, by steps of these two alone; nobody else's inbox changes. -/
theorem C94_delivers_partial {acts : List Act} (hrun : Reaches cfg ext acts w evs) {t u : TaskId}
    {d : ClientId} (ht : w.passesOn t) (hu : w.takes u d) :
    ∃ acts' w' evs', World.run cfg ext w acts' = some (w', evs') ∧
      (∀ a ∈ acts', a = .push t d ∨ a = .flush t d ∨ ∃ env, a = .normal u env) ∧
      w'.onTheWay t d = [] ∧ tookFrom t d evs' = w.inboxFrom t d ++ w.onTheWay t d ∧
      ∀ d', d' ≠ d → w'.inbox.get d' = w.inbox.get d' ∧ w'.onTheWay t d' = w.onTheWay t d' := by
  have hr : Reached cfg ext w := ⟨acts, evs, hrun⟩
  have hc : w.inbox.contains d = true := by
    obtain ⟨x, s, hx, rfl, hst⟩ := takes_iff.1 hu
    refine hr.sound.own.held u s.clientId ?_
    rw [(Tasks.views hx).1]
    rcases hst with ⟨h, _⟩ | ⟨h, _⟩ <;> rw [h] <;> rfl
  cases hq : w.inbox.get d with
  | none => unfold FMap.contains at hc; rw [hq] at hc; cases hc
  | some q =>
    obtain ⟨acts', w', evs', h1, h2, h3, h4⟩ := drain_one _ hr ht hu hq rfl
    obtain ⟨hm, _⟩ := moved_run hr hu h2 h1
    refine ⟨acts', w', evs', h1, h2, h4, ?_, fun d' hd' => ⟨(hm.other d' hd').1, (hm.other d' hd').2.1⟩⟩
    have := hm.flow hc
    rw [h4, List.append_nil] at this
    rw [← this]
    simp [World.inboxFrom, h3]

/-- **C94**, as far as it holds, publishing: if every client for which a connection holds messages
takes messages or is gone, all these messages are delivered, and the connection is read on; whatever
all other clients do or fail to do. -/
theorem C94_partial {acts : List Act} (hrun : Reaches cfg ext acts w evs) {t : TaskId} {s : Session}
    (hon : w.onlineSession t = some s) (hdis : s.disconnected = false)
    (hserved : ∀ d, w.onTheWay t d ≠ [] → (∃ u, w.takes u d) ∨ w.inbox.get d = none) :
    ∃ acts' w' evs', World.run cfg ext w acts' = some (w', evs') ∧
      (∀ a ∈ acts', a.delivers w t) ∧
      (∀ d, w.onTheWay t d ≠ [] → w.inbox.get d ≠ none →
        tookFrom t d evs' = w.inboxFrom t d ++ w.onTheWay t d) ∧
      (∀ d, w.onTheWay t d = [] → w'.inbox.get d = w.inbox.get d) ∧
      ∀ env after size p w2 e2, w'.step cfg ext (.packet t env after size p) = some (w2, e2) →
        .received t p ∈ e2 := by
  obtain ⟨x, hx, hst⟩ := online_stage hon
  have hp : w.passesOn t := passesOn_iff.2 ⟨x, hx, by rw [hst]; simp [Stage.sending?]⟩
  obtain ⟨ds, hn, hds⟩ := receivers w t
  obtain ⟨acts', w', evs', h1, h2, h3, h4, h5, h6⟩ := drain_list (cfg := cfg) (ext := ext) (w0 := w) ds hn
    (fun d hd => (hds d).1 hd) ⟨acts, evs, hrun⟩ hp (fun d hd => by
      rcases hserved d ((hds d).1 hd) with ⟨u, hu⟩ | h
      · exact .inr ⟨u, hu, hu⟩
      · exact .inl h)
  have hnil : ∀ d, w'.onTheWay t d = [] := by
    intro d
    by_cases hd : d ∈ ds
    · exact (h5 d hd).1
    · rw [(h6 d hd).2.1]
      exact Classical.byContradiction fun h => hd ((hds d).2 h)
  refine ⟨acts', w', evs', h1, h2, fun d hd hin => (h5 d ((hds d).2 hd)).2 hin, fun d hd => ?_, ?_⟩
  · exact (h6 d fun h => (hds d).1 h hd).1
  · intro env after size p w2 e2 hs
    obtain ⟨acts2, evs2, hr2⟩ := h4
    obtain ⟨s', hs', hdis'⟩ := h3.online hon
    refine (C72_reads hr2 hs' (hdis'.trans hdis) hs).1.2 ?_
    intro ds' _
    have : ∀ d, w'.queued t d = [] := by
      intro d
      have := hnil d
      obtain ⟨x', hx', hst'⟩ := online_stage hs'
      rw [onTheWay_of hx', Task.carries, hst', List.append_eq_nil_iff] at this
      rw [queued_online hs']
      exact this.2
    have hz : ∀ l : List ClientId, (l.map fun _ => 0).sum = 0 := by
      intro l
      induction l with
      | nil => rfl
      | cons _ _ ih => simp [ih]
    simp [totalFor, this, hz]

/-- **C94**, what is missing: an established connection that holds eleven messages for a client whose
inbox is full is not read any more, until that client takes a message or its session is discarded;
whatever everybody else does. -/
theorem C94_waits {acts acts' : List Act} (hrun : Reaches cfg ext acts w evs) {t : TaskId}
    {d : ClientId} (h : w.heldUp t d) (hs : World.run cfg ext w acts' = some (w', e))
    (hno : ∀ u src m, .took u d src m ∉ e) (hd : w'.inbox.contains d = true) (p : InPkt) :
    .received t p ∉ e :=
  held_run ⟨acts, evs, hrun⟩ (.inl h) hs hno hd p

/-- The client `c` (client 0) does not read, the client `d` (client 1) does; `p` publishes. -/
def exHeld : List Act :=
  exThird ++
    (List.replicate 8 [exHello, .push 3 0, .flush 3 0, .push 3 1, .flush 3 1, .normal 2 {}]).flatten ++
    [exHello, .push 3 0, .push 3 1, .flush 3 1, .normal 2 {}] ++
    (List.replicate 10 [exHello, .push 3 1, .flush 3 1, .normal 2 {}]).flatten

/-- Whether `World.heldUp`, by computation. -/
def heldUpIn (w : World) (t : TaskId) (d : ClientId) : Bool :=
  (w.onlineSession t).isSome && decide (11 ≤ (w.onTheWay t d).length) &&
    (w.inbox.get d).any fun q => q.length == 8

theorem heldUp_of {t : TaskId} {d : ClientId} (h : heldUpIn w t d = true) : w.heldUp t d := by
  unfold heldUpIn at h
  simp only [Bool.and_eq_true, decide_eq_true_eq, Option.isSome_iff_exists, Option.any_eq_true,
    beq_iff_eq] at h
  exact ⟨h.1.1, h.1.2, h.2⟩

/-- Whether a connection is established, not being closed, and of this client, by computation. -/
def awakeIn (w : World) (t : TaskId) (d : ClientId) : Bool :=
  (w.onlineSession t).any fun s => !s.disconnected && s.clientId == d

theorem awake_of {t : TaskId} {d : ClientId} (h : awakeIn w t d = true) :
    ∃ s, w.onlineSession t = some s ∧ s.disconnected = false ∧ s.clientId = d := by
  unfold awakeIn at h
  rw [Option.any_eq_true] at h
  obtain ⟨s, h1, h2⟩ := h
  simp only [Bool.and_eq_true, Bool.not_eq_true', beq_iff_eq] at h2
  exact ⟨s, h1, h2.1, h2.2⟩

theorem exHeld_ends : ∃ w evs, Reaches {} exExt exHeld w evs ∧ w.heldUp 3 0 ∧
    (∃ s, w.onlineSession 3 = some s ∧ s.disconnected = false) ∧ w.takes 2 1 := by
  obtain ⟨w, evs, h1, h2⟩ := ends_in (acts := exHeld)
    (f := fun w => heldUpIn w 3 0 && awakeIn w 3 2 && awakeIn w 2 1) (by decide +kernel)
  simp only [Bool.and_eq_true] at h2
  obtain ⟨s, h3, h4, _⟩ := awake_of h2.1.2
  obtain ⟨s', h5, h6, h7⟩ := awake_of h2.2
  exact ⟨w, evs, h1, heldUp_of h2.1.1, ⟨s, h3, h4⟩, s', h7, .inl ⟨h5, h6⟩⟩

/-- **C94** is false: the client `p` publishes on a topic to which `c` and `d` have subscribed, `c` does
not read and `d` does.  Nothing `p` sends is read any more, whatever everybody but `c` does, until `c`
takes a message or its session is discarded: `d` gets no more messages from `p`. -/
theorem C94_false : ∃ w evs, Reaches {} exExt exHeld w evs ∧
    (∃ s, w.onlineSession 3 = some s ∧ s.disconnected = false) ∧ w.takes 2 1 ∧
    ∀ acts' w' e, World.run {} exExt w acts' = some (w', e) → (∀ u src m, .took u 0 src m ∉ e) →
      w'.inbox.contains 0 = true → ∀ p, .received 3 p ∉ e := by
  obtain ⟨w, evs, h1, h2, h3, h4⟩ := exHeld_ends
  exact ⟨w, evs, h1, h3, h4, fun _ _ _ hs hno hd p => C94_waits h1 h2 hs hno hd p⟩

/-- Before that, `p` holds messages for `c` and `d`, and both take messages. -/
example : ∃ w evs s, Reaches {} exExt (exThird ++ List.replicate 5 exHello) w evs ∧
    w.onlineSession 3 = some s ∧ s.disconnected = false ∧ w.passesOn 3 ∧
    (w.onTheWay 3 0).length = 5 ∧ (w.onTheWay 3 1).length = 5 ∧ w.takes 0 0 ∧ w.takes 2 1 ∧
    ∀ d, w.onTheWay 3 d ≠ [] → (∃ u, w.takes u d) ∨ w.inbox.get d = none := by
  obtain ⟨w, evs, h1, h2⟩ := ends_in (acts := exThird ++ List.replicate 5 exHello)
    (f := fun w => awakeIn w 3 2 && awakeIn w 0 0 && awakeIn w 2 1 &&
      (w.onTheWay 3 0).length == 5 && (w.onTheWay 3 1).length == 5 && (w.onTheWay 3 2).isEmpty &&
      w.registry.nextId == 3) (by decide +kernel)
  simp only [Bool.and_eq_true, beq_iff_eq, List.isEmpty_iff] at h2
  obtain ⟨⟨⟨⟨⟨⟨h3, h4⟩, h5⟩, h6⟩, h7⟩, h8⟩, h9⟩ := h2
  obtain ⟨s, g1, g2, _⟩ := awake_of h3
  obtain ⟨s0, g3, g4, g5⟩ := awake_of h4
  obtain ⟨s1, g6, g7, g8⟩ := awake_of h5
  obtain ⟨x, hx, hst⟩ := online_stage g1
  have t0 : w.takes 0 0 := ⟨s0, g5, .inl ⟨g3, g4⟩⟩
  have t1 : w.takes 2 1 := ⟨s1, g8, .inl ⟨g6, g7⟩⟩
  refine ⟨w, evs, s, h1, g1, g2, passesOn_iff.2 ⟨x, hx, by rw [hst]; simp [Stage.sending?]⟩, h6, h7, t0, t1,
    fun d hd => ?_⟩
  match d with
  | 0 => exact .inl ⟨0, t0⟩
  | 1 => exact .inl ⟨2, t1⟩
  | 2 => exact absurd h8 hd
  | d + 3 =>
    refine .inr ?_
    cases hq : w.inbox.get (d + 3) with
    | none => rfl
    | some q =>
      have hi := (BrokerInv.run h1).own
      obtain ⟨n, hn⟩ := hi.inbox (d + 3) (by unfold FMap.contains; rw [hq]; rfl)
      have := hi.below n _ hn
      rw [h9] at this
      exact absurd this (Nat.not_lt.2 (Nat.le_add_left 3 d))

/-! ## Why a session whose client does not read takes no messages -/

variable {hooks : HookConfig} {hext : HookExt} {pr : Proto} {enc : OutPkt → Option Bytes}

/-- **C94**, the slow client itself: while the transport takes nothing and a full batch of bytes waits
to be written, the task of the connection reads nothing from the client and takes no message from its
inbox, however often it is woken. -/
theorem C94_unread {l : OnlineLoop} (hl : l.full) {is : List PollIn} {rs : List PollOut}
    (hi : ∀ i ∈ is, i.unread) (h : l.run cfg hooks hext pr enc is = some rs) :
    takenReads is rs = [] ∧ takenNormals is rs = [] := by
  induction is generalizing l rs with
  | nil =>
    cases h
    exact ⟨rfl, rfl⟩
  | cons i is ih =>
    simp only [OnlineLoop.run] at h
    split at h
    · cases h
    · rename_i r hp
      obtain ⟨h1, h2, h3⟩ := full_poll (hi i List.mem_cons_self) hl hp
      have hn : ∀ rs', takenReads is rs' = [] ∧ takenNormals is rs' = [] →
          takenReads (i :: is) (r :: rs') = [] ∧ takenNormals (i :: is) (r :: rs') = [] := by
        rintro rs' ⟨h4, h5⟩
        unfold takenReads at h4 ⊢
        unfold takenNormals at h5 ⊢
        rw [List.zip_cons_cons, List.flatMap_cons, List.flatMap_cons, h4, h5, h1, h2]
        simp
      split at h
      · cases h
        exact hn [] ⟨by simp [takenReads], by simp [takenNormals]⟩
      · cases hr : r.loop.run cfg hooks hext pr enc is with
        | none => rw [hr] at h; cases h
        | some rs' =>
          rw [hr] at h
          cases h
          exact hn rs' (ih h3 (fun i hi' => hi i (List.mem_cons_of_mem _ hi')) hr)

/-- **C94**, the slow client itself: even then it can be told to stop, and its session can be taken
over. -/
theorem C94_obeys {l : OnlineLoop} (hl : l.full) (hh : l.hook = none) (hho : l.handover = false)
    {i : PollIn} {c : CtlItem} {rest : List CtlItem} (hc : i.controls = c :: rest)
    (hne : c ≠ .other) {r : PollOut} (h : l.poll cfg hooks hext pr enc i = some r) :
    (c = .kick → r.ended = some .stopped) ∧
      (c = .takeOver → r.ended = none ∧ r.woken = true ∧
        ∀ i', i'.handover = true → ∀ r', r.loop.poll cfg hooks hext pr enc i' = some r' →
          r'.ended = some .takenOver) := by
  have hq : fullQueue l.writer.queue := hl
  simp only [OnlineLoop.poll, hh, handoverPart, hho, Bool.false_eq_true, if_false, workPart] at h
  split at h
  · cases h
  · rename_i r1 h1
    exact absurd (full_read hq h1).1 (by simp)
  · rename_i r1 h1
    obtain ⟨_, _, _, _, he, hk⟩ := full_read hq h1
    rw [hc] at h
    cases c with
    | other => exact absurd rfl hne
    | kick =>
      simp only [controlLoop, PollOut.stop] at h
      cases h
      exact ⟨fun _ => rfl, fun h => by cases h⟩
    | takeOver =>
      simp only [controlLoop] at h
      cases h
      refine ⟨fun h => by (cases h), fun _ => ⟨he, rfl, fun i' hi' r' hr' => ?_⟩⟩
      simp only [OnlineLoop.poll, hk, hh, handoverPart, hi', if_true] at hr'
      cases hr'
      rfl

/-- An encoder of long packets. -/
def exLongEnc (_ : OutPkt) : Option Bytes := some (List.replicate 2100 0)

/-- `OnlineLoop.full`, by computation. -/
def fullIn (l : OnlineLoop) : Bool :=
  match l.writer.queue with
  | .data d _ :: _ => decide (2048 ≤ d.length)
  | _ => false

theorem full_of {l : OnlineLoop} (h : fullIn l = true) : l.full := by
  unfold fullIn at h
  split at h
  · rename_i d i q hq
    exact ⟨d, i, q, hq, of_decide_eq_true h⟩
  · cases h

/-- The client has sent a PINGREQ and does not read the answer. -/
def exUnread : Option PollOut :=
  (OnlineLoop.new exLoopSession).poll {} {} exHookExt .v5 exLongEnc
    { reads := [exPing], writes := [.pending] }

/-- What it and others send then. -/
def exLater : List PollIn :=
  [{ reads := [exPing], normals := [(exMoment, .publishV5 false 1 (str "a") [1] [str "a"] 1 {} 9)], writes := [.pending] },
   { reads := [exPing, exPing], controls := [.kick] }]

example : ∃ r, exUnread = some r ∧ r.loop.full ∧ r.loop.hook = none ∧ r.loop.handover = false ∧
    (∀ i ∈ exLater, i.unread) ∧
    ∃ rs, r.loop.run {} {} exHookExt .v5 exLongEnc exLater = some rs ∧
      rs.map (fun r => r.readsLeft.length) = [1, 2] ∧
      rs.map (fun r => r.normalsLeft.length) = [1, 0] ∧ rs.map (·.ended) = [none, some .stopped] := by
  have h : (exUnread.any fun r => fullIn r.loop && r.loop.hook.isNone && !r.loop.handover &&
      (r.loop.run {} {} exHookExt .v5 exLongEnc exLater).any fun rs =>
        rs.map (fun r => r.readsLeft.length) == [1, 2] &&
        rs.map (fun r => r.normalsLeft.length) == [1, 0] &&
        rs.map (·.ended) == [none, some .stopped]) = true := by decide +kernel
  simp only [Option.any_eq_true, Bool.and_eq_true, Option.isNone_iff_eq_none, Bool.not_eq_true',
    beq_iff_eq] at h
  obtain ⟨r, h1, ⟨⟨h2, h3⟩, h4⟩, rs, h5, ⟨h6, h7⟩, h8⟩ := h
  refine ⟨r, h1, full_of h2, h3, h4, ?_, rs, h5, h6, h7, h8⟩
  simp [exLater, PollIn.unread]

end Akasa
