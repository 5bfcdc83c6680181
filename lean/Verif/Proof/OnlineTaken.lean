import Verif.Proof.OnlinePoll
/-! # What a poll takes from the connection and from the inbox -/
namespace Akasa

variable {cfg : Config} {hooks : HookConfig} {ext : HookExt} {pr : Proto}
  {enc : OutPkt → Option Bytes}

/-- What the loop over the packets did. -/
structure ReadTaken (items : List ReadItem) (r r' : PollOut) : Prop where
  normals : r'.normalsLeft = r.normalsLeft
  short : r'.short = r.short
  waits : ∀ s ∈ r'.waits, s ∈ r.waits ∨ s = .hook ∨ (s = .read ∧ r'.readsLeft = [])
  taken : ∃ taken hs, items = taken ++ r'.readsLeft ∧ r'.log = r.log ++ hs ∧
    readPackets taken = hs.filterMap Handled.packet? ++ r'.loop.hook.toList ∧
    hs.filterMap Handled.normal? = []

theorem ReadTaken.none {r : PollOut} {items : List ReadItem} {l : OnlineLoop} (hl : l.hook = none) :
    ReadTaken items r { r with loop := l, readsLeft := items } :=
  ⟨rfl, rfl, fun s hs => .inl hs, [], [], by simp, by simp, by simp [readPackets, hl], rfl⟩

theorem ReadTaken.stop {r : PollOut} {it : ReadItem} {items : List ReadItem} {l : OnlineLoop}
    {f : Flowing} {r' : PollOut} (hl : l.hook = .none) (hit : readPackets [it] = [])
    (h : some (PollOut.stop { r with loop := l, readsLeft := items }) = some (f, r')) :
    ReadTaken (it :: items) r r' := by
  simp only [PollOut.stop, Option.some.injEq, Prod.mk.injEq] at h
  obtain ⟨-, rfl⟩ := h
  exact ⟨rfl, rfl, fun s hs => .inl hs, [it], [], by simp, by simp, by simp [hit, hl], rfl⟩

theorem ReadTaken.cons {r r1 r' : PollOut} {it : ReadItem} {items : List ReadItem} {x : Handled}
    (h : ReadTaken items r1 r') (hn : r1.normalsLeft = r.normalsLeft) (hs : r1.short = r.short)
    (hw : r1.waits = r.waits) (hl : r1.log = r.log ++ [x])
    (hx : readPackets [it] = x.packet?.toList) (hx' : x.normal? = Option.none) :
    ReadTaken (it :: items) r r' := by
  obtain ⟨taken, hs', h1, h2, h3, h4⟩ := h.taken
  refine ⟨h.normals.trans hn, h.short.trans hs, by rw [← hw]; exact h.waits, it :: taken, x :: hs',
    by simp [h1], by rw [h2, hl]; simp, ?_, ?_⟩
  · have : readPackets (it :: taken) = readPackets [it] ++ readPackets taken := by
      simp only [readPackets, ← List.filterMap_append]; rfl
    rw [this, h3, hx, List.filterMap_cons]
    cases x.packet? <;> simp
  · rw [List.filterMap_cons, hx']; exact h4

theorem read_taken {items : List ReadItem} {r r' : PollOut} {f : Flowing}
    (hh : r.loop.hook = none) (h : readLoop cfg hooks ext pr items r = some (f, r')) :
    ReadTaken items r r' := by
  induction items generalizing r with
  | nil =>
    unfold readLoop at h
    simp only at h
    split at h
    · cases h; exact .none hh
    · split at h
      · cases h; exact .none hh
      · cases h
        exact ⟨rfl, rfl, fun s hs => by simp at hs; rcases hs with h | h <;> simp [h], [], [],
          by simp, by simp, by simp [readPackets, hh], rfl⟩
  | cons it items ih =>
    unfold readLoop at h
    simp only at h
    split at h
    · cases h; exact .none hh
    · split at h
      · cases h; exact .none hh
      · cases it with
        | failed => exact .stop (by exact hh) rfl h
        | malformed =>
          simp only at h
          cases pr with
          | v3 => exact .stop (by exact hh) rfl h
          | v5 =>
            simp only at h
            exact (ih (by exact hh) h).cons rfl rfl rfl rfl rfl rfl
        | packet m size p slow =>
          simp only at h
          split at h
          · cases h
            exact ⟨rfl, rfl, fun s hs => by simp at hs; rcases hs with h | h <;> simp [h], [.packet m size p slow], [], by simp, by simp,
              by simp [readPackets], rfl⟩
          · split at h
            · cases h
            · rename_i res hres
              split at h
              · simp only [PollOut.stop, Option.some.injEq, Prod.mk.injEq] at h
                obtain ⟨-, rfl⟩ := h
                exact ⟨rfl, rfl, fun s hs => .inl hs, [.packet m size p slow], [_], by simp, rfl,
                  by simp [readPackets, Handled.packet?, OnlineLoop.push, OnlineLoop.withSession, hh],
                  rfl⟩
              · exact (ih (by exact hh) h).cons rfl rfl rfl rfl rfl rfl

/-- What the loop over the messages of other sessions did. -/
structure NormalTaken (items : List (Moment × NormalMsg)) (r r' : PollOut) : Prop where
  reads : r'.readsLeft = r.readsLeft
  hook : r'.loop.hook = r.loop.hook
  waits : ∀ s ∈ r'.waits, s ∈ r.waits ∨ (s = .normal ∧ r'.normalsLeft = [])
  taken : ∃ taken hs, items = taken ++ r'.normalsLeft ∧ r'.log = r.log ++ hs ∧
    taken.map Prod.snd = hs.filterMap Handled.normal? ∧ hs.filterMap Handled.packet? = []

theorem NormalTaken.cons {r r1 r' : PollOut} {it : Moment × NormalMsg}
    {items : List (Moment × NormalMsg)} {x : Handled} (h : NormalTaken items r1 r')
    (hn : r1.readsLeft = r.readsLeft) (hh : r1.loop.hook = r.loop.hook) (hw : r1.waits = r.waits)
    (hl : r1.log = r.log ++ [x]) (hx : x.normal? = some it.2) (hx' : x.packet? = none) :
    NormalTaken (it :: items) r r' := by
  obtain ⟨taken, hs', h1, h2, h3, h4⟩ := h.taken
  exact ⟨h.reads.trans hn, h.hook.trans hh, by rw [← hw]; exact h.waits, it :: taken, x :: hs',
    by rw [List.cons_append, ← h1], by rw [h2, hl]; simp, by simp [List.filterMap_cons, hx, h3],
    by simp [List.filterMap_cons, hx', h4]⟩

theorem normal_taken {items : List (Moment × NormalMsg)} {r : PollOut} :
    NormalTaken items r (normalLoop cfg pr items r) := by
  induction items generalizing r with
  | nil =>
    unfold normalLoop
    simp only
    split
    · exact ⟨rfl, rfl, fun s hs => .inl hs, [], [], by simp, by simp, rfl, rfl⟩
    · split
      · exact ⟨rfl, rfl, fun s hs => .inl hs, [], [], by simp, by simp, rfl, rfl⟩
      · exact ⟨rfl, rfl, fun s hs => by simpa using hs, [], [], by simp, by simp, rfl, rfl⟩
  | cons it items ih =>
    unfold normalLoop
    simp only
    split
    · exact ⟨rfl, rfl, fun s hs => .inl hs, [], [], by simp, by simp, rfl, rfl⟩
    · split
      · exact ⟨rfl, rfl, fun s hs => .inl hs, [], [], by simp, by simp, rfl, rfl⟩
      · obtain ⟨m, msg⟩ := it
        simp only
        exact (ih (r := _)).cons rfl rfl rfl rfl rfl rfl

/-- A part of a poll that takes nothing. -/
structure TakesNone (D : Prop) (r r' : PollOut) : Prop where
  reads : r'.readsLeft = r.readsLeft
  normals : r'.normalsLeft = r.normalsLeft
  log : r'.log = r.log
  hook : r'.loop.hook = r.loop.hook
  waits : ∀ s ∈ r'.waits, s ∈ r.waits ∨ (s ≠ .normal ∧ (s = .read → D))

theorem control_none {items : List CtlItem} {r : PollOut} :
    TakesNone False r (controlLoop items r).2 := by
  induction items generalizing r with
  | nil => exact ⟨rfl, rfl, rfl, rfl, fun s hs => by simp [controlLoop] at hs; rcases hs with h | rfl <;> simp [*]⟩
  | cons it items ih =>
    cases it with
    | other => exact ih
    | kick => exact ⟨rfl, rfl, rfl, rfl, fun s hs => .inl hs⟩
    | takeOver => exact ⟨rfl, rfl, rfl, rfl, fun s hs => .inl hs⟩

theorem write_none {i : PollIn} {r : PollOut} : TakesNone False r (writePart enc i r).2.2 := by
  have hw : ∀ (b : Bool) (s : Source), s ∈ r.waits ++ (if b then [Source.write] else []) →
      s ∈ r.waits ∨ s = .write := by
    intro b s hs
    cases b <;> simp at hs <;> simp [hs]
  unfold writePart
  simp only
  split
  · refine ⟨rfl, rfl, rfl, rfl, fun s hs => ?_⟩
    rcases hw _ s hs with h | rfl <;> simp [*]
  · split
    · split
      · refine ⟨rfl, rfl, rfl, rfl, fun s hs => ?_⟩
        rcases hw _ s hs with h | rfl <;> simp [*]
      · refine ⟨rfl, rfl, rfl, rfl, fun s hs => ?_⟩
        rcases hw _ s hs with h | rfl <;> simp [*]
      · refine ⟨rfl, rfl, rfl, rfl, fun s hs => ?_⟩
        rcases List.mem_append.1 hs with hs | hs
        · rcases hw _ s hs with h | rfl <;> simp [*]
        · rw [List.mem_singleton.1 hs]; simp
    · refine ⟨rfl, rfl, rfl, rfl, fun s hs => ?_⟩
      rcases hw _ s hs with h | rfl <;> simp [*]

theorem drain_none {i : PollIn} {r : PollOut} {d : Disconnected} (hd : r.loop.draining.isSome) :
    TakesNone ((drainPart enc i r d).loop.draining.isSome) r (drainPart enc i r d) := by
  unfold drainPart
  simp only
  split
  · exact ⟨rfl, rfl, rfl, rfl, fun s hs => .inl hs⟩
  split
  · exact ⟨rfl, rfl, rfl, rfl, fun s hs => by simp at hs; rcases hs with h | rfl <;> simp [*]⟩
  split
  · exact ⟨rfl, rfl, rfl, rfl, fun s hs => .inl hs⟩
  · exact ⟨rfl, rfl, rfl, rfl, fun s hs => by simp at hs; rcases hs with h | rfl <;> simp [*]⟩
  split
  · exact ⟨rfl, rfl, rfl, rfl, fun s hs => .inl hs⟩
  · exact ⟨rfl, rfl, rfl, rfl, fun s hs => by simp at hs; rcases hs with h | rfl <;> simp [*]⟩
  split
  · exact ⟨rfl, rfl, rfl, rfl, fun s hs => .inl hs⟩
  split
  · exact ⟨rfl, rfl, rfl, rfl, fun s hs => .inl hs⟩
  split
  · exact ⟨rfl, rfl, rfl, rfl, fun s hs => by simp at hs; rcases hs with h | rfl <;> simp [*]⟩
  · exact ⟨rfl, rfl, rfl, rfl, fun s hs => by simp at hs; rcases hs with h | rfl <;> simp [*]⟩
  · exact ⟨rfl, rfl, rfl, rfl, fun s hs => by simp at hs; rcases hs with h | rfl <;> simp [*]⟩
  · exact ⟨rfl, rfl, rfl, rfl, fun s hs => by simp at hs; rcases hs with h | rfl | rfl <;> simp [*]⟩

theorem last_none {i : PollIn} {wrote : Bool} {r r' : PollOut}
    (h : lastPart enc i wrote r = some r') : TakesNone (r'.loop.draining.isSome) r r' := by
  unfold lastPart at h
  split at h
  · cases h
  · rename_i out got hp
    simp only at h
    have hb : ∀ s ∈ r.loop.out.blocking i.sinks, s ≠ .normal ∧ s ≠ .read := by
      intro s hs
      simp only [Outgoing.blocking, List.mem_map] at hs
      obtain ⟨e, -, rfl⟩ := hs
      simp
    split at h
    · rename_i d hd
      cases h
      have hn := drain_none (enc := enc) (i := i) (d := d)
        (r := { r with loop := { r.loop with out, draining := r.loop.draining <|> out.session.disconnectedBy }
                       got := r.got ++ got
                       waits := r.waits ++ r.loop.out.blocking i.sinks }) (by simp [hd])
      simp only [hd] at hn ⊢
      refine ⟨hn.reads, hn.normals, hn.log, hn.hook, fun s hs => ?_⟩
      rcases hn.waits s hs with h | h
      · rcases List.mem_append.1 h with h | h
        · exact .inl h
        · exact .inr ⟨(hb s h).1, fun hr => absurd hr (hb s h).2⟩
      · exact .inr h
    · cases h
      refine ⟨rfl, rfl, rfl, rfl, fun s hs => ?_⟩
      rcases List.mem_append.1 hs with h | h
      · exact .inl h
      · exact .inr ⟨(hb s h).1, fun hr => absurd hr (hb s h).2⟩

/-- What a poll takes of what it is offered. -/
structure PollTaken (i : PollIn) (hook : List (Nat × InPkt)) (r : PollOut) : Prop where
  reads : ∃ taken, i.reads = taken ++ r.readsLeft ∧
    hook ++ readPackets taken = r.log.filterMap Handled.packet? ++ r.loop.hook.toList
  normals : ∃ taken, i.normals = taken ++ r.normalsLeft ∧
    taken.map Prod.snd = r.log.filterMap Handled.normal?
  readWaits : .read ∈ r.waits → r.readsLeft = [] ∨ r.loop.draining.isSome
  normalWaits : .normal ∈ r.waits → r.normalsLeft = []

theorem work_taken {i : PollIn} {r r' : PollOut} (hh : r.loop.hook = none)
    (hn : r.normalsLeft = i.normals) (hw : r.waits = [])
    (hl : r.log.filterMap Handled.normal? = [])
    (h : workPart cfg hooks ext pr enc i r = some r') :
    PollTaken i (r.log.filterMap Handled.packet?) r' := by
  unfold workPart at h
  split at h
  · cases h
  · rename_i r1 hr
    cases h
    have h1 := read_taken hh hr
    obtain ⟨taken, xs, e1, e2, e3, e4⟩ := h1.taken
    refine ⟨⟨taken, e1, by rw [e2, e3]; simp⟩,
      ⟨[], by rw [h1.normals, hn]; rfl, by rw [e2]; simp [hl, e4]⟩, fun hs => ?_, fun hs => ?_⟩
    · rcases h1.waits _ hs with h | h | h
      · simp [hw] at h
      · simp at h
      · exact .inl h.2
    · rcases h1.waits _ hs with h | h | h
      · simp [hw] at h
      · simp at h
      · simp at h
  · rename_i r1 hr
    have h1 := read_taken hh hr
    obtain ⟨taken, xs, e1, e2, e3, e4⟩ := h1.taken
    have k1 : .read ∈ r1.waits → r1.readsLeft = [] := by
      intro hs
      rcases h1.waits _ hs with h | h | h
      · simp [hw] at h
      · simp at h
      · exact h.2
    have k2 : .normal ∉ r1.waits := by
      intro hs
      rcases h1.waits _ hs with h | h | h
      · simp [hw] at h
      · simp at h
      · simp at h
    have h2 := control_none (items := i.controls) (r := r1)
    have k3 : .normal ∉ (controlLoop i.controls r1).2.waits := by
      intro hs
      rcases h2.waits _ hs with h | h
      · exact k2 h
      · exact h.1 rfl
    have k4 : .read ∈ (controlLoop i.controls r1).2.waits →
        (controlLoop i.controls r1).2.readsLeft = [] := by
      intro hs
      rw [h2.reads]
      rcases h2.waits _ hs with h | h
      · exact k1 h
      · exact (h.2 rfl).elim
    split at h
    · rename_i r2 hc
      cases h
      rw [hc] at h2 k3 k4
      simp only at h2 k3 k4
      exact ⟨⟨taken, by rw [h2.reads, e1], by rw [h2.log, h2.hook, e2, e3]; simp⟩,
        ⟨[], by rw [h2.normals, h1.normals, hn]; rfl, by rw [h2.log, e2]; simp [hl, e4]⟩,
        fun hs => .inl (k4 hs), fun hs => absurd hs k3⟩
    · rename_i r2 hc
      rw [hc] at h2 k3 k4
      simp only at h2 k3 k4
      have h3 := normal_taken (cfg := cfg) (pr := pr) (items := i.normals) (r := r2)
      obtain ⟨ntaken, ys, d1, d2, d3, d4⟩ := h3.taken
      have h4 := write_none (enc := enc) (i := i) (r := normalLoop cfg pr i.normals r2)
      have k5 : .normal ∈ (writePart enc i (normalLoop cfg pr i.normals r2)).2.2.waits →
          (writePart enc i (normalLoop cfg pr i.normals r2)).2.2.normalsLeft = [] := by
        intro hs
        rw [h4.normals]
        rcases h4.waits _ hs with h | h
        · rcases h3.waits _ h with h | h
          · exact absurd h k3
          · exact h.2
        · exact absurd rfl h.1
      have k6 : .read ∈ (writePart enc i (normalLoop cfg pr i.normals r2)).2.2.waits →
          (writePart enc i (normalLoop cfg pr i.normals r2)).2.2.readsLeft = [] := by
        intro hs
        rw [h4.reads, h3.reads]
        rcases h4.waits _ hs with h | h
        · rcases h3.waits _ h with h | h
          · exact k4 h
          · cases h.1
        · exact (h.2 rfl).elim
      split at h
      · rename_i w r3 hp
        cases h
        rw [hp] at h4 k5 k6
        simp only at h4 k5 k6
        exact ⟨⟨taken, by rw [h4.reads, h3.reads, h2.reads, e1],
            by rw [h4.log, h4.hook, h3.hook, d2, h2.log, h2.hook, e2, e3]; simp [d4]⟩,
          ⟨ntaken, by rw [h4.normals, ← d1], by rw [h4.log, d2, h2.log, e2, d3]; simp [hl, e4]⟩,
          fun hs => .inl (k6 hs), k5⟩
      · rename_i w r3 hp
        rw [hp] at h4 k5 k6
        simp only at h4 k5 k6
        have h5 := last_none h
        refine ⟨⟨taken, by rw [h5.reads, h4.reads, h3.reads, h2.reads, e1],
            by rw [h5.log, h5.hook, h4.log, h4.hook, h3.hook, d2, h2.log, h2.hook, e2, e3]
               simp [d4]⟩,
          ⟨ntaken, by rw [h5.normals, h4.normals, ← d1],
            by rw [h5.log, h4.log, d2, h2.log, e2, d3]; simp [hl, e4]⟩, fun hs => ?_, fun hs => ?_⟩
        · rcases h5.waits _ hs with h | h
          · exact .inl (by rw [h5.reads]; exact k6 h)
          · exact .inr (h.2 rfl)
        · rcases h5.waits _ hs with h | h
          · rw [h5.normals]; exact k5 h
          · exact absurd rfl h.1

theorem poll_taken {l : OnlineLoop} {i : PollIn} {r : PollOut}
    (h : l.poll cfg hooks ext pr enc i = some r) : PollTaken i l.hook.toList r := by
  have hand : ∀ r0 : PollOut, r0.loop.hook = none → r0.readsLeft = i.reads →
      r0.normalsLeft = i.normals → r0.waits = [] → r0.log.filterMap Handled.normal? = [] →
      handoverPart cfg hooks ext pr enc i r0 = some r →
      PollTaken i (r0.log.filterMap Handled.packet?) r := by
    intro r0 hh hrd hn hw hl h
    unfold handoverPart at h
    split at h
    · split at h
      · cases h
        exact ⟨⟨[], by simp [hrd], by simp [readPackets, hh]⟩, ⟨[], by simp [hn], by simp [hl]⟩,
          by simp [hw], by simp [hw]⟩
      · cases h
        exact ⟨⟨[], by simp [hrd], by simp [readPackets, hh]⟩, ⟨[], by simp [hn], by simp [hl]⟩,
          by simp [hw], by simp [hw]⟩
    · exact work_taken hh hn hw hl h
  unfold OnlineLoop.poll at h
  simp only at h
  split at h
  · rename_i hk
    rw [hk]
    exact hand _ hk rfl rfl rfl rfl h
  · rename_i size p hk
    split at h
    · cases h
      exact ⟨⟨[], by simp, by simp [readPackets]⟩, ⟨[], by simp, by simp⟩, by simp, by simp⟩
    · split at h
      · cases h
      · split at h
        · cases h
          exact ⟨⟨[], by simp, by simp [readPackets, hk, Handled.packet?, OnlineLoop.push,
            OnlineLoop.withSession]⟩, ⟨[], by simp, by simp [Handled.normal?]⟩, by simp, by simp⟩
        · rw [hk]
          exact hand _ rfl rfl rfl rfl rfl h

theorem loop_run_taken {l : OnlineLoop} {is : List PollIn} {rs : List PollOut}
    (h : l.run cfg hooks ext pr enc is = some rs) :
    (∀ x ∈ is.zip rs, x.2.readsLeft <:+ x.1.reads ∧ x.2.normalsLeft <:+ x.1.normals) ∧
    l.hook.toList ++ readPackets (takenReads is rs) = (handledBy rs).filterMap Handled.packet? ++
      (match rs.getLast? with | none => l.hook | some r => r.loop.hook).toList ∧
    (takenNormals is rs).map Prod.snd = (handledBy rs).filterMap Handled.normal? := by
  induction is generalizing l rs with
  | nil =>
    simp only [OnlineLoop.run, Option.some.injEq] at h
    subst h
    simp [takenReads, takenNormals, readPackets, handledBy]
  | cons i is ih =>
    simp only [OnlineLoop.run] at h
    split at h
    · cases h
    · rename_i r hp
      have ht := poll_taken hp
      obtain ⟨t1, e1, e2⟩ := ht.reads
      obtain ⟨t2, d1, d2⟩ := ht.normals
      have k1 : i.reads.take (i.reads.length - r.readsLeft.length) = t1 := by simp [e1]
      have k2 : i.normals.take (i.normals.length - r.normalsLeft.length) = t2 := by simp [d1]
      have s1 : r.readsLeft <:+ i.reads := ⟨t1, e1.symm⟩
      have s2 : r.normalsLeft <:+ i.normals := ⟨t2, d1.symm⟩
      split at h
      · cases h
        refine ⟨by simp [s1, s2], ?_, ?_⟩
        · simp [takenReads, k1, handledBy, e2]
        · simp [takenNormals, k2, handledBy, d2]
      · cases h' : OnlineLoop.run cfg hooks ext pr enc r.loop is with
        | none => rw [h'] at h; cases h
        | some rs' =>
          rw [h'] at h
          cases h
          obtain ⟨i1, i2, i3⟩ := ih h'
          refine ⟨?_, ?_, ?_⟩
          · intro x hx
            rw [List.zip_cons_cons] at hx
            rcases List.mem_cons.1 hx with rfl | hx
            · exact ⟨s1, s2⟩
            · exact i1 x hx
          · have a1 : readPackets (takenReads (i :: is) (r :: rs')) =
                readPackets t1 ++ readPackets (takenReads is rs') := by
              simp [takenReads, k1, readPackets]
            have a2 : (match (r :: rs').getLast? with | none => l.hook | some r => r.loop.hook) =
                (match rs'.getLast? with | none => r.loop.hook | some r => r.loop.hook) := by
              cases rs' with
              | nil => rfl
              | cons a b =>
                rw [List.getLast?_cons_cons]
                cases hg : (a :: b).getLast? with
                | none => simp at hg
                | some q => rfl
            rw [a1, a2, ← List.append_assoc, e2, List.append_assoc, i2]
            simp [handledBy]
          · simp only [takenNormals, List.zip_cons_cons, List.flatMap_cons, List.map_append, k2, d2]
            have : List.map Prod.snd (takenNormals is rs') = _ := i3
            simp only [takenNormals] at this
            rw [this]
            simp [handledBy]

end Akasa
