import Verif.Proof.OnlineLoop
/-! # A whole poll of the task of a connection -/
namespace Akasa

variable {cfg : Config} {hooks : HookConfig} {ext : HookExt} {pr : Proto}
  {enc : OutPkt → Option Bytes}

/-- What is known when a connection is being closed and the task is not over. -/
structure DrainDone (r r' : PollOut) : Prop where
  kept : r'.loop.out = r.loop.out ∧ r'.loop.hook = r.loop.hook ∧
    r'.loop.handover = r.loop.handover ∧ r'.loop.draining = r.loop.draining
  waits : ∀ s ∈ r.waits, s ∈ r'.waits
  live : r'.loop.writer.live = true
  closes : ∃ s ∈ Chore.close.source, s ∈ r'.waits
  write : r'.loop.writer.queue ≠ [] → Source.write ∈ r'.waits
  flush : r'.loop.unflushed = true →
    (Source.write ∈ r'.waits ∧ r'.loop.writer.queue ≠ []) ∨ Source.flush ∈ r'.waits

theorem drain_done {i : PollIn} {l : OnlineLoop} {r : PollOut} {d : Disconnected}
    (hd : Did cfg hooks ext pr enc l r) (hh : r.loop.hook = none) (hl : r.loop.writer.live = true)
    (he : r.ended = none) :
    Did cfg hooks ext pr enc l (drainPart enc i r d) ∧
    (drainPart enc i r d).loop.out = r.loop.out ∧ (drainPart enc i r d).loop.hook = r.loop.hook ∧
    ((drainPart enc i r d).ended = none → DrainDone r (drainPart enc i r d)) := by
  have hp := pass_done (enc := enc) true i.drainWrites { writer := r.loop.writer } rfl rfl
  have hr := pass_run (cfg := cfg) (hooks := hooks) (ext := ext) (pr := pr) (enc := enc) true
    i.drainWrites hh { writer := r.loop.writer }
  have hd0 : ∀ (r1 : PollOut), r1.loop.out = r.loop.out →
      r1.loop.writer = (Writer.pass enc true i.drainWrites { writer := r.loop.writer }).writer →
      r1.loop.hook = r.loop.hook → r1.log = r.log → r1.got = r.got →
      Did cfg hooks ext pr enc l r1 := by
    intro r1 h1 h2 h3 h4 h5
    have h6 := LRun.trans hd hr
    simp only [List.append_nil] at h6
    have h7 := h6.snoc (.flags (l' := r1.loop) h1 h2 h3)
    unfold Did
    rw [h4, h5]
    simpa using h7
  unfold drainPart
  simp only
  generalize hgen : Writer.pass enc true i.drainWrites { writer := r.loop.writer } = a at hp hr hd0
  have hend : ∀ {P : Prop} {x : LoopEnd}, some x = none → P := fun h => by cases h
  split
  · exact ⟨hd0 _ rfl rfl rfl rfl rfl, rfl, rfl, hend⟩
  · rename_i hv
    have hv : a.writer.live = true := by simpa using hv
    split
    · rename_i hb
      refine ⟨hd0 _ rfl rfl rfl rfl rfl, rfl, rfl, fun _ => ⟨⟨rfl, rfl, rfl, rfl⟩,
        (fun s hs => by simp [hs]), hv, ⟨.write, by simp [Chore.source], by simp⟩, (fun _ => by simp),
        fun _ => .inl ⟨by simp, hp.blocked hb⟩⟩⟩
    · rename_i hb
      have hempty : a.writer.queue = [] := Classical.byContradiction fun hq => by
        rcases hp.left hv hq with h | h
        · exact hb h
        · rw [hp.drain rfl] at h; cases h
      cases i.drainFlush with
      | error => exact ⟨hd0 _ rfl rfl rfl rfl rfl, rfl, rfl, hend⟩
      | pending =>
        refine ⟨hd0 _ rfl rfl rfl rfl rfl, rfl, rfl, fun _ => ⟨⟨rfl, rfl, rfl, rfl⟩,
          (fun s hs => by simp [hs]), hv, ⟨.flush, by simp [Chore.source], by simp⟩,
          (fun hq => absurd hempty hq), fun _ => .inr (by simp)⟩⟩
      | ready =>
        simp only
        cases i.shutdown with
        | error => exact ⟨hd0 _ rfl rfl rfl rfl rfl, rfl, rfl, hend⟩
        | pending =>
          refine ⟨hd0 _ rfl rfl rfl rfl rfl, rfl, rfl, fun _ => ⟨⟨rfl, rfl, rfl, rfl⟩,
            (fun s hs => by simp [hs]), hv, ⟨.shutdown, by simp [Chore.source], by simp⟩,
            (fun hq => absurd hempty hq), fun hu => by cases hu⟩⟩
        | ready =>
          simp only
          split
          · exact ⟨hd0 _ rfl rfl rfl rfl rfl, rfl, rfl, hend⟩
          · split
            · exact ⟨hd0 _ rfl rfl rfl rfl rfl, rfl, rfl, hend⟩
            · cases i.drainRead with
              | eof => exact ⟨hd0 _ rfl rfl rfl rfl rfl, rfl, rfl, hend⟩
              | error => exact ⟨hd0 _ rfl rfl rfl rfl rfl, rfl, rfl, hend⟩
              | data =>
                refine ⟨hd0 _ rfl rfl rfl rfl rfl, rfl, rfl, fun _ => ⟨⟨rfl, rfl, rfl, rfl⟩,
                  (fun s hs => by simp [hs]), hv, ⟨.timer, by simp [Chore.source], by simp⟩,
                  (fun hq => absurd hempty hq), fun hu => by cases hu⟩⟩
              | pending =>
                refine ⟨hd0 _ rfl rfl rfl rfl rfl, rfl, rfl, fun _ => ⟨⟨rfl, rfl, rfl, rfl⟩,
                  (fun s hs => by simp [hs]), hv, ⟨.timer, by simp [Chore.source], by simp⟩,
                  (fun hq => absurd hempty hq), fun hu => by cases hu⟩⟩

/-- What is known at the end of a poll that did everything and is not over. -/
structure LastDone (i : PollIn) (wrote : Bool) (r r' : PollOut) : Prop where
  waits : ∀ s ∈ r.waits, s ∈ r'.waits
  hook : r'.loop.hook = none
  handover : r'.loop.handover = r.loop.handover
  live : r'.loop.writer.live = true
  disc : r'.loop.out.session.disconnected = r.loop.out.session.disconnected
  sinks : ∀ d, r'.loop.out.inTransit d ≠ [] → Source.sink d ∈ r'.waits
  drain : r'.loop.draining.isSome → r.loop.draining.isSome ∨
    r'.loop.out.session.disconnected = true
  which : (r'.loop.draining.isSome ∧ (∃ s ∈ Chore.close.source, s ∈ r'.waits) ∧
      (r'.loop.writer.queue ≠ [] → Source.write ∈ r'.waits) ∧
      (r'.loop.unflushed = true →
        (Source.write ∈ r'.waits ∧ r'.loop.writer.queue ≠ []) ∨ Source.flush ∈ r'.waits)) ∨
    (r'.loop.out.session.disconnected = false ∧ r'.loop.writer = r.loop.writer ∧
      r'.loop.unflushed = r.loop.unflushed ∧ r'.short = r.short ∧
      r'.loop.readHeld = r.loop.readHeld ∧ r'.loop.normalHeld = r.loop.normalHeld ∧
      (r'.woken = false → (wrote = true → r.loop.readHeld = false ∧ r.loop.normalHeld = false) ∧
        (r.loop.readHeld = true →
          r'.loop.out.session.bcastCnt = r.loop.out.session.bcastCnt)))

theorem last_done {i : PollIn} {l : OnlineLoop} {r r' : PollOut} {wrote : Bool}
    (hd : Did cfg hooks ext pr enc l r) (hh : r.loop.hook = none) (hl : r.loop.writer.live = true)
    (he : r.ended = none) (h : lastPart enc i wrote r = some r') :
    Did cfg hooks ext pr enc l r' ∧ (r'.ended = none → LastDone i wrote r r') := by
  unfold lastPart at h
  split at h
  · cases h
  · rename_i out got hpass
    simp only at h
    have hs : LStep cfg hooks ext pr enc r.loop [] got { r.loop with out := out } := .pass hh hpass
    have hd1 : Did cfg hooks ext pr enc l
        { r with loop := { r.loop with out := out }, got := r.got ++ got } :=
      hd.step hs (by simp) rfl
    have hdisc : out.session.disconnected = r.loop.out.session.disconnected := by
      rw [pass_core hpass]; rfl
    have hsinks : ∀ d, out.inTransit d ≠ [] → Source.sink d ∈ r.loop.out.blocking i.sinks := by
      intro d hx
      unfold Outgoing.inTransit at hx
      cases hg : out.session.bcast.get d with
      | none => rw [hg] at hx; exact absurd rfl hx
      | some ms => exact blocking_of hpass hg
    generalize hdr : (r.loop.draining <|> out.session.disconnectedBy) = dr at h
    have hdrs : dr.isSome → r.loop.draining.isSome ∨ out.session.disconnected = true := by
      intro hx
      rw [← hdr] at hx
      cases hrd : r.loop.draining with
      | some _ => exact .inl rfl
      | none =>
        rw [hrd] at hx
        right
        have hx : out.session.disconnectedBy.isSome := hx
        obtain ⟨d, hd⟩ := Option.isSome_iff_exists.mp hx
        exact disconnectedBy_some hd
    cases dr with
    | some d =>
      simp only [Option.some.injEq] at h
      subst h
      have hd2 : Did cfg hooks ext pr enc l { r with
          loop := { r.loop with out := out, draining := some d }, got := r.got ++ got
          waits := r.waits ++ r.loop.out.blocking i.sinks } := hd1.same rfl rfl rfl rfl rfl
      obtain ⟨h1, h2, h3, h4⟩ := drain_done (i := i) (d := d) hd2 hh hl he
      refine ⟨h1, fun hne => ?_⟩
      have hdd := h4 hne
      refine ⟨fun s hs => hdd.waits s (by simp [hs]), h3.trans hh, hdd.kept.2.2.1, hdd.live, ?_, ?_, ?_,
        .inl ⟨?_, hdd.closes, hdd.write, hdd.flush⟩⟩
      · rw [h2]; exact hdisc
      · intro d hx
        rw [h2] at hx
        exact hdd.waits _ (by simp [hsinks d hx])
      · intro _
        rw [h2]
        exact hdrs rfl
      · rw [hdd.kept.2.2.2]; rfl
    | none =>
      simp only [Option.some.injEq] at h
      subst h
      refine ⟨hd1.same rfl rfl rfl rfl rfl, fun _ => ⟨(fun s hs => by simp [hs]), hh, rfl, hl, hdisc,
        (fun d hx => by simp [hsinks d hx]), (fun hx => by cases hx), .inr ⟨?_, rfl, rfl, rfl, rfl, rfl, ?_⟩⟩⟩
      · simp only
        cases hrd : r.loop.draining with
        | some _ => rw [hrd] at hdr; cases hdr
        | none => rw [hrd] at hdr; exact disconnectedBy_none hdr
      · intro hw
        simp only [Bool.or_eq_false_iff, Bool.and_eq_false_iff, decide_eq_false_iff_not] at hw
        refine ⟨fun h1 => ?_, fun h1 => ?_⟩
        · rcases hw.1 with h | h
          · rw [h1] at h; cases h
          · exact h
        · have h2 := pass_le hpass
          rcases hw.2 with h | h
          · simp only; omega
          · rw [h1] at h; cases h

/-- What always holds of a task between its polls. -/
structure LoopInv (l : OnlineLoop) : Prop extends StepInv l where
  live : l.writer.live = true
  drain : l.draining.isSome → l.out.session.disconnected = true

theorem did_refl (l : OnlineLoop) {w : List Source} {a : List ReadItem}
    {b : List (Moment × NormalMsg)} :
    Did cfg hooks ext pr enc l { loop := l, waits := w, readsLeft := a, normalsLeft := b } := .nil

/-- Nothing has been left unflushed for good. -/
def OnlineLoop.Tidy (l : OnlineLoop) : Prop :=
  l.unflushed = true → l.writer.queue ≠ [] ∨ l.draining.isSome

/-- What is known after a poll. -/
structure PollDone (i : PollIn) (l : OnlineLoop) (r : PollOut) : Prop where
  inv : LoopInv r.loop
  awaits : r.woken = false → ∀ c, r.loop.todo c → Awaits r.loop r.waits c ∨
    (c = .write ∧ r.short = true) ∨
    (c = .flush ∧ l.unflushed = true ∧ l.writer.queue = [] ∧ l.draining = none)
  flush : i.flush ≠ .pending → l.Tidy → r.loop.Tidy

theorem work_done {i : PollIn} {l : OnlineLoop} {r0 r : PollOut}
    (hd : Did cfg hooks ext pr enc l r0) (hi : StepInv l) (hh : r0.loop.hook = none)
    (hl : r0.loop.writer.live = true) (he : r0.ended = none) (hho : r0.loop.handover = false)
    (hdr : r0.loop.draining.isSome → r0.loop.out.session.disconnected = true)
    (h : workPart cfg hooks ext pr enc i r0 = some r) :
    DidAll cfg hooks ext pr enc l r ∧
      (r.ended = none → Did cfg hooks ext pr enc l r ∧ PollDone i r0.loop r) := by
  unfold workPart at h
  split at h
  · cases h
  · rename_i r1 hread
    cases h
    obtain ⟨h1, h2, -⟩ := read_done hd hh hread
    refine ⟨h1, fun hne => ?_⟩
    have hback := h2.back rfl
    rw [hne] at hback
    have hhk : r.loop.hook.isSome ∧ Source.hook ∈ r.waits := by simpa using hback
    have hdid : Did cfg hooks ext pr enc l r := by
      rcases h1 with h1 | ⟨_, _, _, hx, _⟩
      · exact h1
      · rw [hne] at hx; cases hx
    exact ⟨hdid, ⟨⟨stepInv_run hi hdid, h2.live.trans hl,
      (fun hx => h2.disc (hdr (by rw [← h2.kept.2.1]; exact hx)))⟩,
      (fun _ c _ => .inl (.hook hhk.1 hhk.2)),
      (fun _ ht hu => by
        rw [h2.kept.2.2.1] at hu
        rw [h2.kept.2.1]
        exact (ht hu).imp_left h2.queue)⟩⟩
  · rename_i r1 hread
    obtain ⟨-, h2, h3⟩ := read_done hd hh hread
    have hd1 := h3 rfl
    obtain ⟨hr1, hr2, hr3⟩ := h2.on rfl
    split at h
    · rename_i r2 hctl
      cases h
      obtain ⟨h4, -, h6⟩ := control_done hd1 hctl
      refine ⟨.inl h4, fun hne => ?_⟩
      have hw : r.woken = true := by
        rcases h6 rfl with h | h
        · rw [hne] at h; cases h
        · exact h
      have hsame := control_back hctl
      refine ⟨h4, ⟨⟨stepInv_run hi h4, ?_, ?_⟩, (fun hx => by rw [hw] at hx; cases hx),
        fun _ ht hu => ?_⟩⟩
      · rw [hsame.1]; exact h2.live.trans hl
      · intro hx
        rw [hsame.2.1]
        refine h2.disc (hdr ?_)
        rw [← h2.kept.2.1, ← hsame.2.2.1]; exact hx
      · rw [hsame.2.2.2.2, h2.kept.2.2.1] at hu
        rw [hsame.1, hsame.2.2.1, h2.kept.2.1]
        exact (ht hu).imp_left h2.queue
    · rename_i r2 hctl
      obtain ⟨h4, h5, -⟩ := control_done hd1 hctl
      obtain ⟨hl2, hw2, he2, hws2, hc2⟩ := h5 rfl
      obtain ⟨h6, h7⟩ := normal_done (items := i.normals) h4 (by rw [hl2]; exact hr2)
      generalize hr3' : normalLoop cfg pr i.normals r2 = r3 at h h6 h7
      have hh3 : r3.loop.hook = none := by rw [h7.kept.2.2.2.2.2.1, hl2]; exact hr2
      have hl3 : r3.loop.writer.live = true := by rw [h7.live, hl2, h2.live]; exact hl
      have he3 : r3.ended = none := by rw [h7.kept.2.2.2.2.1, he2, hr1]; exact he
      split at h
      · rename_i r4 hwr
        cases h
        obtain ⟨h8, -, h10⟩ := write_done h6 hh3 hl3 hwr
        exact ⟨.inl h8, fun hne => by rw [h10 rfl] at hne; cases hne⟩
      · rename_i wrote r4 hwr
        obtain ⟨h8, h9, -⟩ := write_done h6 hh3 hl3 hwr
        have h9 := h9 rfl
        have hh4 : r4.loop.hook = none := h9.kept.2.2.2.2.2.1.trans hh3
        have he4 : r4.ended = none := h9.kept.2.2.2.2.1.trans he3
        obtain ⟨h11, h12⟩ := last_done h8 hh4 h9.live he4 h
        refine ⟨.inl h11, fun hne => ?_⟩
        have h12 := h12 hne
        have hsi := stepInv_run hi h11
        have hdisc : r0.loop.out.session.disconnected = true →
            r.loop.out.session.disconnected = true := by
          intro hx
          rw [h12.disc, h9.kept.2.2.1]
          exact h7.disc (by rw [hl2]; exact h2.disc hx)
        have hdrain : r.loop.draining.isSome → r.loop.out.session.disconnected = true := by
          intro hx
          rcases h12.drain hx with h | h
          · refine hdisc (hdr ?_)
            rw [h9.kept.2.1, h7.kept.2.1, hl2, h2.kept.2.1] at h
            exact h
          · exact h
        have hwaits : ∀ s ∈ r1.waits, s ∈ r.waits := fun s hs =>
          h12.waits s (h9.waits s (h7.waits s (hws2 s hs)))
        have hun : r3.loop.unflushed = r0.loop.unflushed := by
          rw [h7.kept.2.2.1, hl2, h2.kept.2.2.1]
        have hqm : r0.loop.writer.queue ≠ [] → r3.loop.writer.queue ≠ [] := by
          intro hq
          exact h7.queue (by rw [hl2]; exact h2.queue hq)
        have hrh : r4.loop.readHeld = r1.loop.readHeld := by
          rw [h9.kept.2.2.2.2.2.2.1, h7.kept.2.2.2.2.2.2, hl2]
        have hflush : r.loop.unflushed = true →
            (Source.write ∈ r.waits ∧ r.loop.writer.queue ≠ []) ∨
            Source.flush ∈ r.waits ∨ (r0.loop.unflushed = true ∧ r0.loop.writer.queue = [] ∧
              r0.loop.draining = none) := by
          intro hu
          rcases h12.which with ⟨-, -, -, hf⟩ | ⟨hnd, hwq, huf, -⟩
          · rcases hf hu with h | h
            · exact .inl h
            · exact .inr (.inl h)
          · rw [huf] at hu
            rcases h9.flush hu with h | h | h
            · exact .inl ⟨h12.waits _ h.1, by rw [hwq]; exact h.2⟩
            · exact .inr (.inl (h12.waits _ h.2))
            · refine .inr (.inr ⟨by rw [← hun]; exact h.1,
                Classical.byContradiction fun hq => hqm hq h.2, ?_⟩)
              cases hx : r0.loop.draining with
              | none => rfl
              | some _ => rw [hdisc (hdr (by rw [hx]; rfl))] at hnd; cases hnd
        refine ⟨h11, ⟨⟨hsi, h12.live, hdrain⟩, fun hw c hc => ?_,
          fun hif ht hu => ?_⟩⟩
        · -- behind a full write queue
          have hheld : (r4.loop.readHeld = true ∨ r4.loop.normalHeld = true) →
              r3.loop.writer.queue ≠ [] → r.loop.out.session.disconnected = false →
              Source.write ∈ r.waits ∧ r.loop.todo .write := by
            intro hx hq hnd
            rcases h12.which with ⟨hds, -⟩ | ⟨-, hwq, -, -, -, -, hwk⟩
            · rw [hdrain hds] at hnd; cases hnd
            · have hwk := (hwk hw).1
              rcases h9.did hq with h | h
              · have := hwk h
                rcases hx with hx | hx
                · rw [this.1] at hx; cases hx
                · rw [this.2] at hx; cases hx
              · exact ⟨h12.waits _ h.1, by
                  show r.loop.writer.queue ≠ []
                  rw [hwq]; exact h.2⟩
          cases c with
          | read =>
            left
            have hc : r.loop.out.session.disconnected = false := hc
            rcases hr3 with h | h | h
            · have : r.loop.out.session.disconnected = true := by
                rw [h12.disc, h9.kept.2.2.1]
                exact h7.disc (by rw [hl2]; exact h)
              rw [hc] at this; cases this
            · obtain ⟨hheldr, hwhy⟩ := h
              rcases hwhy with hq | hcnt
              · have := hheld (.inl (hrh.trans hheldr))
                  (h7.queue (by rw [hl2]; exact tooMuch_ne hq)) hc
                exact .behindWrite (by simp) this.2 (.direct (by simp [Chore.source]) this.1)
              · rcases h12.which with ⟨hds, -⟩ | ⟨-, -, -, -, -, -, hwk⟩
                · rw [hdrain hds] at hc; cases hc
                · have hwk := (hwk hw).2 (hrh.trans hheldr)
                  have hcnt' : r.loop.out.session.bcastCnt ≥ bcastMax := by
                    rw [hwk, h9.kept.2.2.1]
                    have := congrArg Prod.snd h7.copies
                    have h' : r3.loop.out.session.bcastCnt = r2.loop.out.session.bcastCnt := this
                    rw [h', hl2]
                    exact hcnt
                  have hpos : queuedCopies r.loop.out.session.bcast > 0 := by
                    rw [← hsi.tinv.count]
                    exact Nat.lt_of_lt_of_le (by decide) hcnt'
                  obtain ⟨d, ms, hg, hms⟩ := queued_some hsi.tinv.wf hpos
                  have htr : r.loop.out.inTransit d ≠ [] := by
                    unfold Outgoing.inTransit
                    rw [hg]
                    exact List.append_ne_nil_of_right_ne_nil _ hms
                  exact .behindPass d htr
                    (.direct (s := .sink d) (by simp [Chore.source]) (h12.sinks d htr))
            · exact .direct (s := .read) (by simp [Chore.source]) (hwaits _ h)
          | control =>
            exact .inl (.direct (s := .control) (by simp [Chore.source])
              (h12.waits _ (h9.waits _ (h7.waits _ hc2))))
          | normal =>
            left
            have hc : r.loop.out.session.disconnected = false := hc
            rcases h7.how with h | h | h
            · rw [h12.disc, h9.kept.2.2.1, h] at hc; cases hc
            · have := hheld (.inr (h9.kept.2.2.2.2.2.2.2.trans h.1)) (tooMuch_ne h.2) hc
              exact .behindWrite (by simp) this.2 (.direct (by simp [Chore.source]) this.1)
            · exact .direct (s := .normal) (by simp [Chore.source]) (h12.waits _ (h9.waits _ h))
          | write =>
            have hc : r.loop.writer.queue ≠ [] := hc
            rcases h12.which with ⟨-, -, hq, -⟩ | ⟨-, hwq, -, hsh, -⟩
            · exact .inl (.direct (s := .write) (by simp [Chore.source]) (hq hc))
            · rw [hwq] at hc
              rcases h9.left hc with h | h
              · exact .inl (.direct (s := .write) (by simp [Chore.source]) (h12.waits _ h))
              · exact .inr (.inl ⟨rfl, hsh.trans h⟩)
          | flush =>
            rcases hflush hc with h | h | h
            · exact .inl (.behindWrite (by simp) h.2 (.direct (by simp [Chore.source]) h.1))
            · exact .inl (.direct (s := .flush) (by simp [Chore.source]) h)
            · exact .inr (.inr ⟨rfl, h⟩)
          | pass d =>
            exact .inl (.direct (s := .sink d) (by simp [Chore.source]) (h12.sinks d hc))
          | close =>
            left
            have hc : r.loop.out.session.disconnected = true := hc
            rcases h12.which with ⟨-, ⟨s, hs, hm⟩, -⟩ | ⟨hx, -⟩
            · exact .direct hs hm
            · rw [hc] at hx; cases hx
        · rcases h12.which with ⟨hds, -⟩ | ⟨hnd, hwq, huf, -⟩
          · exact .inr hds
          · rw [huf] at hu
            rcases h9.flush hu with h | h | h
            · left; rw [hwq]; exact h.2
            · exact absurd h.1 hif
            · rcases ht (by rw [← hun]; exact h.1) with h' | h'
              · exact absurd h.2 (hqm h')
              · rw [hdisc (hdr h')] at hnd; cases hnd

/-- What is known after a poll. -/
theorem poll_done {i : PollIn} {l : OnlineLoop} {r : PollOut} (hi : LoopInv l)
    (h : l.poll cfg hooks ext pr enc i = some r) :
    DidAll cfg hooks ext pr enc l r ∧
      (r.ended = none → Did cfg hooks ext pr enc l r ∧ PollDone i l r) := by
  have hand : ∀ {r0 : PollOut}, Did cfg hooks ext pr enc l r0 → r0.loop.hook = none →
      r0.loop.writer.live = true → r0.ended = none →
      (r0.loop.draining.isSome → r0.loop.out.session.disconnected = true) →
      r0.loop.unflushed = l.unflushed → r0.loop.draining = l.draining → (l.writer.queue ≠ [] → r0.loop.writer.queue ≠ []) →
      handoverPart cfg hooks ext pr enc i r0 = some r →
      DidAll cfg hooks ext pr enc l r ∧
        (r.ended = none → Did cfg hooks ext pr enc l r ∧ PollDone i l r) := by
    intro r0 hd hh hl he hdr hun hdrn hq h
    have htidy : l.Tidy → r0.loop.Tidy := by
      intro ht hu
      rw [hun] at hu
      rw [hdrn]
      exact (ht hu).imp_left hq
    unfold handoverPart at h
    split at h
    · rename_i hho
      split at h
      · cases h
        exact ⟨.inl hd, fun hne => by cases hne⟩
      · cases h
        have hd' : Did cfg hooks ext pr enc l { r0 with waits := r0.waits ++ [.handover] } := hd
        exact ⟨.inl hd', fun _ => ⟨hd', ⟨⟨stepInv_run hi.toStepInv hd, hl, hdr⟩,
          (fun _ c _ => .inl (.handover hho (by simp))),
          (fun _ ht hu => htidy ht hu)⟩⟩⟩
    · rename_i hho
      obtain ⟨h1, h2⟩ := work_done hd hi.toStepInv hh hl he (by simpa using hho) hdr h
      have hback : r0.loop.unflushed = true ∧ r0.loop.writer.queue = [] ∧ r0.loop.draining = none →
          l.unflushed = true ∧ l.writer.queue = [] ∧ l.draining = none := by
        intro hx
        exact ⟨hun ▸ hx.1, Classical.byContradiction fun hy => hq hy hx.2.1, hdrn ▸ hx.2.2⟩
      refine ⟨h1, fun hne => ⟨(h2 hne).1, ⟨(h2 hne).2.inv, fun hw c hc => ?_,
        fun hif ht => (h2 hne).2.flush hif (htidy ht)⟩⟩⟩
      · rcases (h2 hne).2.awaits hw c hc with h | h | h
        · exact .inl h
        · exact .inr (.inl h)
        · exact .inr (.inr ⟨h.1, hback h.2⟩)
  unfold OnlineLoop.poll at h
  split at h
  · rename_i hh
    exact hand (did_refl l) hh hi.live rfl hi.drain rfl rfl id h
  · rename_i size p hh
    split at h
    · cases h
      exact ⟨.inl (did_refl l), fun _ => ⟨did_refl l, ⟨hi,
        (fun _ c _ => .inl (.hook (by simp [hh]) (by simp))),
        (fun _ ht => ht)⟩⟩⟩
    · rename_i m hm
      split at h
      · cases h
      · rename_i res hres
        simp only at h
        split at h
        · rename_i hcl
          cases h
          refine ⟨.inr ⟨[], ⟨.packet m size p, res.out⟩, l, rfl, rfl, .nil, ⟨⟨m, size, p, res, hres, hcl, rfl, rfl⟩,
            .inl (by simp [hh])⟩⟩, fun hne => by cases hne⟩
        · rename_i hcl
          have hd : Did cfg hooks ext pr enc l
              { loop := (({ l with hook := none } : OnlineLoop).withSession res.session).push res.out
                readsLeft := i.reads
                normalsLeft := i.normals
                log := [⟨.packet m size p, res.out⟩] } := LRun.one (.answer hh hres (by simpa using hcl))
          refine hand hd rfl hi.live rfl (fun hx => ?_) rfl rfl
            (fun hq => List.append_ne_nil_of_left_ne_nil hq _) h
          have h1 := hi.drain hx
          have h2 := (hi.asked (by simp [hh])).1
          rw [h1] at h2
          cases h2

theorem loopInv_new {s : Session} (hb : s.bcast = []) (hc : s.bcastCnt = 0) :
    LoopInv (OnlineLoop.new s) :=
  ⟨⟨tinv_new s hb hc, fun h => by cases h⟩, rfl, fun h => by cases h⟩

end Akasa
