import Verif.Spec.OnlineLoop
import Verif.Proof.HookStep
import Verif.Proof.Transfer
import Verif.Proof.Write
import Verif.Proof.WorldRoom
/-! # The steps of the task of a connection -/
namespace Akasa

variable {cfg : Config} {hooks : HookConfig} {ext : HookExt} {pr : Proto}
  {enc : OutPkt → Option Bytes}

/-- The steps a poll is made of; `b` is what a handler gives to the write queue, `got` what is put
into inboxes. -/
inductive LStep (cfg : Config) (hooks : HookConfig) (ext : HookExt) (pr : Proto)
    (enc : OutPkt → Option Bytes) :
    OnlineLoop → List Handled → List (ClientId × NormalMsg) → OnlineLoop → Prop
  | packet {l : OnlineLoop} {m : Moment} {size : Nat} {p : InPkt} {res : Res} :
      l.hook = none → l.out.session.disconnected = false → tooMuchWriteData l.writer.queue = false →
      l.out.session.bcastCnt < bcastMax →
      onPacketHook cfg hooks ext pr m.env m.ans m.after m.global l.out.session size p = some res →
      res.closed = false →
      LStep cfg hooks ext pr enc l [⟨.packet m size p, res.out⟩] [] ((l.withSession res.session).push res.out)
  | ask {l : OnlineLoop} {size : Nat} {p : InPkt} :
      l.hook = none → l.out.session.disconnected = false → tooMuchWriteData l.writer.queue = false →
      l.out.session.bcastCnt < bcastMax → asksHook cfg hooks size p = true →
      LStep cfg hooks ext pr enc l [] [] { l with hook := some (size, p) }
  | answer {l : OnlineLoop} {m : Moment} {size : Nat} {p : InPkt} {res : Res} :
      l.hook = some (size, p) →
      onPacketHook cfg hooks ext pr m.env m.ans m.after m.global l.out.session size p = some res →
      res.closed = false →
      LStep cfg hooks ext pr enc l [⟨.packet m size p, res.out⟩] []
        ((({ l with hook := none }).withSession res.session).push res.out)
  | malformed {l : OnlineLoop} :
      l.hook = none → l.out.session.disconnected = false → tooMuchWriteData l.writer.queue = false →
      pr = .v5 →
      LStep cfg hooks ext pr enc l [⟨.malformed, [.disconnect .malformedPacket]⟩] []
        ((l.withSession { l.out.session with serverDisconnected := true }).push
          [.disconnect .malformedPacket])
  | normal {l : OnlineLoop} {m : Moment} {msg : NormalMsg} :
      l.hook = none → l.out.session.disconnected = false → tooMuchWriteData l.writer.queue = false →
      LStep cfg hooks ext pr enc l
        [⟨.normal m msg, (onNormal cfg pr m.env m.global l.out.session msg).out⟩] []
        ((l.withSession (onNormal cfg pr m.env m.global l.out.session msg).session).push
          (onNormal cfg pr m.env m.global l.out.session msg).out)
  | write {l : OnlineLoop} (r : WriteRes) : l.hook = none →
      LStep cfg hooks ext pr enc l [] [] { l with writer := l.writer.step enc (.write r) }
  | pass {l : OnlineLoop} {o : ClientId → Nat → PollRes} {out : Outgoing}
      {got : List (ClientId × NormalMsg)} : l.hook = none → l.out.pass o = some (out, got) →
      LStep cfg hooks ext pr enc l [] got { l with out := out }
  | flags {l l' : OnlineLoop} : l'.out = l.out → l'.writer = l.writer → l'.hook = l.hook →
      LStep cfg hooks ext pr enc l [] [] l'

/-- Several steps. -/
inductive LRun (cfg : Config) (hooks : HookConfig) (ext : HookExt) (pr : Proto)
    (enc : OutPkt → Option Bytes) :
    OnlineLoop → List Handled → List (ClientId × NormalMsg) → OnlineLoop → Prop
  | nil {l : OnlineLoop} : LRun cfg hooks ext pr enc l [] [] l
  | snoc {l l1 l2 : OnlineLoop} {b b' : List Handled} {g g' : List (ClientId × NormalMsg)} :
      LRun cfg hooks ext pr enc l b g l1 → LStep cfg hooks ext pr enc l1 b' g' l2 →
      LRun cfg hooks ext pr enc l (b ++ b') (g ++ g') l2

/-- The packet that ends the connection: it is handled, and nothing happens any more. -/
structure LLast (cfg : Config) (hooks : HookConfig) (ext : HookExt) (pr : Proto)
    (l : OnlineLoop) (b : Handled) (l' : OnlineLoop) : Prop where
  ex : ∃ (m : Moment) (size : Nat) (p : InPkt) (res : Res),
    onPacketHook cfg hooks ext pr m.env m.ans m.after m.global l.out.session size p = some res ∧
    res.closed = true ∧ b = ⟨.packet m size p, res.out⟩ ∧
    l' = ((({ l with hook := none }).withSession res.session).push res.out)
  from_ : (l.hook.isSome ∨
    l.hook = none ∧ l.out.session.disconnected = false ∧ tooMuchWriteData l.writer.queue = false)

theorem LRun.one {l l' : OnlineLoop} {b : List Handled} {g : List (ClientId × NormalMsg)}
    (h : LStep cfg hooks ext pr enc l b g l') : LRun cfg hooks ext pr enc l b g l' := by
  simpa using LRun.snoc .nil h

theorem LRun.trans {l l1 l2 : OnlineLoop} {b b' : List Handled}
    {g g' : List (ClientId × NormalMsg)} (h : LRun cfg hooks ext pr enc l b g l1)
    (h' : LRun cfg hooks ext pr enc l1 b' g' l2) : LRun cfg hooks ext pr enc l (b ++ b') (g ++ g') l2 := by
  induction h' with
  | nil => simpa using h
  | snoc _ hs ih =>
    have := LRun.snoc ih hs
    simpa only [List.append_assoc] using this

/-- What a part of a poll has done so far: from `l` to `r`. -/
def Did (cfg : Config) (hooks : HookConfig) (ext : HookExt) (pr : Proto)
    (enc : OutPkt → Option Bytes) (l : OnlineLoop) (r : PollOut) : Prop :=
  LRun cfg hooks ext pr enc l r.log r.got r.loop

/-- What a whole poll has done. -/
def DidAll (cfg : Config) (hooks : HookConfig) (ext : HookExt) (pr : Proto)
    (enc : OutPkt → Option Bytes) (l : OnlineLoop) (r : PollOut) : Prop :=
  Did cfg hooks ext pr enc l r ∨
    ∃ b out l1, r.ended = some .stopped ∧ r.log = b ++ [out] ∧
      LRun cfg hooks ext pr enc l b r.got l1 ∧ LLast cfg hooks ext pr l1 out r.loop

theorem Did.step {l : OnlineLoop} {r r' : PollOut} {b : List Handled}
    {g : List (ClientId × NormalMsg)} (h : Did cfg hooks ext pr enc l r)
    (hs : LStep cfg hooks ext pr enc r.loop b g r'.loop) (hb : r'.log = r.log ++ b)
    (hg : r'.got = r.got ++ g) : Did cfg hooks ext pr enc l r' := by
  unfold Did
  rw [hb, hg]
  exact h.snoc hs

theorem Did.same {l : OnlineLoop} {r r' : PollOut} (h : Did cfg hooks ext pr enc l r)
    (ho : r'.loop.out = r.loop.out) (hw : r'.loop.writer = r.loop.writer)
    (hh : r'.loop.hook = r.loop.hook) (hb : r'.log = r.log) (hg : r'.got = r.got) :
    Did cfg hooks ext pr enc l r' :=
  h.step (b := []) (g := []) (.flags ho hw hh) (by simpa using hb) (by simpa using hg)

/-- The loops of a poll: what is known about them. -/
structure ReadDone (r : PollOut) (f : Flowing) (r' : PollOut) : Prop where
  kept : r'.loop.handover = r.loop.handover ∧ r'.loop.draining = r.loop.draining ∧
    r'.loop.unflushed = r.loop.unflushed ∧ r'.woken = r.woken
  waits : ∀ s ∈ r.waits, s ∈ r'.waits
  queue : r.loop.writer.queue ≠ [] → r'.loop.writer.queue ≠ []
  live : r'.loop.writer.live = r.loop.writer.live
  disc : r.loop.out.session.disconnected = true → r'.loop.out.session.disconnected = true
  on : f = .on → r'.ended = r.ended ∧ r'.loop.hook = none ∧
    (r'.loop.out.session.disconnected = true ∨
      (r'.loop.readHeld = true ∧ (tooMuchWriteData r'.loop.writer.queue = true ∨
        bcastMax ≤ r'.loop.out.session.bcastCnt)) ∨ Source.read ∈ r'.waits)
  back : f = .back → r'.ended = some .stopped ∨
    (r'.loop.hook.isSome ∧ Source.hook ∈ r'.waits)

theorem read_done {items : List ReadItem} {l : OnlineLoop} {r r' : PollOut} {f : Flowing}
    (hd : Did cfg hooks ext pr enc l r) (hh : r.loop.hook = none)
    (h : readLoop cfg hooks ext pr items r = some (f, r')) :
    DidAll cfg hooks ext pr enc l r' ∧ ReadDone r f r' ∧ (f = .on → Did cfg hooks ext pr enc l r')
      := by
  induction items generalizing r with
  | nil =>
    unfold readLoop at h
    simp only at h
    split at h
    · rename_i hdis
      cases h
      exact ⟨.inl hd, ⟨⟨rfl, rfl, rfl, rfl⟩, (fun s hs => hs), id, rfl, id, (fun _ => ⟨rfl, hh, .inl hdis⟩),
        (fun hf => by cases hf)⟩, fun _ => hd⟩
    · split at h
      · rename_i hheld
        simp only [Option.some.injEq, Prod.mk.injEq] at h
        obtain ⟨rfl, rfl⟩ := h
        have hd' : Did cfg hooks ext pr enc l { r with loop := { r.loop with readHeld := true } } :=
          hd.same rfl rfl rfl rfl rfl
        refine ⟨.inl hd', ⟨⟨rfl, rfl, rfl, rfl⟩, (fun s hs => hs), id, rfl, id, (fun _ => ⟨rfl, hh, .inr (.inl ⟨rfl, ?_⟩)⟩),
          (fun hf => by cases hf)⟩, fun _ => hd'⟩
        simpa using hheld
      · simp only [Option.some.injEq, Prod.mk.injEq] at h
        obtain ⟨rfl, rfl⟩ := h
        have hd' : Did cfg hooks ext pr enc l
            { r with loop := { r.loop with readHeld := false }, waits := r.waits ++ [.read] } :=
          hd.same rfl rfl rfl rfl rfl
        refine ⟨.inl hd', ⟨⟨rfl, rfl, rfl, rfl⟩, (fun s hs => by simp [hs]), id, rfl, id,
          (fun _ => ⟨rfl, hh, .inr (.inr (by simp))⟩), (fun hf => by cases hf)⟩, fun _ => hd'⟩
  | cons it items ih =>
    unfold readLoop at h
    simp only at h
    split at h
    · rename_i hdis
      cases h
      exact ⟨.inl hd, ⟨⟨rfl, rfl, rfl, rfl⟩, (fun s hs => hs), id, rfl, id, (fun _ => ⟨rfl, hh, .inl hdis⟩),
        (fun hf => by cases hf)⟩, fun _ => hd⟩
    · rename_i hndis
      split at h
      · rename_i hheld
        simp only [Option.some.injEq, Prod.mk.injEq] at h
        obtain ⟨rfl, rfl⟩ := h
        have hd' : Did cfg hooks ext pr enc l { r with loop := { r.loop with readHeld := true } } :=
          hd.same rfl rfl rfl rfl rfl
        refine ⟨.inl hd', ⟨⟨rfl, rfl, rfl, rfl⟩, (fun s hs => hs), id, rfl, id, (fun _ => ⟨rfl, hh, .inr (.inl ⟨rfl, ?_⟩)⟩),
          (fun hf => by cases hf)⟩, fun _ => hd'⟩
        simpa using hheld
      · rename_i hnheld
        have hnd : r.loop.out.session.disconnected = false := by simpa using hndis
        have hroom : tooMuchWriteData r.loop.writer.queue = false ∧
            r.loop.out.session.bcastCnt < bcastMax := by
          simpa [not_or] using hnheld
        have hd0 : Did cfg hooks ext pr enc l { r with loop := { r.loop with readHeld := false } } :=
          hd.same rfl rfl rfl rfl rfl
        have hstop : ∀ {left : List ReadItem} {r' : PollOut} {f : Flowing},
            some (PollOut.stop { r with loop := { r.loop with readHeld := false }
                                        readsLeft := left }) = some (f, r') →
            DidAll cfg hooks ext pr enc l r' ∧ ReadDone r f r' ∧
              (f = .on → Did cfg hooks ext pr enc l r') := by
          intro left r' f h
          simp only [PollOut.stop, Option.some.injEq, Prod.mk.injEq] at h
          obtain ⟨rfl, rfl⟩ := h
          exact ⟨.inl (hd0.same rfl rfl rfl rfl rfl), ⟨⟨rfl, rfl, rfl, rfl⟩, (fun s hs => hs), id, rfl, id,
            (fun hf => by cases hf), (fun _ => .inl rfl)⟩, fun hf => by cases hf⟩
        cases it with
        | failed => exact hstop h
        | malformed =>
          simp only at h
          cases pr with
          | v3 => exact hstop h
          | v5 =>
            simp only at h
            have hs := LStep.malformed (cfg := cfg) (hooks := hooks) (ext := ext) (enc := enc)
              (l := { r.loop with readHeld := false }) hh hnd hroom.1 rfl
            have hd1 := hd0.step (r' := { r with
              loop := (({ r.loop with readHeld := false } : OnlineLoop).withSession
                { r.loop.out.session with serverDisconnected := true }).push
                [.disconnect .malformedPacket]
              log := r.log ++ [⟨.malformed, [.disconnect .malformedPacket]⟩] }) hs rfl (by simp)
            obtain ⟨h1, h2, h3⟩ := ih hd1 hh h
            exact ⟨h1, ⟨h2.kept, h2.waits,
              (fun hq => h2.queue (List.append_ne_nil_of_left_ne_nil hq _)), h2.live, (fun hx => absurd hx hndis), h2.on, h2.back⟩, h3⟩
        | packet m size p slow =>
          simp only at h
          split at h
          · rename_i hask
            simp only [Option.some.injEq, Prod.mk.injEq] at h
            obtain ⟨rfl, rfl⟩ := h
            have hs := LStep.ask (cfg := cfg) (hooks := hooks) (ext := ext) (enc := enc) (pr := pr)
              (l := { r.loop with readHeld := false }) (size := size) (p := p) hh hnd hroom.1 hroom.2
              (by simpa using (Bool.and_eq_true _ _ ▸ hask).2)
            have hd1 := hd0.step (r' := { r with
              loop := { r.loop with readHeld := false, hook := some (size, p) }
              waits := r.waits ++ [.hook] }) hs (by simp) (by simp)
            exact ⟨.inl hd1, ⟨⟨rfl, rfl, rfl, rfl⟩, (fun s hs => by simp [hs]), id, rfl, id,
              (fun hf => by cases hf), (fun _ => .inr ⟨rfl, by simp⟩)⟩, fun hf => by cases hf⟩
          · split at h
            · cases h
            · rename_i res hres
              split at h
              · rename_i hcl
                simp only [PollOut.stop, Option.some.injEq, Prod.mk.injEq] at h
                obtain ⟨rfl, rfl⟩ := h
                refine ⟨.inr ⟨r.log, ⟨.packet m size p, res.out⟩, { r.loop with readHeld := false }, rfl, rfl, hd0,
                  ⟨⟨m, size, p, res, hres, hcl, rfl, ?_⟩, .inr ⟨hh, hnd, hroom.1⟩⟩⟩,
                  ⟨⟨rfl, rfl, rfl, rfl⟩, (fun s hs => hs),
                  (fun hq => List.append_ne_nil_of_left_ne_nil hq _), rfl,
                  (fun hx => absurd hx hndis),
                  (fun hf => by cases hf), (fun _ => .inl rfl)⟩, fun hf => by cases hf⟩
                simp [OnlineLoop.withSession, OnlineLoop.push, hh]
              · rename_i hcl
                have hs := LStep.packet (cfg := cfg) (hooks := hooks) (ext := ext) (enc := enc)
                  (pr := pr) (l := { r.loop with readHeld := false }) hh hnd hroom.1 hroom.2 hres
                  (by simpa using hcl)
                have hd1 := hd0.step (r' := { r with
                  loop := (({ r.loop with readHeld := false } : OnlineLoop).withSession
                    res.session).push res.out
                  log := r.log ++ [⟨.packet m size p, res.out⟩] }) hs rfl (by simp)
                obtain ⟨h1, h2, h3⟩ := ih hd1 hh h
                exact ⟨h1, ⟨h2.kept, h2.waits,
              (fun hq => h2.queue (List.append_ne_nil_of_left_ne_nil hq _)), h2.live, (fun hx => absurd hx hndis), h2.on, h2.back⟩, h3⟩

theorem tooMuch_ne {q : List (WItem P)} (h : tooMuchWriteData q = true) : q ≠ [] := by
  rintro rfl
  simp [tooMuchWriteData, writePacketsMax] at h

theorem tooMuch_length {q : List (WItem P)} (h : tooMuchWriteData q = false) :
    q.length < writePacketsMax := by
  match q, h with
  | [], _ => simp [writePacketsMax]
  | .data d i :: q, h => simp [tooMuchWriteData] at h; simpa using h.1
  | .packet p :: q, h => simpa [tooMuchWriteData] using h

/-- What is known after the control messages. -/
theorem control_done {items : List CtlItem} {l : OnlineLoop} {r r' : PollOut} {f : Flowing}
    (hd : Did cfg hooks ext pr enc l r) (h : controlLoop items r = (f, r')) :
    Did cfg hooks ext pr enc l r' ∧
    (f = .on → r'.loop = r.loop ∧ r'.woken = r.woken ∧ r'.ended = r.ended ∧
      (∀ s ∈ r.waits, s ∈ r'.waits) ∧ Source.control ∈ r'.waits) ∧
    (f = .back → r'.ended = some .stopped ∨ r'.woken = true) := by
  induction items generalizing r with
  | nil =>
    simp only [controlLoop, Prod.mk.injEq] at h
    obtain ⟨rfl, rfl⟩ := h
    exact ⟨hd, (fun _ => ⟨rfl, rfl, rfl, (fun s hs => by simp [hs]), by simp⟩),
      fun hf => by cases hf⟩
  | cons it items ih =>
    cases it with
    | other => exact ih hd h
    | kick =>
      simp only [controlLoop, PollOut.stop, Prod.mk.injEq] at h
      obtain ⟨rfl, rfl⟩ := h
      exact ⟨hd, (fun hf => by cases hf), fun _ => .inl rfl⟩
    | takeOver =>
      simp only [controlLoop, Prod.mk.injEq] at h
      obtain ⟨rfl, rfl⟩ := h
      exact ⟨hd.same rfl rfl rfl rfl rfl, (fun hf => by cases hf), fun _ => .inr rfl⟩

theorem control_back {items : List CtlItem} {r r' : PollOut} (h : controlLoop items r = (.back, r')) :
    r'.loop.writer = r.loop.writer ∧ r'.loop.out = r.loop.out ∧
      r'.loop.draining = r.loop.draining ∧ (r'.ended = none → r'.loop.handover = true) ∧
      r'.loop.unflushed = r.loop.unflushed := by
  induction items generalizing r with
  | nil => simp [controlLoop] at h
  | cons it items ih =>
    cases it with
    | other => exact ih h
    | kick =>
      simp only [controlLoop, PollOut.stop, Prod.mk.injEq, true_and] at h
      subst h
      exact ⟨rfl, rfl, rfl, (fun h => by cases h), rfl⟩
    | takeOver =>
      simp only [controlLoop, Prod.mk.injEq, true_and] at h
      subst h
      exact ⟨rfl, rfl, rfl, (fun _ => rfl), rfl⟩

/-- What is known after the messages of other sessions. -/
structure NormalDone (r r' : PollOut) : Prop where
  kept : r'.loop.handover = r.loop.handover ∧ r'.loop.draining = r.loop.draining ∧
    r'.loop.unflushed = r.loop.unflushed ∧ r'.woken = r.woken ∧ r'.ended = r.ended ∧
    r'.loop.hook = r.loop.hook ∧ r'.loop.readHeld = r.loop.readHeld
  waits : ∀ s ∈ r.waits, s ∈ r'.waits
  queue : r.loop.writer.queue ≠ [] → r'.loop.writer.queue ≠ []
  live : r'.loop.writer.live = r.loop.writer.live
  disc : r.loop.out.session.disconnected = true → r'.loop.out.session.disconnected = true
  copies : r'.loop.out.session.copies = r.loop.out.session.copies
  how : r'.loop.out.session.disconnected = true ∨
    (r'.loop.normalHeld = true ∧ tooMuchWriteData r'.loop.writer.queue = true) ∨
    Source.normal ∈ r'.waits

theorem normal_done {items : List (Moment × NormalMsg)} {l : OnlineLoop} {r : PollOut}
    (hd : Did cfg hooks ext pr enc l r) (hh : r.loop.hook = none) :
    Did cfg hooks ext pr enc l (normalLoop cfg pr items r) ∧
      NormalDone r (normalLoop cfg pr items r) := by
  induction items generalizing r with
  | nil =>
    unfold normalLoop
    simp only
    split
    · rename_i hdis
      exact ⟨hd, ⟨⟨rfl, rfl, rfl, rfl, rfl, rfl, rfl⟩, (fun s hs => hs), id, rfl, id, rfl, .inl hdis⟩⟩
    · split
      · rename_i hheld
        exact ⟨hd.same rfl rfl rfl rfl rfl,
          ⟨⟨rfl, rfl, rfl, rfl, rfl, rfl, rfl⟩, (fun s hs => hs), id, rfl, id, rfl, .inr (.inl ⟨rfl, hheld⟩)⟩⟩
      · exact ⟨hd.same rfl rfl rfl rfl rfl,
          ⟨⟨rfl, rfl, rfl, rfl, rfl, rfl, rfl⟩, (fun s hs => by simp [hs]), id, rfl, id, rfl,
            .inr (.inr (by simp))⟩⟩
  | cons it items ih =>
    unfold normalLoop
    simp only
    split
    · rename_i hdis
      exact ⟨hd, ⟨⟨rfl, rfl, rfl, rfl, rfl, rfl, rfl⟩, (fun s hs => hs), id, rfl, id, rfl, .inl hdis⟩⟩
    · rename_i hndis
      split
      · rename_i hheld
        exact ⟨hd.same rfl rfl rfl rfl rfl,
          ⟨⟨rfl, rfl, rfl, rfl, rfl, rfl, rfl⟩, (fun s hs => hs), id, rfl, id, rfl, .inr (.inl ⟨rfl, hheld⟩)⟩⟩
      · rename_i hnheld
        obtain ⟨m, msg⟩ := it
        simp only
        have hd0 : Did cfg hooks ext pr enc l { r with loop := { r.loop with normalHeld := false } } :=
          hd.same rfl rfl rfl rfl rfl
        have hs := LStep.normal (cfg := cfg) (hooks := hooks) (ext := ext) (enc := enc) (pr := pr)
          (l := { r.loop with normalHeld := false }) (m := m) (msg := msg) hh (by simpa using hndis)
          (by simpa using hnheld)
        have hd1 := hd0.step (r' := { r with
          loop := (({ r.loop with normalHeld := false } : OnlineLoop).withSession
            (onNormal cfg pr m.env m.global r.loop.out.session msg).session).push
            (onNormal cfg pr m.env m.global r.loop.out.session msg).out
          log := r.log ++
            [⟨.normal m msg, (onNormal cfg pr m.env m.global r.loop.out.session msg).out⟩] })
          hs rfl (by simp)
        obtain ⟨h1, h2⟩ := ih hd1 hh
        refine ⟨h1, ⟨h2.kept, h2.waits, fun hq => h2.queue ?_, h2.live, fun hx => absurd hx hndis,
          h2.copies.trans ?_, h2.how⟩⟩
        · simp only [OnlineLoop.push, OnlineLoop.withSession]
          exact List.append_ne_nil_of_left_ne_nil hq _
        · exact copies_onNormal ..

/-- What is known after a write loop. -/
structure PassDone (drain : Bool) (a a' : WritePass OutPkt) : Prop where
  left : a'.writer.live = true → a'.writer.queue ≠ [] → a'.blocked = true ∨ a'.short = true
  did : a.writer.live = true → a.writer.queue ≠ [] → a'.writer.live = true →
    a'.wrote = true ∨ a'.blocked = true
  wrote : a.wrote = true → a'.wrote = true
  blocked : a'.blocked = true → a'.writer.queue ≠ []
  short : a'.short = true → a'.wrote = true ∧ a'.blocked = false
  drain : drain = true → a'.short = false
  idle : a.writer.queue = [] → a' = a
  dead : a'.writer.live = true → a.writer.live = true

theorem pass_done (drain : Bool) (rs : List WriteRes) :
    ∀ (a : WritePass OutPkt), a.blocked = false → a.short = false →
      PassDone drain a (Writer.pass enc drain rs a) := by
  induction rs with
  | nil =>
    intro a hb hs
    unfold Writer.pass
    split
    · rename_i hc
      simp only [Bool.or_eq_true, Bool.not_eq_true', List.isEmpty_iff] at hc
      exact ⟨(fun h1 h2 => by rcases hc with hc | hc <;> simp_all),
        (fun h1 h2 _ => by rcases hc with hc | hc <;> simp_all), id, (fun h => by simp_all),
        (fun h => by simp_all), (fun _ => hs), (fun _ => rfl), id⟩
    · rename_i hc
      simp only [Bool.or_eq_true, Bool.not_eq_true', List.isEmpty_iff, not_or,
        Bool.not_eq_false] at hc
      split
      · exact ⟨(fun h => by cases h), (fun _ _ h => by cases h), id, (fun h => by simp_all),
          (fun h => by simp_all), (fun _ => hs), (fun h => absurd h hc.2), (fun h => by cases h)⟩
      · exact ⟨(fun _ _ => .inl rfl), (fun _ _ _ => .inr rfl), id, (fun _ => by simp [Writer.put]),
          (fun h => by simp_all), (fun _ => hs), (fun h => absurd h hc.2), (fun _ => hc.1)⟩
  | cons x rs ih =>
    intro a hb hs
    unfold Writer.pass
    split
    · rename_i hc
      simp only [Bool.or_eq_true, Bool.not_eq_true', List.isEmpty_iff] at hc
      exact ⟨(fun h1 h2 => by rcases hc with hc | hc <;> simp_all),
        (fun h1 h2 _ => by rcases hc with hc | hc <;> simp_all), id, (fun h => by simp_all),
        (fun h => by simp_all), (fun _ => hs), (fun _ => rfl), id⟩
    · rename_i hc
      simp only [Bool.or_eq_true, Bool.not_eq_true', List.isEmpty_iff, not_or,
        Bool.not_eq_false] at hc
      split
      · exact ⟨(fun h => by cases h), (fun _ _ h => by cases h), id, (fun h => by simp_all),
          (fun h => by simp_all), (fun _ => hs), (fun h => absurd h hc.2), (fun h => by cases h)⟩
      · rename_i all idx rest hg
        cases x with
        | pending =>
          exact ⟨(fun _ _ => .inl rfl), (fun _ _ _ => .inr rfl), id, (fun _ => by simp [Writer.put]),
            (fun h => by simp_all), (fun _ => hs), (fun h => absurd h hc.2), (fun _ => hc.1)⟩
        | error =>
          exact ⟨(fun h => by simp [Writer.put] at h), (fun _ _ h => by simp [Writer.put] at h), id,
            (fun h => by simp_all), (fun h => by simp_all), (fun _ => hs), (fun h => absurd h hc.2),
            (fun h => by simp [Writer.put] at h)⟩
        | wrote n =>
          simp only
          split
          · rename_i hsh
            simp only [Bool.and_eq_true, decide_eq_true_eq, Bool.not_eq_true'] at hsh
            exact ⟨(fun _ _ => .inr rfl), (fun _ _ _ => .inl rfl), (fun _ => rfl),
              (fun h => by simp_all), (fun _ => ⟨rfl, hb⟩), (fun hd => by simp_all),
              (fun h => absurd h hc.2), (fun _ => hc.1)⟩
          · have := ih { a with writer := a.writer.put all idx rest (.wrote n), wrote := true } hb hs
            exact ⟨this.left, (fun _ _ _ => .inl (this.wrote rfl)), (fun _ => this.wrote rfl),
              this.blocked, this.short, this.drain, (fun h => absurd h hc.2), (fun _ => hc.1)⟩

/-- A write loop is a sequence of steps. -/
theorem pass_run (drain : Bool) (rs : List WriteRes) {l : OnlineLoop} (hh : l.hook = none) :
    ∀ (a : WritePass OutPkt), LRun cfg hooks ext pr enc { l with writer := a.writer } [] []
      { l with writer := (Writer.pass enc drain rs a).writer } := by
  have hone : ∀ (w : Writer OutPkt) (r : WriteRes) (w' : Writer OutPkt),
      w.step enc (.write r) = w' →
      LRun cfg hooks ext pr enc { l with writer := w } [] [] { l with writer := w' } := by
    intro w r w' h
    have := LStep.write (cfg := cfg) (hooks := hooks) (ext := ext) (pr := pr) (enc := enc)
      (l := { l with writer := w }) r hh
    rw [h] at this
    exact LRun.one this
  have hstep : ∀ {w : Writer OutPkt} {all : Bytes} {idx : Nat} {rest : List (WItem OutPkt)}
      (r : WriteRes), ¬ ((!w.live || w.queue.isEmpty) = true) →
      gather enc [] 0 w.queue = some (all, idx, rest) →
      w.step enc (.write r) = w.put all idx rest r := by
    intro w all idx rest r hc hg
    have : (w.live && !w.queue.isEmpty) = true := by
      simp only [Bool.or_eq_true, Bool.not_eq_true', List.isEmpty_iff, not_or] at hc
      simp [hc]
    simp only [Writer.step, if_pos this, hg]
  have hdead : ∀ {w : Writer OutPkt}, ¬ ((!w.live || w.queue.isEmpty) = true) →
      gather enc [] 0 w.queue = none →
      w.step enc (.write .pending) = { w with live := false } := by
    intro w hc hg
    have : (w.live && !w.queue.isEmpty) = true := by
      simp only [Bool.or_eq_true, Bool.not_eq_true', List.isEmpty_iff, not_or] at hc
      simp [hc]
    simp only [Writer.step, if_pos this, hg]
  induction rs with
  | nil =>
    intro a
    unfold Writer.pass
    split
    · exact .nil
    · rename_i hc
      split
      · rename_i hg
        exact hone _ _ _ (hdead hc hg)
      · rename_i hg
        exact hone _ _ _ (hstep .pending hc hg)
  | cons x rs ih =>
    intro a
    unfold Writer.pass
    split
    · exact .nil
    · rename_i hc
      split
      · rename_i hg
        exact hone _ _ _ (hdead hc hg)
      · rename_i hg
        cases x with
        | pending => exact hone _ _ _ (hstep .pending hc hg)
        | error => exact hone _ _ _ (hstep .error hc hg)
        | wrote n =>
          simp only
          split
          · exact hone _ _ _ (hstep (.wrote n) hc hg)
          · rename_i all idx rest _
            exact (hone _ _ _ (hstep (.wrote n) hc hg)).trans
              (ih { a with writer := a.writer.put all idx rest (.wrote n), wrote := true })

/-- What is known after the client has been written to. -/
structure WriteDone (i : PollIn) (r : PollOut) (wrote : Bool) (r' : PollOut) : Prop where
  kept : r'.loop.handover = r.loop.handover ∧ r'.loop.draining = r.loop.draining ∧
    r'.loop.out = r.loop.out ∧ r'.woken = r.woken ∧ r'.ended = r.ended ∧
    r'.loop.hook = r.loop.hook ∧ r'.loop.readHeld = r.loop.readHeld ∧
    r'.loop.normalHeld = r.loop.normalHeld
  waits : ∀ s ∈ r.waits, s ∈ r'.waits
  left : r'.loop.writer.queue ≠ [] → Source.write ∈ r'.waits ∨ r'.short = true
  did : r.loop.writer.queue ≠ [] →
    wrote = true ∨ (Source.write ∈ r'.waits ∧ r'.loop.writer.queue ≠ [])
  short : r'.short = true → wrote = true
  live : r'.loop.writer.live = true
  flush : r'.loop.unflushed = true →
    (Source.write ∈ r'.waits ∧ r'.loop.writer.queue ≠ []) ∨
    (i.flush = .pending ∧ Source.flush ∈ r'.waits) ∨
    (r.loop.unflushed = true ∧ r.loop.writer.queue = [])

theorem write_done {i : PollIn} {l : OnlineLoop} {r r' : PollOut} {f : Flowing} {wrote : Bool}
    (hd : Did cfg hooks ext pr enc l r) (hh : r.loop.hook = none)
    (hl : r.loop.writer.live = true) (h : writePart enc i r = (f, wrote, r')) :
    Did cfg hooks ext pr enc l r' ∧ (f = .on → WriteDone i r wrote r') ∧
      (f = .back → r'.ended = some .stopped) := by
  have hp := pass_done (enc := enc) false i.writes { writer := r.loop.writer } rfl rfl
  have hr := pass_run (cfg := cfg) (hooks := hooks) (ext := ext) (pr := pr) (enc := enc) false
    i.writes hh { writer := r.loop.writer }
  unfold writePart at h
  simp only at h
  generalize Writer.pass enc false i.writes { writer := r.loop.writer } = a at hp hr h
  have hd0 : ∀ (r1 : PollOut), r1.loop.out = r.loop.out → r1.loop.writer = a.writer →
      r1.loop.hook = r.loop.hook → r1.log = r.log → r1.got = r.got →
      Did cfg hooks ext pr enc l r1 := by
    intro r1 h1 h2 h3 h4 h5
    have h6 : LRun cfg hooks ext pr enc l r.log r.got { r.loop with writer := a.writer } := by
      have := LRun.trans hd hr
      simpa using this
    have h7 : LRun cfg hooks ext pr enc l (r.log ++ []) (r.got ++ []) r1.loop :=
      h6.snoc (.flags h1 h2 h3)
    unfold Did
    rw [h4, h5]
    simpa using h7
  have hidle : ∀ {P : Prop}, a.wrote = false → a.blocked = false → a.writer.live = true →
      (r.loop.writer.queue = [] → P) → P := by
    intro P hw hb hv hP
    refine hP (Classical.byContradiction fun hq => ?_)
    rcases hp.did hl hq hv with h | h
    · rw [hw] at h; cases h
    · rw [hb] at h; cases h
  have hdid : a.writer.live = true → r.loop.writer.queue ≠ [] → a.wrote = true ∨
      (a.blocked = true ∧ a.writer.queue ≠ []) := by
    intro hv hq
    rcases hp.did hl hq hv with h | h
    · exact .inl h
    · exact .inr ⟨h, hp.blocked h⟩
  split at h
  · simp only [Prod.mk.injEq] at h
    obtain ⟨rfl, rfl, rfl⟩ := h
    exact ⟨hd0 _ rfl rfl rfl rfl rfl, (fun hf => by cases hf), fun _ => rfl⟩
  · rename_i hv
    have hv : a.writer.live = true := by simpa using hv
    split at h
    · rename_i hc
      simp only [Bool.and_eq_true, Bool.not_eq_true'] at hc
      cases hf : i.flush with
      | ready =>
        simp only [hf, hc.2, Prod.mk.injEq] at h
        obtain ⟨rfl, rfl, rfl⟩ := h
        refine ⟨hd0 _ rfl rfl rfl rfl rfl, (fun _ => ⟨⟨rfl, rfl, rfl, rfl, rfl, rfl, rfl, rfl⟩, ?_, ?_, ?_,
          ?_, hv, ?_⟩), (fun hf => by cases hf)⟩
        · intro s hs; simpa using hs
        · intro hq
          rcases hp.left hv hq with h | h
          · rw [hc.2] at h; cases h
          · exact .inr h
        · exact fun _ => .inl hc.1
        · exact fun _ => hc.1
        · intro h; cases h
      | error =>
        simp only [hf, Prod.mk.injEq] at h
        obtain ⟨rfl, rfl, rfl⟩ := h
        exact ⟨hd0 _ rfl rfl rfl rfl rfl, (fun hf => by cases hf), fun _ => rfl⟩
      | pending =>
        simp only [hf, hc.2, Prod.mk.injEq] at h
        obtain ⟨rfl, rfl, rfl⟩ := h
        refine ⟨hd0 _ rfl rfl rfl rfl rfl, (fun _ => ⟨⟨rfl, rfl, rfl, rfl, rfl, rfl, rfl, rfl⟩, ?_, ?_, ?_,
          ?_, hv, ?_⟩), (fun hf => by cases hf)⟩
        · intro s hs; simp [hs]
        · intro hq
          rcases hp.left hv hq with h | h
          · rw [hc.2] at h; cases h
          · exact .inr h
        · exact fun _ => .inl hc.1
        · exact fun _ => hc.1
        · exact fun _ => .inr (.inl ⟨hf, by simp⟩)
    · rename_i hc
      simp only [Bool.and_eq_true, Bool.not_eq_true', not_and, Bool.not_eq_false] at hc
      simp only [Prod.mk.injEq] at h
      obtain ⟨rfl, rfl, rfl⟩ := h
      refine ⟨hd0 _ rfl rfl rfl rfl rfl, (fun _ => ⟨⟨rfl, rfl, rfl, rfl, rfl, rfl, rfl, rfl⟩, ?_, ?_, ?_,
          ?_, hv, ?_⟩), (fun hf => by cases hf)⟩
      · intro s hs; simp [hs]
      · intro hq
        rcases hp.left hv hq with h | h
        · left; simp [h]
        · exact .inr h
      · intro hq
        rcases hdid hv hq with h | h
        · exact .inl h
        · right; exact ⟨by simp [h.1], h.2⟩
      · exact fun h => (hp.short h).1
      · intro hu
        simp only [Bool.or_eq_true] at hu
        cases hb : a.blocked with
        | true => left; exact ⟨by simp [], hp.blocked hb⟩
        | false =>
          have hw : a.wrote = false := by
            cases hw : a.wrote with
            | false => rfl
            | true => exact absurd (hc hw) (by simp [hb])
          rw [hw] at hu
          exact hidle hw hb hv fun hq => .inr (.inr ⟨by simpa using hu, hq⟩)

theorem sendBlocks_of (o : Nat → PollRes) (fl : Bool) (ms : List NormalMsg) :
    ∀ (k : Nat) (slot : Option NormalMsg), (sendMsgs o fl k ms slot).link.isSome →
      sendBlocks o k ms slot = true := by
  induction ms with
  | nil =>
    intro k slot
    simp only [sendMsgs, sendBlocks]
    cases hp : pollSink (o k) slot with
    | mk a b =>
      obtain ⟨b, c⟩ := b
      cases a <;> simp
  | cons m ms ih =>
    intro k slot
    simp only [sendMsgs, sendBlocks]
    cases hp : pollSink (o k) slot with
    | mk a b =>
      obtain ⟨b, c⟩ := b
      cases a with
      | error => simp
      | pending => simp
      | ready =>
        simp only
        split
        · simp
        · exact ih _ _

theorem blocks_of {o : Nat → PollRes} {l : Link} (h : (l.visit o).link.isSome) :
    l.blocks o = true := by
  unfold Link.visit at h
  unfold Link.blocks
  split
  · rename_i hc
    rw [if_pos hc] at h
    cases hp : pollSink (o 0) l.slot with
    | mk a b =>
      obtain ⟨b, c⟩ := b
      rw [hp] at h
      cases a <;> simp at h ⊢
  · rename_i hc
    rw [if_neg hc] at h
    exact sendBlocks_of _ _ _ _ _ h

/-- Whoever still gets copies after a pass has answered `Pending`. -/
theorem blocking_of {o : ClientId → Nat → PollRes} {w w' : Outgoing}
    {got : List (ClientId × NormalMsg)} (h : w.pass o = some (w', got)) {d : ClientId}
    {ms : List NormalMsg} (hd : w'.session.bcast.get d = some ms) :
    Source.sink d ∈ w.blocking o := by
  unfold Outgoing.pass at h
  simp only at h
  split at h
  · cases h
  · split at h
    · cases h
    · simp only [Option.some.injEq, Prod.mk.injEq] at h
      obtain ⟨rfl, -⟩ := h
      have hm := FMap.mem_of_get hd
      simp only [List.mem_filterMap, List.mem_map] at hm
      obtain ⟨x, ⟨e, he, rfl⟩, hx⟩ := hm
      simp only [Option.map_eq_some_iff] at hx
      obtain ⟨lk, hlk, hx⟩ := hx
      have hk : e.1 = d := congrArg Prod.fst hx
      unfold Outgoing.blocking
      simp only [List.mem_map, List.mem_filter]
      exact ⟨e, ⟨he, blocks_of (by rw [hlk]; rfl)⟩, by rw [hk]⟩

theorem pass_core {o : ClientId → Nat → PollRes} {w w' : Outgoing}
    {got : List (ClientId × NormalMsg)} (h : w.pass o = some (w', got)) :
    w'.session = { w.session with bcast := w'.session.bcast, bcastCnt := w'.session.bcastCnt } := by
  unfold Outgoing.pass at h
  simp only at h
  split at h
  · cases h
  · split at h
    · cases h
    · simp only [Option.some.injEq, Prod.mk.injEq] at h
      obtain ⟨rfl, -⟩ := h
      rfl

theorem pass_le {o : ClientId → Nat → PollRes} {w w' : Outgoing}
    {got : List (ClientId × NormalMsg)} (h : w.pass o = some (w', got)) :
    w'.session.bcastCnt ≤ w.session.bcastCnt := by
  unfold Outgoing.pass at h
  simp only at h
  split at h
  · cases h
  · split at h
    · cases h
    · simp only [Option.some.injEq, Prod.mk.injEq] at h
      obtain ⟨rfl, -⟩ := h
      simp

/-- Copies that are counted are there. -/
theorem queued_some {b : FMap ClientId (List NormalMsg)} (hw : FMap.WF b) (h : queuedCopies b > 0) :
    ∃ d ms, b.get d = some ms ∧ ms ≠ [] := by
  induction b with
  | nil => simp [queuedCopies] at h
  | cons e b ih =>
    by_cases he : e.2 = []
    · have hw' : FMap.WF b := by
        unfold FMap.WF FMap.keys at hw ⊢
        exact (List.nodup_cons.mp hw).2
      have : queuedCopies b > 0 := by simpa [queuedCopies, he] using h
      obtain ⟨d, ms, h1, h2⟩ := ih hw' this
      refine ⟨d, ms, ?_, h2⟩
      exact FMap.get_of_mem hw (List.mem_cons_of_mem _ (FMap.mem_of_get h1))
    · exact ⟨e.1, e.2, FMap.get_of_mem hw List.mem_cons_self, he⟩

theorem ofCopies_tinv (sinks : FMap ClientId (Option NormalMsg × Bool)) :
    OfCopies fun s => TInv { session := s, sinks } where
  same := by
    intro s s' hc h
    have h1 : s'.bcast = s.bcast := congrArg Prod.fst hc
    have h2 : s'.bcastCnt = s.bcastCnt := congrArg Prod.snd hc
    exact ⟨by simpa only [h1] using h.wf, by simpa only [h1, h2] using h.count,
      by simpa only [h1] using h.sinks⟩
  push := fun reg cs h => tinv_push h reg cs

/-- What always holds of a task between its steps. -/
structure StepInv (l : OnlineLoop) : Prop where
  tinv : TInv l.out
  asked : l.hook.isSome → l.out.session.disconnected = false ∧
    l.writer.queue.length < writePacketsMax

theorem stepInv_step {l l' : OnlineLoop} {b : List Handled} {g : List (ClientId × NormalMsg)}
    (h : StepInv l) (hs : LStep cfg hooks ext pr enc l b g l') : StepInv l' := by
  cases hs with
  | packet hh hd hq hc hp hcl =>
    refine ⟨(ofCopies_tinv l.out.sinks).onPacketHook h.tinv hp, fun hx => ?_⟩
    simp [OnlineLoop.push, OnlineLoop.withSession, hh] at hx
  | ask hh hd hq hc _ => exact ⟨h.tinv, fun _ => ⟨hd, tooMuch_length hq⟩⟩
  | answer hh hp hcl =>
    refine ⟨(ofCopies_tinv l.out.sinks).onPacketHook h.tinv hp, fun hx => ?_⟩
    simp [OnlineLoop.push, OnlineLoop.withSession] at hx
  | malformed hh hd hq =>
    refine ⟨(ofCopies_tinv l.out.sinks).same (s := l.out.session) rfl h.tinv, fun hx => ?_⟩
    simp [OnlineLoop.push, OnlineLoop.withSession, hh] at hx
  | normal hh hd hq =>
    refine ⟨(ofCopies_tinv l.out.sinks).onNormal h.tinv, fun hx => ?_⟩
    simp [OnlineLoop.push, OnlineLoop.withSession, hh] at hx
  | write r hh => exact ⟨h.tinv, fun hx => by simp [hh] at hx⟩
  | pass hh hp =>
    rename_i o out
    obtain ⟨w', got', h1, h2, -⟩ := pass_spec (o := o) h.tinv
    rw [h1] at hp
    cases hp
    exact ⟨h2, fun hx => by simp [hh] at hx⟩
  | flags ho hw hh =>
    refine ⟨by rw [ho]; exact h.tinv, fun hx => ?_⟩
    rw [hh] at hx
    rw [ho, hw]
    exact h.asked hx

theorem stepInv_run {l l' : OnlineLoop} {b : List Handled} {g : List (ClientId × NormalMsg)}
    (h : StepInv l) (hs : LRun cfg hooks ext pr enc l b g l') : StepInv l' := by
  induction hs with
  | nil => exact h
  | snoc _ hs ih => exact stepInv_step ih hs

theorem disc_step {l l' : OnlineLoop} {b : List Handled} {g : List (ClientId × NormalMsg)}
    (hd : l.out.session.disconnected = true) (hh : l.hook = none)
    (hs : LStep cfg hooks ext pr enc l b g l') :
    l'.out.session.disconnected = true ∧ l'.hook = none := by
  cases hs with
  | packet _ hx => rw [hd] at hx; cases hx
  | ask _ hx => rw [hd] at hx; cases hx
  | answer hx => rw [hh] at hx; cases hx
  | malformed _ hx => rw [hd] at hx; cases hx
  | normal _ hx => rw [hd] at hx; cases hx
  | write r _ => exact ⟨hd, hh⟩
  | pass _ hp => exact ⟨by rw [pass_core hp]; exact hd, hh⟩
  | flags ho _ hk => exact ⟨by rw [ho]; exact hd, by rw [hk]; exact hh⟩

theorem disc_run {l l' : OnlineLoop} {b : List Handled} {g : List (ClientId × NormalMsg)}
    (hd : l.out.session.disconnected = true) (hh : l.hook = none)
    (hs : LRun cfg hooks ext pr enc l b g l') :
    l'.out.session.disconnected = true ∧ l'.hook = none := by
  induction hs with
  | nil => exact ⟨hd, hh⟩
  | snoc _ hs ih => exact disc_step ih.1 ih.2 hs

theorem disconnectedBy_some {s : Session} {d : Disconnected} (h : s.disconnectedBy = some d) :
    s.disconnected = true := by
  unfold Session.disconnectedBy at h
  unfold Session.disconnected
  split at h
  · rename_i hc; simp [hc]
  · split at h
    · rename_i hc; simp [hc]
    · cases h

theorem disconnectedBy_none {s : Session} (h : s.disconnectedBy = none) :
    s.disconnected = false := by
  unfold Session.disconnectedBy at h
  unfold Session.disconnected
  split at h
  · cases h
  · rename_i h1
    split at h
    · cases h
    · rename_i h2
      simp [h1, h2]

end Akasa
