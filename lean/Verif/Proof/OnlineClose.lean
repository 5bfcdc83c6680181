import Verif.Proof.OnlineTaken
import Verif.Proof.OnlineRun
/-! # What has been written when the task closes a connection -/
namespace Akasa

variable {cfg : Config} {hooks : HookConfig} {ext : HookExt} {pr : Proto}
  {enc : OutPkt → Option Bytes}

theorem read_ended {items : List ReadItem} {r r' : PollOut} {f : Flowing}
    (h : readLoop cfg hooks ext pr items r = some (f, r')) :
    r'.loop.draining = r.loop.draining ∧ (f = .on → r'.ended = r.ended) ∧
      (r.loop.out.session.disconnected = true → f = .on) := by
  induction items generalizing r with
  | nil =>
    unfold readLoop at h
    simp only at h
    split at h
    · cases h; exact ⟨rfl, fun _ => rfl, fun _ => rfl⟩
    · split at h
      · cases h; exact ⟨rfl, fun _ => rfl, fun _ => rfl⟩
      · cases h; exact ⟨rfl, fun _ => rfl, fun _ => rfl⟩
  | cons it items ih =>
    unfold readLoop at h
    simp only at h
    split at h
    · cases h; exact ⟨rfl, fun _ => rfl, fun _ => rfl⟩
    · rename_i hd
      split at h
      · cases h; exact ⟨rfl, fun _ => rfl, fun _ => rfl⟩
      · cases it with
        | failed =>
          cases h
          exact ⟨rfl, (fun h => by cases h), fun h => absurd h hd⟩
        | malformed =>
          cases pr with
          | v3 =>
            cases h
            exact ⟨rfl, (fun h => by cases h), fun h => absurd h hd⟩
          | v5 =>
            have := ih h
            exact ⟨this.1, this.2.1, fun h => absurd h hd⟩
        | packet m size p slow =>
          simp only at h
          split at h
          · cases h
            exact ⟨rfl, (fun h => by cases h), fun h => absurd h hd⟩
          · split at h
            · cases h
            · split at h
              · cases h
                exact ⟨rfl, (fun h => by cases h), fun h => absurd h hd⟩
              · have := ih h
                exact ⟨this.1, this.2.1, fun h => absurd h hd⟩

theorem control_ended {items : List CtlItem} {r : PollOut} (hk : .kick ∉ items) :
    (controlLoop items r).2.ended = r.ended := by
  induction items generalizing r with
  | nil => rfl
  | cons it items ih =>
    cases it with
    | other => exact ih (fun h => hk (by simp [h]))
    | kick => simp at hk
    | takeOver => rfl

theorem normal_ended {items : List (Moment × NormalMsg)} {r : PollOut} :
    (normalLoop cfg pr items r).ended = r.ended := by
  induction items generalizing r with
  | nil =>
    unfold normalLoop
    simp only
    split
    · rfl
    · split <;> rfl
  | cons it items ih =>
    unfold normalLoop
    simp only
    split
    · rfl
    · split
      · rfl
      · rw [ih]

theorem write_ended {i : PollIn} {r r' : PollOut} {w : Bool} {f : Flowing} (hf : i.flush ≠ .error)
    (h : writePart enc i r = (f, w, r')) (hl : r'.loop.writer.live = true) :
    f = .on ∧ r'.ended = r.ended := by
  unfold writePart at h
  simp only at h
  split at h
  · rename_i hx
    cases h
    simp only [Bool.not_eq_true'] at hx
    rw [hx] at hl; cases hl
  · split at h
    · split at h
      · cases h; exact ⟨rfl, rfl⟩
      · rename_i he; exact absurd he hf
      · cases h; exact ⟨rfl, rfl⟩
    · cases h; exact ⟨rfl, rfl⟩

theorem drain_ended {i : PollIn} {r : PollOut} {d : Disconnected} (he : r.ended = none)
    (hf : i.drainFlush ≠ .error) (h : (drainPart enc i r d).ended.isSome)
    (hl : (drainPart enc i r d).loop.writer.live = true) :
    (drainPart enc i r d).loop.writer.queue = [] ∧
      (drainPart enc i r d).loop.unflushed = false := by
  have hp := pass_done (enc := enc) true i.drainWrites { writer := r.loop.writer } rfl rfl
  unfold drainPart at h hl ⊢
  simp only at h hl ⊢
  generalize Writer.pass enc true i.drainWrites { writer := r.loop.writer } = a at h hl hp ⊢
  split at h <;> rename_i h1
  · simp only [h1, if_true] at hl
    simp [hl] at h1
  · simp only [h1] at hl ⊢
    split at h <;> rename_i h2
    · simp [he] at h
    · simp only [h2] at hl ⊢
      have hq : a.writer.queue = [] := by
        refine Classical.byContradiction fun hq => ?_
        rcases hp.left (by simpa using h1) hq with h | h
        · exact h2 h
        · rw [hp.drain rfl] at h; cases h
      cases hd : i.drainFlush with
      | error => exact absurd hd hf
      | pending => simp [hd, he] at h
      | ready =>
        simp only
        constructor
        · repeat' split
          all_goals exact hq
        · repeat' split
          all_goals first
            | rfl
            | (rename_i hx; exact absurd hx h1)
            | (rename_i hx; cases hx)

theorem work_closed {i : PollIn} {r0 r : PollOut}
    (hdr : r0.loop.draining.isSome → r0.loop.out.session.disconnected = true)
    (h0 : r0.ended = none) (h : workPart cfg hooks ext pr enc i r0 = some r)
    (he : r.ended.isSome) (hd : r.loop.draining.isSome) (hl : r.loop.writer.live = true)
    (hk : .kick ∉ i.controls) (hf : i.flush ≠ .error) (hdf : i.drainFlush ≠ .error) :
    r.loop.writer.queue = [] ∧ r.loop.unflushed = false := by
  unfold workPart at h
  split at h
  · cases h
  · rename_i r1 hr
    cases h
    obtain ⟨h1, -, h3⟩ := read_ended hr
    rw [h1] at hd
    cases h3 (hdr hd)
  · rename_i r1 hr
    obtain ⟨-, h2, -⟩ := read_ended hr
    have hc := control_ended (r := r1) hk
    split at h
    · rename_i r2 hctl
      cases h
      rw [hctl] at hc
      rw [show r.ended = _ from hc, h2 rfl, h0] at he
      cases he
    · rename_i r2 hctl
      rw [hctl] at hc
      split at h
      · rename_i w r3 hw
        cases h
        cases (write_ended hf hw hl).1
      · rename_i w r3 hw
        unfold lastPart at h
        split at h
        · cases h
        · rename_i out got hp
          simp only at h
          split at h
          · rename_i d hd'
            cases h
            have hlive : r3.loop.writer.live = true := by
              have hx := (pass_done (enc := enc) true i.drainWrites { writer := r3.loop.writer }
                rfl rfl).dead
              refine hx ?_
              have := hl
              unfold drainPart at this
              simp only at this
              repeat' (split at this)
              all_goals exact this
            have h3 := (write_ended hf hw hlive).2
            exact drain_ended (by rw [h3, normal_ended]; exact hc.trans ((h2 rfl).trans h0)) hdf he hl
          · rename_i hd'
            cases h
            rw [hd'] at hd
            cases hd

theorem poll_closed {l : OnlineLoop} {i : PollIn} {r : PollOut} (hi : LoopInv l)
    (h : l.poll cfg hooks ext pr enc i = some r) (he : r.ended = some .stopped)
    (hd : r.loop.draining.isSome) (hl : r.loop.writer.live = true)
    (hk : .kick ∉ i.controls) (hf : i.flush ≠ .error) (hdf : i.drainFlush ≠ .error) :
    r.loop.writer.queue = [] ∧ r.loop.unflushed = false := by
  have hand : ∀ r0 : PollOut, r0.ended = none →
      (r0.loop.draining.isSome → r0.loop.out.session.disconnected = true) →
      handoverPart cfg hooks ext pr enc i r0 = some r →
      r.loop.writer.queue = [] ∧ r.loop.unflushed = false := by
    intro r0 h0 hdr h
    unfold handoverPart at h
    split at h
    · split at h
      · cases h; cases he
      · cases h; rw [show r0.ended = _ from he] at h0; cases h0
    · exact work_closed hdr h0 h (by rw [he]; rfl) hd hl hk hf hdf
  unfold OnlineLoop.poll at h
  simp only at h
  split at h
  · exact hand _ rfl hi.drain h
  · rename_i size p hh
    have hnd : l.draining = none := by
      cases hx : l.draining with
      | none => rfl
      | some _ =>
        have h1 := hi.drain (by rw [hx]; rfl)
        rw [(hi.asked (by rw [hh]; rfl)).1] at h1; cases h1
    split at h
    · cases h; cases he
    · split at h
      · cases h
      · split at h
        · cases h
          have : l.draining.isSome := hd
          rw [hnd] at this; cases this
        · exact hand _ rfl (fun hx => by
            have : l.draining.isSome := hx
            rw [hnd] at this; cases this) h

end Akasa
