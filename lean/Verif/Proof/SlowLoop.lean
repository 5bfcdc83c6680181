import Verif.Spec.Slow
import Verif.Proof.OnlineLoop
/-!
# Lemmas of C94: a task whose client does not read
-/
namespace Akasa

variable {cfg : Config} {hooks : HookConfig} {ext : HookExt} {pr : Proto}
  {enc : OutPkt → Option Bytes}

/-- `OnlineLoop.full` of the queue. -/
def fullQueue (q : List (WItem OutPkt)) : Prop := ∃ d i q', q = .data d i :: q' ∧ 2048 ≤ d.length

theorem fullQueue.tooMuch {q : List (WItem OutPkt)} (h : fullQueue q) :
    tooMuchWriteData q = true := by
  obtain ⟨d, i, q', rfl, hd⟩ := h
  simp [tooMuchWriteData, writeBatchSize]
  exact .inr hd

theorem fullQueue.append {q : List (WItem OutPkt)} (h : fullQueue q) (q2 : List (WItem OutPkt)) :
    fullQueue (q ++ q2) := by
  obtain ⟨d, i, q', rfl, hd⟩ := h
  exact ⟨d, i, q' ++ q2, rfl, hd⟩

theorem full_pass {drain : Bool} {rs : List WriteRes} (hr : ∀ r ∈ rs, r = .pending)
    {w : Writer OutPkt} (h : fullQueue w.queue) :
    fullQueue (Writer.pass enc drain rs { writer := w }).writer.queue := by
  obtain ⟨d, i, q, hq, hd⟩ := h
  have hpend : fullQueue (w.put d i q .pending).queue := ⟨d, i, q, rfl, hd⟩
  unfold Writer.pass
  split
  · exact ⟨d, i, q, hq, hd⟩
  · have hg : gather enc [] 0 w.queue = some (d, i, q) := by
      rw [hq]
      exact if_pos hd
    simp only [hg]
    split
    · exact hpend
    · exact hpend
    · rename_i rs'
      exact absurd (hr _ List.mem_cons_self) (by simp)
    · exact absurd (hr _ List.mem_cons_self) (by simp)

theorem full_read {items : List ReadItem} {r r' : PollOut} {f : Flowing}
    (h : fullQueue r.loop.writer.queue)
    (hr : readLoop cfg hooks ext pr items r = some (f, r')) :
    f = .on ∧ r'.readsLeft = items ∧ r'.normalsLeft = r.normalsLeft ∧
      r'.loop.writer = r.loop.writer ∧ r'.ended = r.ended ∧ r'.loop.hook = r.loop.hook := by
  unfold readLoop at hr
  simp only [h.tooMuch, Bool.true_or, if_true] at hr
  split at hr <;> cases hr <;> exact ⟨rfl, rfl, rfl, rfl, rfl, rfl⟩

theorem full_control {items : List CtlItem} {r r' : PollOut} {f : Flowing}
    (h : controlLoop items r = (f, r')) :
    r'.readsLeft = r.readsLeft ∧ r'.normalsLeft = r.normalsLeft ∧ r'.loop.writer = r.loop.writer := by
  induction items generalizing r with
  | nil =>
    simp only [controlLoop] at h
    cases h
    exact ⟨rfl, rfl, rfl⟩
  | cons c items ih =>
    cases c <;> simp only [controlLoop, PollOut.stop] at h
    · cases h
      exact ⟨rfl, rfl, rfl⟩
    · cases h
      exact ⟨rfl, rfl, rfl⟩
    · exact ih h

theorem full_normal {items : List (Moment × NormalMsg)} {r : PollOut}
    (h : fullQueue r.loop.writer.queue) :
    (normalLoop cfg pr items r).readsLeft = r.readsLeft ∧
      (normalLoop cfg pr items r).normalsLeft = items ∧
      (normalLoop cfg pr items r).loop.writer = r.loop.writer := by
  unfold normalLoop
  simp only [h.tooMuch, if_true]
  split <;> exact ⟨rfl, rfl, rfl⟩

theorem full_write {i : PollIn} (hi : i.unread) {r r' : PollOut} {f : Flowing} {wr : Bool}
    (h : fullQueue r.loop.writer.queue) (hw : writePart enc i r = (f, wr, r')) :
    r'.readsLeft = r.readsLeft ∧ r'.normalsLeft = r.normalsLeft ∧ fullQueue r'.loop.writer.queue := by
  have hp := full_pass (enc := enc) (drain := false) hi.1 h
  unfold writePart at hw
  simp only at hw
  split at hw
  · cases hw
    exact ⟨rfl, rfl, hp⟩
  · split at hw
    · split at hw <;> cases hw <;> exact ⟨rfl, rfl, hp⟩
    · cases hw
      exact ⟨rfl, rfl, hp⟩

theorem full_drain {i : PollIn} (hi : i.unread) {r : PollOut} {d : Disconnected}
    (h : fullQueue r.loop.writer.queue) :
    (drainPart enc i r d).readsLeft = r.readsLeft ∧ (drainPart enc i r d).normalsLeft = r.normalsLeft ∧
      fullQueue (drainPart enc i r d).loop.writer.queue := by
  have hp := full_pass (enc := enc) (drain := true) hi.2 h
  unfold drainPart
  simp only
  repeat' split
  all_goals exact ⟨rfl, rfl, hp⟩

theorem full_last {i : PollIn} (hi : i.unread) {r r' : PollOut} {wr : Bool}
    (h : fullQueue r.loop.writer.queue) (hw : lastPart enc i wr r = some r') :
    r'.readsLeft = r.readsLeft ∧ r'.normalsLeft = r.normalsLeft ∧ fullQueue r'.loop.writer.queue := by
  unfold lastPart at hw
  split at hw
  · cases hw
  · simp only at hw
    split at hw
    · cases hw
      exact full_drain hi h
    · cases hw
      exact ⟨rfl, rfl, h⟩

theorem full_work {i : PollIn} (hi : i.unread) {r r' : PollOut}
    (h : fullQueue r.loop.writer.queue) (hn : r.normalsLeft = i.normals)
    (hw : workPart cfg hooks ext pr enc i r = some r') :
    r'.readsLeft = i.reads ∧ r'.normalsLeft = i.normals ∧ fullQueue r'.loop.writer.queue := by
  unfold workPart at hw
  split at hw
  · cases hw
  · rename_i r1 h1
    exact absurd (full_read h h1).1 (by simp)
  · rename_i r1 h1
    obtain ⟨_, h2, h3, h4, _⟩ := full_read h h1
    split at hw
    · rename_i r2 hc
      cases hw
      obtain ⟨h5, h6, h7⟩ := full_control hc
      exact ⟨h5.trans h2, h6.trans (h3.trans hn), by rw [h7, h4]; exact h⟩
    · rename_i r2 hc
      obtain ⟨h5, h6, h7⟩ := full_control hc
      have hq2 : fullQueue r2.loop.writer.queue := by rw [h7, h4]; exact h
      obtain ⟨h8, h9, h10⟩ := full_normal (cfg := cfg) (pr := pr) (items := i.normals) hq2
      split at hw
      · rename_i b r3 h11
        cases hw
        obtain ⟨h12, h13, h14⟩ := full_write hi (by rw [h10]; exact hq2) h11
        exact ⟨h12.trans (h8.trans (h5.trans h2)), h13.trans h9, h14⟩
      · rename_i b r3 h11
        obtain ⟨h12, h13, h14⟩ := full_write hi (by rw [h10]; exact hq2) h11
        obtain ⟨h15, h16, h17⟩ := full_last hi h14 hw
        exact ⟨h15.trans (h12.trans (h8.trans (h5.trans h2))), h16.trans (h13.trans h9), h17⟩

theorem full_handover {i : PollIn} (hi : i.unread) {r r' : PollOut}
    (h : fullQueue r.loop.writer.queue) (hr : r.readsLeft = i.reads) (hn : r.normalsLeft = i.normals)
    (hw : handoverPart cfg hooks ext pr enc i r = some r') :
    r'.readsLeft = i.reads ∧ r'.normalsLeft = i.normals ∧ fullQueue r'.loop.writer.queue := by
  unfold handoverPart at hw
  split at hw
  · split at hw <;> cases hw <;> exact ⟨hr, hn, h⟩
  · exact full_work hi h hn hw

theorem full_poll {i : PollIn} (hi : i.unread) {l : OnlineLoop} {r : PollOut} (h : l.full)
    (hp : l.poll cfg hooks ext pr enc i = some r) :
    r.readsLeft = i.reads ∧ r.normalsLeft = i.normals ∧ r.loop.full := by
  have hq : fullQueue l.writer.queue := h
  unfold OnlineLoop.poll at hp
  simp only at hp
  split at hp
  · exact full_handover hi hq rfl rfl hp
  · split at hp
    · cases hp
      exact ⟨rfl, rfl, h⟩
    · split at hp
      · cases hp
      · split at hp
        · cases hp
          exact ⟨rfl, rfl, hq.append _⟩
        · exact full_handover hi (hq.append _) rfl rfl hp

end Akasa
