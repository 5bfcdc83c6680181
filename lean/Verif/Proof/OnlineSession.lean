import Verif.Proof.OnlineRun
import Verif.Proof.Life
import Verif.Proof.DeliverRun
/-! # What the session and its write queue are after a run of polls -/
namespace Akasa

variable {cfg : Config} {hooks : HookConfig} {ext : HookExt} {pr : Proto}
  {enc : OutPkt → Option Bytes}

theorem gather_length {q : List (WItem OutPkt)} : ∀ {all : Bytes} {idx : Nat} {all' : Bytes}
    {idx' : Nat} {rest : List (WItem OutPkt)}, gather enc all idx q = some (all', idx', rest) →
      rest.length ≤ q.length - 1 := by
  induction q with
  | nil =>
    intro all idx all' idx' rest h
    simp only [gather, Option.some.injEq, Prod.mk.injEq] at h
    rw [← h.2.2]; simp
  | cons x q ih =>
    intro all idx all' idx' rest h
    cases x with
    | data d i =>
      simp only [gather] at h
      split at h
      · cases h; simp
      · have := ih h; simp; omega
    | packet p =>
      simp only [gather] at h
      split at h
      · cases h
      · split at h
        · cases h; simp
        · have := ih h; simp; omega

theorem write_length (w : Writer OutPkt) (r : WriteRes) :
    (w.step enc (.write r)).queue.length ≤ w.queue.length := by
  simp only [Writer.step]
  split
  · rename_i hc
    have hne : w.queue ≠ [] := by
      simp only [Bool.and_eq_true, Bool.not_eq_true', List.isEmpty_eq_false_iff] at hc
      exact hc.2
    have hpos : w.queue.length > 0 := List.length_pos_iff.2 hne
    split
    · exact Nat.le_refl _
    · rename_i all idx rest hg
      have := gather_length hg
      cases r with
      | wrote n =>
        simp only [Writer.put]
        split
        · simp only [List.length_cons]; omega
        · omega
      | pending => simp only [Writer.put, List.length_cons]; omega
      | error => exact Nat.le_refl _
  · exact Nat.le_refl _

/-- The queue is bounded as long as the answers are. -/
theorem short_step {B : Nat} (hB : 1 ≤ B) {l l' : OnlineLoop} {b : List Handled}
    {g : List (ClientId × NormalMsg)} (hi : StepInv l) (hq : l.writer.queue.length ≤ 15 + B)
    (hb : ∀ x ∈ b, x.out.length ≤ B) (hs : LStep cfg hooks ext pr enc l b g l') :
    l'.writer.queue.length ≤ 15 + B := by
  have hmax : writePacketsMax = 16 := rfl
  cases hs with
  | packet hh hd ht hc hp hcl =>
    have := tooMuch_length ht
    have := hb _ (List.mem_singleton.2 rfl)
    simp [OnlineLoop.push, OnlineLoop.withSession] at this ⊢
    omega
  | ask => exact hq
  | answer hh hp hcl =>
    have := (hi.asked (by simp [hh])).2
    have := hb _ (List.mem_singleton.2 rfl)
    simp [OnlineLoop.push, OnlineLoop.withSession] at this ⊢
    omega
  | malformed hh hd ht =>
    have := tooMuch_length ht
    simp [OnlineLoop.push, OnlineLoop.withSession]
    omega
  | normal hh hd ht =>
    have := tooMuch_length ht
    have := hb _ (List.mem_singleton.2 rfl)
    simp [OnlineLoop.push, OnlineLoop.withSession] at this ⊢
    omega
  | write r => exact Nat.le_trans (write_length _ _) hq
  | pass => exact hq
  | flags _ hw _ => rw [hw]; exact hq

theorem short_last {B : Nat} {l l' : OnlineLoop} {x : Handled}
    (hi : StepInv l) (hb : x.out.length ≤ B) (hs : LLast cfg hooks ext pr l x l') :
    l'.writer.queue.length ≤ 15 + B := by
  have hmax : writePacketsMax = 16 := rfl
  obtain ⟨m, size, p, res, -, -, rfl, rfl⟩ := hs.ex
  have : l.writer.queue.length < writePacketsMax := by
    rcases hs.from_ with h | ⟨-, -, h⟩
    · exact (hi.asked h).2
    · exact tooMuch_length h
  simp [OnlineLoop.push, OnlineLoop.withSession] at hb ⊢
  omega

/-- A task that sent little at a time has a short queue. -/
theorem loop_run_queue {l : OnlineLoop} (hi : LoopInv l) {is : List PollIn} {rs : List PollOut}
    (h : l.run cfg hooks ext pr enc is = some rs) {r : PollOut} (hr : rs.getLast? = some r)
    {B : Nat} (hB : 1 ≤ B) (hq : l.writer.queue.length ≤ 15 + B)
    (hb : ∀ x ∈ handledBy rs, x.out.length ≤ B) : r.loop.writer.queue.length ≤ 15 + B :=
  loop_run_induction (Q := fun _ _ l => l.writer.queue.length ≤ 15 + B) hi h hr hq
    (fun hi hq hs hm => short_step hB hi hq (fun x hx => hb x (hm x (by simp [hx]))) hs)
    (fun hi _ hs hm => short_last hi (hb _ (hm _ (by simp))) hs)

/-- Elements of a run are last elements of runs. -/
theorem mem_take {rs : List PollOut} {r : PollOut} (h : r ∈ rs) :
    ∃ k, (rs.take k).getLast? = some r := by
  obtain ⟨n, hn, rfl⟩ := List.getElem_of_mem h
  refine ⟨n + 1, ?_⟩
  rw [List.getLast?_take]
  simp [List.getElem?_eq_getElem hn]

theorem handledBy_take {rs : List PollOut} {k : Nat} {x : Handled} (h : x ∈ handledBy (rs.take k)) :
    x ∈ handledBy rs := by
  unfold handledBy at h ⊢
  rw [List.mem_flatMap] at h ⊢
  obtain ⟨r, h1, h2⟩ := h
  exact ⟨r, List.mem_of_mem_take h1, h2⟩

/-- The life of the session behind a run of polls. -/
structure Mirrors (cfg : Config) (ext : Ext) (pr : Proto) (s : Session) (b : List Handled)
    (evs : List (Env × Global × SessEv)) (recs : List Rec) : Prop where
  run : ({ session := s } : Peer).run cfg ext pr evs = some recs
  events : evs.filter (fun e => !e.2.2.isPassed) = b.filterMap (·.what.event)

theorem Mirrors.step {s : Session} {b : List Handled} {evs : List (Env × Global × SessEv)}
    {recs : List Rec} {e : Ext} (h : Mirrors cfg e pr s b evs recs) {env : Env} {g : Global}
    {ev : SessEv} {q : Peer} {res : Res} {b' : List Handled}
    (hs : (endOf { session := s } recs).step cfg e pr env g ev = some (q, res))
    (hb : b'.filterMap (·.what.event) = if ev.isPassed then [] else [(env, g, ev)]) :
    ∃ evs' recs', Mirrors cfg e pr s (b ++ b') evs' recs' ∧ endOf { session := s } recs' = q ∧
      recs'.flatMap (·.res.out) = recs.flatMap (·.res.out) ++ res.out := by
  refine ⟨_, _, ⟨peer_run_snoc h.run hs, ?_⟩, ?_, ?_⟩
  · rw [List.filter_append, List.filterMap_append, h.events, hb]
    cases hp : ev.isPassed <;> simp [hp]
  · simp [endOf_snoc]
  · simp

/-- What is known of the session after steps. -/
def Reflects (cfg : Config) (ext : Ext) (pr : Proto) (s : Session) (b : List Handled)
    (l : OnlineLoop) : Prop :=
  ∃ evs recs tail, Mirrors cfg ext pr s b evs recs ∧
    b.flatMap (·.out) = recs.flatMap (·.res.out) ++ tail ∧
    ((tail = [] ∧ endOf { session := s } recs = { session := l.out.session }) ∨
     (tail = [.disconnect .malformedPacket] ∧ pr = .v5 ∧ l.out.session.disconnected = true ∧
       l.hook = none))

theorem reflects_step {s : Session} {b b' : List Handled} {l l' : OnlineLoop}
    {g : List (ClientId × NormalMsg)} (hi : StepInv l) (h : Reflects cfg ext.toExt pr s b l)
    (hb : ∀ x ∈ b', x.what.unhooked) (hs : LStep cfg hooks ext pr enc l b' g l') :
    Reflects cfg ext.toExt pr s (b ++ b') l' := by
  obtain ⟨evs, recs, tail, h1, h2, h3⟩ := h
  rcases h3 with ⟨rfl, h3⟩ | ⟨rfl, h3, h4, h5⟩
  · simp only [List.append_nil] at h2
    have go : ∀ {env : Env} {g : Global} {ev : SessEv} {q : Peer} {res : Res},
        (({ session := l.out.session } : Peer)).step cfg ext.toExt pr env g ev = some (q, res) →
        (b'.filterMap (·.what.event) = if ev.isPassed then [] else [(env, g, ev)]) →
        b'.flatMap (·.out) = res.out → q = { session := l'.out.session } →
        Reflects cfg ext.toExt pr s (b ++ b') l' := by
      intro env g ev q res hst hbb hout hq
      rw [← h3] at hst
      obtain ⟨evs', recs', h6, h7, h8⟩ := h1.step hst hbb
      exact ⟨evs', recs', [], h6, by simp [h8, h2, hout], .inl ⟨rfl, h7.trans hq⟩⟩
    have packet : ∀ {m : Moment} {size : Nat} {p : InPkt} {res : Res}, m.ans = {} →
        l.out.session.disconnected = false →
        onPacketHook cfg hooks ext pr m.env m.ans m.after m.global l.out.session size p = some res →
        res.closed = false → b' = [⟨.packet m size p, res.out⟩] → l'.out.session = res.session →
        Reflects cfg ext.toExt pr s (b ++ b') l' := by
      intro m size p res ha hd hp hcl hbe hl
      rw [ha, C69_invisible] at hp
      subst hbe
      refine go (env := m.env) (g := m.global) (ev := .packet m.after size p)
        (q := { session := res.session }) (res := res) ?_ rfl (by simp) (by rw [hl])
      simp [Peer.step, hd, hp, hcl]
    have same : b' = [] → l'.out.session = l.out.session → Reflects cfg ext.toExt pr s (b ++ b') l' := by
      rintro rfl hl
      exact ⟨evs, recs, [], by simpa using h1, by simpa using h2, .inl ⟨rfl, by rw [hl]; exact h3⟩⟩
    cases hs with
    | packet hh hd ht hc hp hcl => exact packet (hb _ (List.mem_singleton.2 rfl)) hd hp hcl rfl rfl
    | ask => exact same rfl rfl
    | answer hh hp hcl =>
      exact packet (hb _ (List.mem_singleton.2 rfl)) (hi.asked (by simp [hh])).1 hp hcl rfl rfl
    | malformed hh hd ht hpr =>
      refine ⟨evs, recs, [.disconnect .malformedPacket], ⟨h1.run, ?_⟩, by simp [h2],
        .inr ⟨rfl, hpr, ?_, ?_⟩⟩
      · rw [h1.events]; simp [Taken.event]
      · simp [OnlineLoop.push, OnlineLoop.withSession, Session.disconnected]
      · simpa [OnlineLoop.push, OnlineLoop.withSession] using hh
    | normal hh hd ht =>
      rename_i m msg
      refine go (env := m.env) (g := m.global) (ev := .normal msg)
        (q := { session := (onNormal cfg pr m.env m.global l.out.session msg).session })
        (res := onNormal cfg pr m.env m.global l.out.session msg) ?_ rfl (by simp) rfl
      simp [Peer.step, hd]
    | write => exact same rfl rfl
    | pass hh hp =>
      rename_i o out
      refine go (env := {}) (g := exGlobal) (ev := .passed out.session.bcast out.session.bcastCnt)
        (q := _) (res := _) rfl rfl (by rfl) ?_
      rw [← pass_core hp]
    | flags ho _ _ => exact same rfl (by rw [ho])
  · have same : b' = [] → l'.out.session.disconnected = true → l'.hook = none →
        Reflects cfg ext.toExt pr s (b ++ b') l' := by
      rintro rfl hl hh
      exact ⟨evs, recs, _, by simpa using h1, by simpa using h2, .inr ⟨rfl, h3, hl, hh⟩⟩
    have hdis := disc_step h4 h5 hs
    cases hs with
    | packet _ hx => rw [h4] at hx; cases hx
    | ask _ hx => rw [h4] at hx; cases hx
    | answer hx => rw [h5] at hx; cases hx
    | malformed _ hx => rw [h4] at hx; cases hx
    | normal _ hx => rw [h4] at hx; cases hx
    | write => exact same rfl hdis.1 hdis.2
    | pass => exact same rfl hdis.1 hdis.2
    | flags => exact same rfl hdis.1 hdis.2

theorem reflects_last {s : Session} {b : List Handled} {l l' : OnlineLoop} {x : Handled}
    (hi : StepInv l) (h : Reflects cfg ext.toExt pr s b l) (hx : x.what.unhooked)
    (hs : LLast cfg hooks ext pr l x l') :
    ∃ evs recs, Mirrors cfg ext.toExt pr s (b ++ [x]) evs recs ∧
      (b ++ [x]).flatMap (·.out) = recs.flatMap (·.res.out) ∧
      endOf { session := s } recs = { session := l'.out.session, online := false } := by
  obtain ⟨evs, recs, tail, h1, h2, h3⟩ := h
  obtain ⟨m, size, p, res, hp, hcl, rfl, rfl⟩ := hs.ex
  have hd : l.out.session.disconnected = false := by
    rcases hs.from_ with h | ⟨-, h, -⟩
    · exact (hi.asked h).1
    · exact h
  rcases h3 with ⟨rfl, h3⟩ | ⟨rfl, -, h4, -⟩
  · have ha : m.ans = {} := hx
    rw [ha, C69_invisible] at hp
    obtain ⟨evs', recs', h6, h7, h8⟩ := h1.step (env := m.env) (g := m.global)
      (ev := .packet m.after size p) (q := { session := res.session, online := false }) (res := res)
      (b' := [⟨.packet m size p, res.out⟩])
      (by rw [h3]; simp [Peer.step, hd, hp, hcl]) rfl
    exact ⟨evs', recs', h6, by simp [h8, h2], by rw [h7]; rfl⟩
  · rw [hd] at h4; cases h4

/-- The life of a session behind a run of polls. -/
theorem loop_run_session {s : Session} (hs : s.idle) {is : List PollIn} {rs : List PollOut}
    (h : (OnlineLoop.new s).run cfg hooks ext pr enc is = some rs)
    (hu : ∀ x ∈ handledBy rs, x.what.unhooked) :
    ∃ evs recs tail, Mirrors cfg ext.toExt pr s (handledBy rs) evs recs ∧
      sentBy rs = recs.flatMap (·.res.out) ++ tail ∧
      (∀ r, rs.getLast? = some r →
        (tail = [] ∧ (endOf { session := s } recs).session = r.loop.out.session) ∨
        (tail = [.disconnect .malformedPacket] ∧ pr = .v5 ∧
          r.loop.out.session.disconnected = true)) ∧ (rs = [] → tail = []) := by
  have h2 : sentBy rs = (rs.flatMap (·.log)).flatMap (·.out) := by
    simp only [sentBy, List.flatMap_assoc]
  rw [h2]
  cases hr : rs.getLast? with
  | none =>
    have : rs = [] := by simpa using hr
    subst this
    exact ⟨[], [], [], ⟨rfl, rfl⟩, rfl, (fun r hr => by simp at hr), fun _ => rfl⟩
  | some r =>
    have hne : rs ≠ [] := by rintro rfl; simp at hr
    have key := loop_run_ends (cfg := cfg) (hooks := hooks) (ext := ext) (pr := pr) (enc := enc)
      (Q := fun b _ l => Reflects cfg ext.toExt pr s b l)
      (R := fun b _ l => Reflects cfg ext.toExt pr s b l ∨
        ∃ evs recs, Mirrors cfg ext.toExt pr s b evs recs ∧
          b.flatMap (·.out) = recs.flatMap (·.res.out) ∧
          endOf { session := s } recs = { session := l.out.session, online := false })
      (loopInv_new hs.1 hs.2) h hr ⟨[], [], [], ⟨rfl, rfl⟩, rfl, .inl ⟨rfl, rfl⟩⟩
      (fun hi hq hst hm => reflects_step hi hq (fun x hx => hu x (hm x (by simp [hx]))) hst)
      (fun hq => .inl hq)
      (fun hi hq hl hm => .inr (reflects_last hi hq (hu _ (hm _ (by simp))) hl))
    rcases key with ⟨evs, recs, tail, h3, h4, h5⟩ | ⟨evs, recs, h3, h4, h5⟩
    · refine ⟨evs, recs, tail, h3, h4, fun r' hr' => ?_, fun h => absurd h hne⟩
      cases hr'
      rcases h5 with ⟨h5, h6⟩ | ⟨h5, h6, h7, -⟩
      · exact .inl ⟨h5, by rw [h6]⟩
      · exact .inr ⟨h5, h6, h7⟩
    · refine ⟨evs, recs, [], h3, by simpa using h4, fun r' hr' => ?_, fun h => absurd h hne⟩
      cases hr'
      exact .inl ⟨rfl, by rw [h5]⟩

end Akasa
