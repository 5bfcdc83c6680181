import Verif.Proof.OnlinePoll
import Verif.Props.Hook
/-! # Runs of polls -/
namespace Akasa

variable {cfg : Config} {hooks : HookConfig} {ext : HookExt} {pr : Proto}
  {enc : OutPkt → Option Bytes}

/-- The first polls of a run are a run. -/
theorem loop_run_take {l : OnlineLoop} {is : List PollIn} {rs : List PollOut}
    (h : l.run cfg hooks ext pr enc is = some rs) (k : Nat) :
    l.run cfg hooks ext pr enc (is.take k) = some (rs.take k) := by
  induction is generalizing l rs k with
  | nil => simp only [OnlineLoop.run, Option.some.injEq] at h; subst h; simp [OnlineLoop.run]
  | cons i is ih =>
    cases k with
    | zero => simp [OnlineLoop.run]
    | succ k =>
      simp only [OnlineLoop.run, List.take_succ_cons] at h ⊢
      split at h
      · cases h
      · rename_i r hr
        split at h
        · rename_i e he
          cases h
          simp [he]
        · rename_i he
          rw [Option.map_eq_some_iff] at h
          obtain ⟨rs', h1, rfl⟩ := h
          simp [he, ih h1 k]

/-- Every poll of a run is a poll of a task in a proper state. -/
theorem loop_run_mem {l : OnlineLoop} (hi : LoopInv l) {is : List PollIn} {rs : List PollOut}
    (h : l.run cfg hooks ext pr enc is = some rs) {r : PollOut} (hr : r ∈ rs) :
    ∃ i ∈ is, ∃ l0, LoopInv l0 ∧ l0.poll cfg hooks ext pr enc i = some r ∧
      ((∀ i ∈ is, i.flush ≠ .pending) → l.Tidy → l0.Tidy) := by
  induction is generalizing l rs with
  | nil => simp only [OnlineLoop.run, Option.some.injEq] at h; subst h; simp at hr
  | cons i is ih =>
    simp only [OnlineLoop.run] at h
    split at h
    · cases h
    · rename_i r0 hr0
      split at h
      · cases h
        simp only [List.mem_singleton] at hr
        subst hr
        exact ⟨i, by simp, l, hi, hr0, fun _ => id⟩
      · rename_i he
        rw [Option.map_eq_some_iff] at h
        obtain ⟨rs', h1, rfl⟩ := h
        simp only [List.mem_cons] at hr
        rcases hr with rfl | hr
        · exact ⟨i, by simp, l, hi, hr0, fun _ => id⟩
        · have hd := ((poll_done hi hr0).2 he).2
          obtain ⟨j, hj, l0, h2, h3, h4⟩ := ih hd.inv h1 hr
          exact ⟨j, by simp [hj], l0, h2, h3, fun hf ht =>
            h4 (fun x hx => hf x (by simp [hx])) (hd.flush (hf i (by simp)) ht)⟩

theorem loop_run_at {l : OnlineLoop} (hi : LoopInv l) {is : List PollIn} {rs : List PollOut}
    (h : l.run cfg hooks ext pr enc is = some rs) {k : Nat} {r : PollOut} (hr : rs[k]? = some r) :
    ∃ i, is[k]? = some i ∧ ∃ l0, LoopInv l0 ∧ l0.poll cfg hooks ext pr enc i = some r ∧
      ((∀ i ∈ is.take k, i.flush ≠ .pending) → l.Tidy → l0.Tidy) := by
  induction is generalizing l rs k with
  | nil => simp only [OnlineLoop.run, Option.some.injEq] at h; subst h; simp at hr
  | cons i is ih =>
    simp only [OnlineLoop.run] at h
    split at h
    · cases h
    · rename_i r0 hr0
      split at h
      · cases h
        cases k with
        | zero =>
          simp only [List.getElem?_cons_zero, Option.some.injEq] at hr
          subst hr
          exact ⟨i, rfl, l, hi, hr0, fun _ => id⟩
        | succ k => simp at hr
      · rename_i he
        rw [Option.map_eq_some_iff] at h
        obtain ⟨rs', h1, rfl⟩ := h
        cases k with
        | zero =>
          simp only [List.getElem?_cons_zero, Option.some.injEq] at hr
          subst hr
          exact ⟨i, rfl, l, hi, hr0, fun _ => id⟩
        | succ k =>
          have hd := ((poll_done hi hr0).2 he).2
          obtain ⟨j, hj, l0, h2, h3, h4⟩ := ih hd.inv h1 (by simpa using hr)
          exact ⟨j, by simpa using hj, l0, h2, h3, fun hf ht =>
            h4 (fun x hx => hf x (by simp [hx])) (hd.flush (hf i (by simp)) ht)⟩

/-- What the polls of a run have done, all together. -/
theorem loop_run_did {l : OnlineLoop} (hi : LoopInv l) {is : List PollIn} {rs : List PollOut}
    (h : l.run cfg hooks ext pr enc is = some rs) :
    ∃ l', (∀ r, rs.getLast? = some r → r.loop = l') ∧
      (LRun cfg hooks ext pr enc l (rs.flatMap (·.log)) (passedBy rs) l' ∨
        ∃ b x l1, rs.flatMap (·.log) = b ++ [x] ∧
          LRun cfg hooks ext pr enc l b (passedBy rs) l1 ∧ LLast cfg hooks ext pr l1 x l') := by
  induction is generalizing l rs with
  | nil =>
    simp only [OnlineLoop.run, Option.some.injEq] at h
    subst h
    exact ⟨l, (fun r hr => by simp at hr), .inl .nil⟩
  | cons i is ih =>
    simp only [OnlineLoop.run] at h
    split at h
    · cases h
    · rename_i r0 hr0
      split at h
      · cases h
        refine ⟨r0.loop, (fun r hr => by simp at hr; rw [hr]), ?_⟩
        rcases (poll_done hi hr0).1 with h1 | ⟨b, x, l1, -, h2, h3, h4⟩
        · exact .inl (by unfold Did at h1; simpa [passedBy] using h1)
        · exact .inr ⟨b, x, l1, by simpa using h2, by simpa [passedBy] using h3, h4⟩
      · rename_i he
        rw [Option.map_eq_some_iff] at h
        obtain ⟨rs', h1, rfl⟩ := h
        obtain ⟨hd, hp⟩ := (poll_done hi hr0).2 he
        obtain ⟨l', h2, h3⟩ := ih hp.inv h1
        by_cases hrs : rs' = []
        · subst hrs
          exact ⟨r0.loop, (fun r hr => by simp at hr; rw [hr]), .inl (by
            unfold Did at hd; simpa [passedBy] using hd)⟩
        · refine ⟨l', (fun r hr => h2 r ?_), ?_⟩
          · rwa [List.getLast?_cons_of_ne_nil hrs] at hr
          · simp only [List.flatMap_cons, passedBy]
            rcases h3 with h3 | ⟨b, x, l1, h4, h5, h6⟩
            · exact .inl (hd.trans h3)
            · exact .inr ⟨r0.log ++ b, x, l1, by rw [h4, List.append_assoc], hd.trans h5, h6⟩

/-- One can prove something of the loop after a run by looking at the steps only. -/
theorem loop_run_ends {Q R : List Handled → List (ClientId × NormalMsg) → OnlineLoop → Prop}
    {l : OnlineLoop} (hi : LoopInv l) {is : List PollIn} {rs : List PollOut}
    (h : l.run cfg hooks ext pr enc is = some rs) {r : PollOut} (hr : rs.getLast? = some r)
    (base : Q [] [] l)
    (step : ∀ {b g l1 b' g' l2}, StepInv l1 → Q b g l1 → LStep cfg hooks ext pr enc l1 b' g' l2 →
      (∀ x ∈ b ++ b', x ∈ rs.flatMap (·.log)) → Q (b ++ b') (g ++ g') l2)
    (fin : ∀ {b g l1}, Q b g l1 → R b g l1)
    (last : ∀ {b g l1 x l2}, StepInv l1 → Q b g l1 → LLast cfg hooks ext pr l1 x l2 →
      (∀ y ∈ b ++ [x], y ∈ rs.flatMap (·.log)) → R (b ++ [x]) g l2) :
    R (rs.flatMap (·.log)) (passedBy rs) r.loop := by
  have key : ∀ {b g l1}, LRun cfg hooks ext pr enc l b g l1 →
      (∀ x ∈ b, x ∈ rs.flatMap (·.log)) → Q b g l1 ∧ StepInv l1 := by
    intro b g l1 hrun
    induction hrun with
    | nil => exact fun _ => ⟨base, hi.toStepInv⟩
    | snoc _ hs ih =>
      intro hb
      obtain ⟨h1, h2⟩ := ih (fun x hx => hb x (by simp [hx]))
      exact ⟨step h2 h1 hs hb, stepInv_step h2 hs⟩
  obtain ⟨l', h1, h2⟩ := loop_run_did hi h
  rw [h1 r hr]
  rcases h2 with h2 | ⟨b, x, l1, h3, h4, h5⟩
  · exact fin (key h2 (fun _ hx => hx)).1
  · rw [h3]
    obtain ⟨h6, h7⟩ := key h4 (fun y hy => by rw [h3]; simp [hy])
    exact last h7 h6 h5 (fun y hy => by rw [h3]; exact hy)

theorem loop_run_induction {Q : List Handled → List (ClientId × NormalMsg) → OnlineLoop → Prop}
    {l : OnlineLoop} (hi : LoopInv l) {is : List PollIn} {rs : List PollOut}
    (h : l.run cfg hooks ext pr enc is = some rs) {r : PollOut} (hr : rs.getLast? = some r)
    (base : Q [] [] l)
    (step : ∀ {b g l1 b' g' l2}, StepInv l1 → Q b g l1 → LStep cfg hooks ext pr enc l1 b' g' l2 →
      (∀ x ∈ b ++ b', x ∈ rs.flatMap (·.log)) → Q (b ++ b') (g ++ g') l2)
    (last : ∀ {b g l1 x l2}, StepInv l1 → Q b g l1 → LLast cfg hooks ext pr l1 x l2 →
      (∀ y ∈ b ++ [x], y ∈ rs.flatMap (·.log)) → Q (b ++ [x]) g l2) :
    Q (rs.flatMap (·.log)) (passedBy rs) r.loop :=
  loop_run_ends hi h hr base step id last

/-- Packets are appended to the queue one by one. -/
theorem winv_push {w : Writer OutPkt} {ps : List OutPkt} (h : WInv enc w ps) (hl : w.live = true)
    (out : List OutPkt) : WInv enc { w with queue := w.queue ++ out.map .packet } (ps ++ out) := by
  induction out generalizing w ps with
  | nil => simpa using h
  | cons p out ih =>
    have h1 := winv_step h (.push p)
    simp only [Writer.step, if_pos hl, queued] at h1
    have h2 := ih h1 hl
    simpa using h2

/-- The queue of the writer. -/
theorem live_push {l : OnlineLoop} {out : List OutPkt} : (l.push out).writer =
    { l.writer with queue := l.writer.queue ++ out.map .packet } := rfl

theorem wInv_dead {w w' : Writer OutPkt} {ps : List OutPkt} (h : WInv enc w ps) (hl : w.live = false)
    (out : List OutPkt) (hw : w'.wire = w.wire) (hl' : w'.live = w.live) : WInv enc w' (ps ++ out) := by
  refine ⟨fun h => ?_, fun h => ?_, ?_⟩
  · rw [hl', hl] at h; cases h
  · rw [hl', hl] at h; cases h
  · rw [hw, encodings_append]; exact h.pre.trans (List.prefix_append _ _)

theorem winv_push' {l : OnlineLoop} {ps : List OutPkt} (h : WInv enc l.writer ps)
    (out : List OutPkt) : WInv enc (l.push out).writer (ps ++ out) := by
  cases hl : l.writer.live with
  | true => exact winv_push h hl out
  | false => exact wInv_dead h hl out rfl rfl

/-- The bytes on the wire after a run. -/
theorem loop_run_wire {s : Session} (hs : s.idle) {is : List PollIn} {rs : List PollOut}
    (h : (OnlineLoop.new s).run cfg hooks ext pr enc is = some rs) {r : PollOut}
    (hr : rs.getLast? = some r) : WInv enc r.loop.writer (sentBy rs) := by
  have := loop_run_induction (Q := fun b _ l => WInv enc l.writer (b.flatMap (·.out)))
    (loopInv_new hs.1 hs.2) h hr
    ⟨fun _ => trivial, fun _ => rfl, by simp [OnlineLoop.new]⟩ ?_ ?_
  · have h2 : sentBy rs = (rs.flatMap (·.log)).flatMap (·.out) := by
      simp only [sentBy, List.flatMap_assoc]
    rw [h2]; exact this
  · intro b g l1 b' g' l2 _ hq hst _
    rw [List.flatMap_append]
    cases hst with
    | packet => simpa using winv_push' (l := l1.withSession (Res.session _)) hq _
    | ask => simpa using hq
    | answer => simpa using winv_push' (l := ({ l1 with hook := none } : OnlineLoop).withSession _) hq _
    | malformed =>
      simpa using winv_push' (l := l1.withSession
        { l1.out.session with serverDisconnected := true }) hq _
    | normal => simpa using winv_push' (l := l1.withSession (Res.session _)) hq _
    | write r _ => simpa [queued] using winv_step hq (.write r)
    | pass => simpa using hq
    | flags _ hw _ => rw [hw]; simpa using hq
  · intro b g l1 x l2 _ hq hl _
    obtain ⟨m, size, p, res, -, -, rfl, rfl⟩ := hl.ex
    rw [List.flatMap_append]
    simpa using winv_push' (l := ({ l1 with hook := none } : OnlineLoop).withSession _) hq _

/-- A hook is running only for a packet it is meant for. -/
def OnlineLoop.HookFor (cfg : Config) (hooks : HookConfig) (l : OnlineLoop) : Prop :=
  ∀ size p, l.hook = some (size, p) → asksHook cfg hooks size p = true

theorem hookFor_run {l l' : OnlineLoop} {b : List Handled} {g : List (ClientId × NormalMsg)}
    (h : l.HookFor cfg hooks) (hr : LRun cfg hooks ext pr enc l b g l') : l'.HookFor cfg hooks := by
  induction hr with
  | nil => exact h
  | snoc _ hs ih =>
    intro size p hp
    cases hs with
    | packet h1 => exact ih _ _ hp
    | ask _ _ _ _ ha => simp only [Option.some.injEq, Prod.mk.injEq] at hp; rw [← hp.1, ← hp.2]; exact ha
    | answer => cases hp
    | malformed => exact ih _ _ hp
    | normal => exact ih _ _ hp
    | write => exact ih _ _ hp
    | pass => exact ih _ _ hp
    | flags _ _ hh => rw [hh] at hp; exact ih _ _ hp

theorem hookFor_all {l : OnlineLoop} (hi : LoopInv l) (h : l.HookFor cfg hooks)
    {is : List PollIn} {rs : List PollOut} (hr : l.run cfg hooks ext pr enc is = some rs)
    {r : PollOut} (hm : r ∈ rs) : r.loop.HookFor cfg hooks := by
  induction is generalizing l rs with
  | nil => simp only [OnlineLoop.run, Option.some.injEq] at hr; subst hr; simp at hm
  | cons i is ih =>
    simp only [OnlineLoop.run] at hr
    split at hr
    · cases hr
    · rename_i r0 hr0
      have h0 : r0.loop.HookFor cfg hooks := by
        rcases (poll_done hi hr0).1 with hd | ⟨b, out, l1, -, -, -, hl⟩
        · exact hookFor_run h hd
        · obtain ⟨m, size, p, res, -, -, -, e⟩ := hl.ex
          intro size p hp
          rw [e] at hp
          cases hp
      split at hr
      · cases hr
        simp only [List.mem_singleton] at hm
        subst hm
        exact h0
      · rename_i he
        rw [Option.map_eq_some_iff] at hr
        obtain ⟨rs', h1, rfl⟩ := hr
        simp only [List.mem_cons] at hm
        rcases hm with rfl | hm
        · exact h0
        · exact ih ((poll_done hi hr0).2 he).2.inv h0 h1 hm

end Akasa
