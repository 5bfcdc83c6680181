import Verif.Proof.WorldReach
import Verif.Spec.World
/-! # Copies on their way in the whole broker -/
namespace Akasa

/-- The copies queued in the session of a task that can pass them on. -/
def Stage.carried (st : Stage) (d : ClientId) : List NormalMsg :=
  match st with
  | .online s => s.queue d
  | .closed s => s.queue d
  | .ending s => s.queue d
  | .offline s => s.queue d
  | .expired s => s.queue d
  | _ => []

/-- No copies for this client, not even an empty queue. -/
def Stage.blank (st : Stage) (d : ClientId) : Prop :=
  match st with
  | .online s => s.bcast.get d = none
  | .closed s => s.bcast.get d = none
  | .ending s => s.bcast.get d = none
  | .offline s => s.bcast.get d = none
  | .expired s => s.bcast.get d = none
  | _ => True

def Task.carries (x : Task) (d : ClientId) : List NormalMsg :=
  (x.sinks.get d).toList ++ x.stage.carried d

variable {cfg : Config} {ext : Ext} {w w' : World} {evs e : List Event}

theorem onTheWay_of {t : TaskId} {x : Task} (hx : w.tasks.get t = some x) (d : ClientId) :
    w.onTheWay t d = x.carries d := by
  unfold World.onTheWay
  rw [hx]
  obtain ⟨req, st, c, k⟩ := x
  cases st <;> rfl

theorem onTheWay_none {t : TaskId} (hx : w.tasks.get t = none) (d : ClientId) :
    w.onTheWay t d = [] := by
  unfold World.onTheWay
  rw [hx]

theorem onTheWay_congr (h : w'.tasks.get t = w.tasks.get t) (d : ClientId) :
    w'.onTheWay t d = w.onTheWay t d := by
  unfold World.onTheWay
  rw [h]

theorem inboxFrom_congr (h : w'.inbox.get d = w.inbox.get d) (t : TaskId) :
    w'.inboxFrom t d = w.inboxFrom t d := by
  unfold World.inboxFrom
  rw [h]

theorem inboxFrom_none (h : w.inbox.get d = none) (t : TaskId) : w.inboxFrom t d = [] := by
  unfold World.inboxFrom
  rw [h]; rfl

theorem inboxFrom_some (h : w.inbox.get d = some q) (t : TaskId) :
    w.inboxFrom t d = (q.filter fun e => decide (e.1 = t)).map (·.2) := by
  unfold World.inboxFrom
  rw [h]; rfl

/-- What a step does to the copies of one task for one client. -/
structure Flow (w w' : World) (e : List Event) (t : TaskId) (d : ClientId) : Prop where
  sub : (tookFrom t d e ++ w'.inboxFrom t d ++ w'.onTheWay t d).Sublist
    (w.inboxFrom t d ++ w.onTheWay t d ++ queuedFor t d e)
  same : droppedFor t d e = [] → w.inbox.contains d = true → w'.inbox.contains d = true →
    tookFrom t d e ++ w'.inboxFrom t d ++ w'.onTheWay t d =
      w.inboxFrom t d ++ w.onTheWay t d ++ queuedFor t d e

theorem Flow.of_eq {t : TaskId} {d : ClientId}
    (h : tookFrom t d e ++ w'.inboxFrom t d ++ w'.onTheWay t d =
      w.inboxFrom t d ++ w.onTheWay t d ++ queuedFor t d e) : Flow w w' e t d :=
  ⟨by rw [h]; exact List.Sublist.refl _, fun _ _ _ => h⟩

/-- Nothing happens for this pair. -/
theorem Flow.still {t : TaskId} {d : ClientId} (h1 : w'.tasks.get t = w.tasks.get t)
    (h2 : w'.inbox.get d = w.inbox.get d) (h3 : queuedFor t d e = []) (h4 : tookFrom t d e = []) :
    Flow w w' e t d := by
  refine .of_eq ?_
  rw [onTheWay_congr h1, inboxFrom_congr h2, h3, h4]
  simp

/-- The inbox is not there afterwards. -/
theorem Flow.erased {t : TaskId} {d : ClientId}
    (h1 : (w'.onTheWay t d).Sublist (w.onTheWay t d))
    (h2 : w'.inbox.get d = none) (h4 : tookFrom t d e = []) : Flow w w' e t d := by
  refine ⟨?_, ?_⟩
  · rw [inboxFrom_none h2, h4]
    exact ((h1.trans (List.sublist_append_right _ _)).trans (List.sublist_append_left _ _))
  · intro _ _ h
    unfold FMap.contains at h
    rw [h2] at h
    cases h

/-- The task that acts; inboxes stay. -/
theorem Flow.act {t : TaskId} {d : ClientId} {x x' : Task} (hx : w.tasks.get t = some x)
    (hx' : w'.tasks.get t = some x') (h2 : w'.inbox.get d = w.inbox.get d)
    (h4 : tookFrom t d e = [])
    (h : (x'.carries d).Sublist (x.carries d ++ queuedFor t d e))
    (h' : droppedFor t d e = [] → w.inbox.contains d = true →
      x'.carries d = x.carries d ++ queuedFor t d e) : Flow w w' e t d := by
  refine ⟨?_, ?_⟩
  · rw [onTheWay_of hx, onTheWay_of hx', inboxFrom_congr h2, h4, List.nil_append, List.append_assoc]
    exact (List.Sublist.refl _).append h
  · intro hd hc _
    rw [onTheWay_of hx, onTheWay_of hx', inboxFrom_congr h2, h4, h' hd hc]
    simp

/-- The queues of what does not concern us. -/
theorem quiet_of {es : List Event} (t : TaskId) (d : ClientId)
    (h : ∀ ev ∈ es, match ev with
      | .queued _ _ => False
      | .took _ _ _ _ => False
      | _ => True) : queuedFor t d es = [] ∧ tookFrom t d es = [] := by
  constructor
  · unfold queuedFor
    rw [List.flatMap_eq_nil_iff]
    intro ev hev
    have := h ev hev
    cases ev <;> first | rfl | exact this.elim
  · unfold tookFrom
    rw [List.filterMap_eq_nil_iff]
    intro ev hev
    have := h ev hev
    cases ev <;> first | rfl | exact this.elim

theorem queuedFor_append (t : TaskId) (d : ClientId) (a b : List Event) :
    queuedFor t d (a ++ b) = queuedFor t d a ++ queuedFor t d b := List.flatMap_append

theorem droppedFor_append (t : TaskId) (d : ClientId) (a b : List Event) :
    droppedFor t d (a ++ b) = droppedFor t d a ++ droppedFor t d b := List.flatMap_append

theorem tookFrom_append (t : TaskId) (d : ClientId) (a b : List Event) :
    tookFrom t d (a ++ b) = tookFrom t d a ++ tookFrom t d b := List.filterMap_append

/-- The copies of a will. -/
theorem queuedFor_will {ext : Ext} {pr : Proto} {env : Env} {g g' : Global} {s s' : Session}
    {m : Option SendPub} (hw : WillSent ext pr env g s s' g' m) (t u : TaskId) (d : ClientId) :
    queuedFor u d (willEvents t s s' m) = (if t = u then newCopies s s' d else []) ∧
      tookFrom u d (willEvents t s s' m) = [] ∧ droppedFor u d (willEvents t s s' m) = [] := by
  cases m with
  | some m => simp [willEvents, queuedFor, tookFrom, droppedFor]
  | none =>
    refine ⟨?_, rfl, rfl⟩
    have : newCopies s s' d = [] := by
      have h1 := hw.msg
      cases hs : s.will with
      | none =>
        rw [(hw.kept hs).1]
        simp [newCopies]
      | some wl => rw [hs] at h1; cases h1
    rw [this]; simp [willEvents, queuedFor]

/-- One task acts; inboxes stay. -/
theorem Flow.one {t : TaskId} {x x' : Task} (hx : w.tasks.get t = some x)
    (hx' : w'.tasks = w.tasks.insert t x') (hi : w'.inbox = w.inbox)
    (hq : ∀ u d, t ≠ u → queuedFor u d e = []) (hk : ∀ u d, tookFrom u d e = [])
    (h : ∀ d, (x'.carries d).Sublist (x.carries d ++ queuedFor t d e))
    (h' : ∀ d, droppedFor t d e = [] → w.inbox.contains d = true →
      x'.carries d = x.carries d ++ queuedFor t d e) {u : TaskId} {d : ClientId} :
    Flow w w' e u d := by
  by_cases htu : t = u
  · subst htu
    exact .act hx (by rw [hx', FMap.get_insert_self]) (by rw [hi]) (hk t d) (h d) (h' d)
  · exact .still (by rw [hx', FMap.get_insert_ne _ _ htu]) (by rw [hi]) (hq u d htu) (hk u d)

theorem Flow.oneEq {t : TaskId} {x x' : Task} (hx : w.tasks.get t = some x)
    (hx' : w'.tasks = w.tasks.insert t x') (hi : w'.inbox = w.inbox)
    (hq : ∀ u d, t ≠ u → queuedFor u d e = []) (hk : ∀ u d, tookFrom u d e = [])
    (h' : ∀ d, x'.carries d = x.carries d ++ queuedFor t d e) {u : TaskId} {d : ClientId} :
    Flow w w' e u d :=
  .one hx hx' hi hq hk (fun d => by rw [h' d]; exact List.Sublist.refl _) (fun d _ _ => h' d)

/-- The messages at the front of the inbox of `c` are taken. -/
theorem Flow.take {t : TaskId} {x x' : Task} (hx : w.tasks.get t = some x)
    (hx' : w'.tasks = w.tasks.insert t x') (h : ∀ d, x'.carries d = x.carries d) {c : ClientId}
    {src : TaskId} {m : NormalMsg} {rest : List (TaskId × NormalMsg)}
    (hc : w.inbox.get c = some ((src, m) :: rest)) (hi : w'.inbox = w.inbox.insert c rest)
    (hq : ∀ u d, queuedFor u d e = [])
    (hk : ∀ u d, tookFrom u d e = if c = d ∧ src = u then [m] else []) {u : TaskId} {d : ClientId} :
    Flow w w' e u d := by
  have h1 : w'.onTheWay u d = w.onTheWay u d := by
    by_cases htu : t = u
    · subst htu
      rw [onTheWay_of hx, onTheWay_of (w := w') (x := x') (by rw [hx', FMap.get_insert_self]), h]
    · exact onTheWay_congr (by rw [hx', FMap.get_insert_ne _ _ htu]) d
  refine .of_eq ?_
  rw [h1, hq, hk, List.append_nil]
  congr 1
  by_cases hd : c = d
  · subst hd
    rw [inboxFrom_some hc, inboxFrom_some (w := w') (q := rest) (by rw [hi, FMap.get_insert_self])]
    by_cases hs : src = u <;> simp [hs]
  · rw [inboxFrom_congr (w := w) (by rw [hi, FMap.get_insert_ne _ _ hd])]
    simp [hd]

theorem carries_of {x x' : Task} (d : ClientId) {l : List NormalMsg}
    (h : x'.stage.carried d = x.stage.carried d ++ l) (hk : x'.sinks = x.sinks := by rfl) : x'.carries d = x.carries d ++ l := by
  unfold Task.carries
  rw [hk, h, List.append_assoc]

theorem queue_of_copies {s s' : Session} (h : s'.copies = s.copies) (d : ClientId) :
    s'.queue d = s.queue d := by
  unfold Session.queue
  rw [show s'.bcast = s.bcast from congrArg Prod.fst h]

theorem carried_sending {st : Stage} {s : Session} (h : st.sending? = some s) (d : ClientId) :
    st.carried d = s.queue d ∧ ∀ s', (st.setSession s').carried d = s'.queue d := by
  cases st <;> simp_all [Stage.sending?, Stage.carried, Stage.setSession]

theorem idle_nil {x : Task} {s : Session} (h : x.idle s = true) : s.bcast = [] ∧ x.sinks = [] := by
  unfold Task.idle at h
  simpa using h

theorem start_bcast (cfg : Config) (pr : Proto) (n : Str) (id : ClientId) (c : ConnParams) :
    (Session.start cfg pr n id c).bcast = [] := by cases pr <;> rfl

theorem resume_bcast (cfg : Config) (pr : Proto) (c : ConnParams) (s : Session) :
    (s.resume cfg pr c).bcast = [] := by cases pr <;> rfl

theorem session_bcast {req : Request} {old : Session} {level : Level} {s0 : Session} {p : Bool}
    (h : req.session cfg old level = (s0, p)) : s0.bcast = [] := by
  unfold Request.session at h
  split at h
  · cases h; exact resume_bcast ..
  · cases h; exact start_bcast ..

theorem pendings_bcast {pr : Proto} {clk : Clock} {s0 s : Session} {out : List OutPkt}
    (h : handlePendingsOf pr clk s0 = (s, out)) : s.bcast = s0.bcast := by
  have := congrArg Prod.fst (copies_pendings pr clk s0)
  rw [h] at this
  exact this

/-- The tasks that have not sent anything yet. -/
def Stage.early : Stage → Bool
  | .waiting _ => true
  | .granted _ _ => true
  | _ => false

def EarlyInv (w : World) : Prop :=
  ∀ t x, w.tasks.get t = some x → x.stage.early = true → x.sinks = []

theorem get_filter_key {κ α : Type} [DecidableEq κ] (m : FMap κ α) (p : κ → Bool) (k : κ) :
    FMap.get (m.filter fun e => p e.1) k = if p k then FMap.get m k else none := by
  induction m with
  | nil => simp [FMap.get]
  | cons e m ih =>
    obtain ⟨a, b⟩ := e
    rw [List.filter_cons]
    by_cases hp : p a
    · simp only [hp, if_true, FMap.get_cons, ih]
      by_cases hk : a = k
      · subst hk; simp [hp]
      · simp [hk]
    · simp only [hp, FMap.get_cons, Bool.false_eq_true, if_false, ih]
      by_cases hk : a = k
      · subst hk; simp [hp]
      · simp [hk]

/-- What every step does. -/
theorem flow_step {a : Act} (hi : OInv w) (he : EarlyInv w) (hc : WCase cfg ext w a w' e)
    (u : TaskId) (d : ClientId) : Flow w w' e u d := by
  have hnew : w.tasks.get w.nextTask = none := by
    cases h : w.tasks.get w.nextTask with
    | none => rfl
    | some x =>
      have := hi.fresh w.nextTask (by rw [(Tasks.views h).2.2.2.1]; simp)
      exact absurd this (Nat.lt_irrefl _)
  have hnoin : ∀ {name r id}, w.registry.add name = some (r, .new id) → w.inbox.get id = none := by
    intro name r id hadd
    cases hi.reg.add_cases hadd with
    | new hn =>
      cases h : w.inbox.get w.registry.nextId with
      | none => rfl
      | some q =>
        obtain ⟨t, ht⟩ := hi.inbox w.registry.nextId (by unfold FMap.contains; rw [h]; rfl)
        exact absurd (hi.below _ _ ht) (Nat.lt_irrefl _)
  have hborn : ∀ {w2 : World} {req : Request} {st : Stage}, st.carried d = [] →
      w2.tasks = w.tasks.insert w.nextTask { req, stage := st } →
      w2.onTheWay u d = w.onTheWay u d := by
    intro w2 req st h h2
    by_cases hu : w.nextTask = u
    · subst hu
      rw [onTheWay_none hnew, onTheWay_of (w := w2) (by rw [h2]; exact FMap.get_insert_self ..)]
      simp [Task.carries, h, FMap.get]
    · exact onTheWay_congr (by rw [h2]; exact FMap.get_insert_ne _ _ hu) d
  have hsame : ∀ {w2 : World}, w2.inbox = w.inbox → w2.inboxFrom u d = w.inboxFrom u d :=
    fun h => inboxFrom_congr (by rw [h]) u
  have hsink : ∀ (x : Task) (lost : List ClientId) (d : ClientId),
      FMap.get (x.sinks.filter fun e => !lost.contains e.1) d =
        if lost.contains d then none else x.sinks.get d := by
    intro x lost d
    rw [get_filter_key x.sinks (fun k => !lost.contains k) d]
    cases lost.contains d <;> rfl
  cases hc with
  | idle a => exact .still rfl rfl rfl rfl
  | fresh req env r id hadd hw s out hs =>
    have hb : s.bcast = [] := by rw [pendings_bcast hs, start_bcast]
    refine .of_eq ?_
    have h1 : ∀ {w2 : World}, w2.inbox = w.inbox.insert id [] → w2.inboxFrom u d = w.inboxFrom u d := by
      intro w2 h
      by_cases hd : id = d
      · subst hd
        rw [inboxFrom_none (hnoin hadd), inboxFrom_some (q := []) (by rw [h, FMap.get_insert_self])]
        rfl
      · exact inboxFrom_congr (by rw [h, FMap.get_insert_ne _ _ hd]) u
    rw [h1 rfl]
    by_cases hu : w.nextTask = u
    · subst hu
      rw [onTheWay_none hnew, onTheWay_of (FMap.get_insert_self ..)]
      simp [Task.carries, Stage.carried, Session.queue, hb, queuedFor, tookFrom, FMap.get]
    · rw [onTheWay_congr (w := w) (FMap.get_insert_ne _ _ hu)]
      simp [queuedFor, tookFrom]
  | stillborn req env wr r id hadd =>
    refine .of_eq ?_
    rw [hborn rfl rfl]
    have : ∀ {w2 : World}, w2.inbox = (w.inbox.insert id []).erase id →
        w2.inboxFrom u d = w.inboxFrom u d := by
      intro w2 h
      refine inboxFrom_congr ?_ u
      rw [h, FMap.get_erase, FMap.get_insert]
      split
      · rename_i hd; rw [← hd, hnoin hadd]
      · rfl
    rw [this rfl]
    simp [queuedFor, tookFrom]
  | wait req env wr r id q hadd hq =>
    refine .of_eq ?_
    rw [hborn rfl rfl]
    simp only [queuedFor, tookFrom, List.filterMap_nil, List.flatMap_nil, List.nil_append,
      List.append_nil]
    congr 1
  | locked req env wr r id hadd hq =>
    refine .of_eq ?_
    rw [hborn rfl rfl]
    simp only [queuedFor, tookFrom, List.filterMap_nil, List.flatMap_nil, List.nil_append,
      List.append_nil]
    congr 1
  | accept t env x old level hx hst hw s0 present h0 s out hs =>
    have hb : s.bcast = [] := by rw [pendings_bcast hs, session_bcast h0]
    have hq := quiet_of (es := (if present then [] else [Event.discarded t old]) ++
      [.accepted t present, .sent t out])
    refine .oneEq hx (by rfl) (by rfl) (fun u d _ => (hq u d ?_).1) (fun u d => (hq u d ?_).2) ?_
    · cases present <;> simp
    · cases present <;> simp
    · intro d
      rw [(hq t d (by cases present <;> simp)).1]
      simp [Task.carries, Stage.carried, Session.queue, hb, FMap.get, hst,
        he t x hx (by rw [hst]; rfl)]
  | refused t env wr x old level hx hst =>
    by_cases hd : old.clientId = d
    · refine .erased ?_ (by simp [FMap.get_erase, hd]) rfl
      by_cases hu : t = u
      · subst hu
        rw [onTheWay_of (FMap.get_insert_self ..)]
        simp [Task.carries, Stage.carried, FMap.get]
      · rw [onTheWay_congr (w := w) (FMap.get_insert_ne _ _ hu)]
        exact List.Sublist.refl _
    · by_cases hu : t = u
      · subst hu
        refine .act hx (FMap.get_insert_self ..) (FMap.get_erase_ne _ hd) rfl ?_ ?_
        · simp [Task.carries, Stage.carried, FMap.get]
        · intro _ _
          simp [Task.carries, Stage.carried, FMap.get, hst, he t x hx (by rw [hst]; rfl), queuedFor]
      · exact .still (FMap.get_insert_ne _ _ hu) (FMap.get_erase_ne _ hd) rfl rfl
  | packet t env after size p x s hx hst hd r hr =>
    refine .oneEq hx (by rfl) (by rfl) ?_ ?_ ?_
    · intro u d hu; simp [queuedFor, hu]
    · intro u d; simp [tookFrom]
    · intro d
      have hg := (pushed_onPacket hr).grown.newCopies d
      have hqf : queuedFor t d [Event.received t p, .routed t r.routed, .queued t (newCopies s r.session),
          .sent t r.out] = newCopies s r.session d := by simp [queuedFor]
      rw [hqf]
      refine carries_of d ?_
      have : x.stage.carried d = s.queue d := by rw [hst]; rfl
      rw [this, ← hg]
      cases r.closed <;> rfl
  | normalOn t env x s hx hst hd src m rest hin =>
    refine .take hx rfl ?_ hin rfl ?_ ?_
    · intro d
      rw [← List.append_nil (x.carries d)]
      refine carries_of d ?_
      simp [Stage.carried, hst, queue_of_copies (copies_onNormal ..)]
    · intro u d; simp [queuedFor]
    · intro u d; simp only [tookFrom, List.filterMap]; split <;> simp_all
  | normalOff t env x s hx hst hd src m rest hin =>
    refine .take hx rfl ?_ hin rfl ?_ ?_
    · intro d
      rw [← List.append_nil (x.carries d)]
      refine carries_of d ?_
      simp [Stage.carried, hst, queue_of_copies (copies_normal ..)]
    · intro u d; simp [queuedFor]
    · intro u d; simp only [tookFrom, List.filterMap]; split <;> simp_all
  | handOn t env x s hx hst b y q hq hy =>
    have hyw := (hi.requester hq hy).1
    have hbt : b ≠ t := by
      rintro rfl
      rw [hx] at hy; cases hy
      rw [hst] at hyw; cases hyw
    by_cases hbu : b = u
    · subst hbu
      refine .act hy (FMap.get_insert_self ..) rfl rfl ?_ ?_
      · simp [Task.carries, Stage.carried]
      · intro _ _; simp [Task.carries, Stage.carried, hyw, queuedFor]
    · by_cases htu : t = u
      · subst htu
        refine .act hx ((FMap.get_insert_ne _ _ hbu).trans (FMap.get_insert_self ..)) rfl rfl ?_ ?_
        · simp [Task.carries, Stage.carried, FMap.get]
        · intro h _
          have h : x.held s d = [] := by simpa [droppedFor] using h
          unfold Task.held at h
          simp only [List.append_eq_nil_iff] at h
          simp [Task.carries, Stage.carried, FMap.get, hst, h, queuedFor]
      · exact .still ((FMap.get_insert_ne _ _ hbu).trans (FMap.get_insert_ne _ _ htu)) rfl rfl rfl
  | handOff t env x s hx hst hd b y q hq hy msgs inbox hm =>
    have hyw := (hi.requester hq hy).1
    obtain ⟨hn1, hn2⟩ := idle_nil hd
    have hbt : b ≠ t := by
      rintro rfl
      rw [hx] at hy; cases hy
      rw [hst] at hyw; cases hyw
    have hway : ∀ {w2 : World}, w2.tasks = (w.tasks.insert t { x with stage := .gone, sinks := [] }).insert
        b { y with stage := .granted (drainInbox cfg x.req.level.proto env s msgs) x.req.level } →
        w2.onTheWay u d = w.onTheWay u d := by
      intro w2 h2
      by_cases hbu : b = u
      · subst hbu
        rw [onTheWay_of hy, onTheWay_of (w := w2) (by rw [h2]; exact FMap.get_insert_self ..)]
        simp [Task.carries, Stage.carried, hyw]
      · by_cases htu : t = u
        · subst htu
          rw [onTheWay_of hx, onTheWay_of (w := w2)
            (by rw [h2]; exact (FMap.get_insert_ne _ _ hbu).trans (FMap.get_insert_self ..))]
          simp [Task.carries, Stage.carried, FMap.get, hst, hn1, hn2, Session.queue]
        · exact onTheWay_congr (by rw [h2]
                                   exact (FMap.get_insert_ne _ _ hbu).trans (FMap.get_insert_ne _ _ htu)) d
    refine .of_eq ?_
    rw [hway rfl]
    have hqf : queuedFor u d (msgs.map (fun e => Event.took t s.clientId e.1 e.2) ++
        [.dropped t (x.held s)]) = [] := by
      rw [queuedFor_append]
      have : queuedFor u d (msgs.map (fun e => Event.took t s.clientId e.1 e.2)) = [] := by
        unfold queuedFor
        rw [List.flatMap_eq_nil_iff]
        intro ev hev
        obtain ⟨_, _, rfl⟩ := List.mem_map.1 hev
        rfl
      rw [this]; rfl
    have htf : tookFrom u d (msgs.map (fun e => Event.took t s.clientId e.1 e.2) ++
        [.dropped t (x.held s)]) =
        if s.clientId = d then (msgs.filter fun e => decide (e.1 = u)).map (·.2) else [] := by
      rw [tookFrom_append]
      have h0 : tookFrom u d [.dropped t (x.held s)] = [] := rfl
      rw [h0, List.append_nil]
      clear hm hqf hway h0
      induction msgs with
      | nil => simp [tookFrom]
      | cons e0 l ih =>
        have : tookFrom u d (List.map (fun e => Event.took t s.clientId e.1 e.2) (e0 :: l)) =
            (if s.clientId = d ∧ e0.1 = u then [e0.2] else []) ++
            tookFrom u d (List.map (fun e => Event.took t s.clientId e.1 e.2) l) := by
          simp only [tookFrom, List.map_cons, List.filterMap_cons]
          split <;> rename_i h <;> split at h <;> simp_all
        rw [this, ih]
        by_cases hc : s.clientId = d <;> by_cases he : e0.1 = u <;> simp [hc, he]
    rw [hqf, htf, List.append_nil]
    congr 1
    rcases hm with ⟨_, rfl, rfl⟩ | ⟨_, rfl, rfl⟩
    · by_cases hcd : s.clientId = d
      · subst hcd
        rw [if_pos rfl, inboxFrom_some (q := []) (FMap.get_insert_self ..)]
        simp [World.inboxFrom]
      · rw [if_neg hcd]
        exact inboxFrom_congr (FMap.get_insert_ne _ _ hcd) u
    · have : w.inboxFrom u d = ([] : List NormalMsg) ++ w.inboxFrom u d := rfl
      split <;> exact inboxFrom_congr rfl u
  | deny t env x s hx hst pr b y q hq hpr hy =>
    have hyw := (hi.requester hq hy).1
    refine .oneEq hy (by rfl) (by rfl) (by intros; rfl) (by intros; rfl) ?_
    intro d
    exact carries_of d (by simp [Stage.carried, hyw, queuedFor])
  | ignored t env x s hx hst c q hq hcc => exact .still rfl rfl rfl rfl
  | kicked t env x s hx hst q hq =>
    refine .oneEq hx (by rfl) (by rfl) (by intros; rfl) (by intros; rfl) ?_
    intro d
    exact carries_of d (by simp [Stage.carried, hst, queuedFor])
  | expire t env x s hx hst hd time q hq hpr ht s' g m hw r route hrem =>
    have h1 := queuedFor_will hw t
    refine .oneEq hx (by rfl) (by rfl) ?_ ?_ ?_
    · intro u d hu; rw [queuedFor_append, (h1 u d).1, if_neg hu]; rfl
    · intro u d; rw [tookFrom_append, (h1 u d).2.1]; rfl
    · intro d
      refine carries_of d ?_
      rw [queuedFor_append, (h1 t d).1, if_pos rfl]
      simpa [Stage.carried, hst, queuedFor] using hw.pushed.grown.newCopies d
  | lateWill t env x s hx hst hd time q hq hpr ht s' g m hw =>
    have h1 := queuedFor_will hw t
    refine .oneEq hx (by rfl) (by rfl) ?_ ?_ ?_
    · intro u d hu; rw [(h1 u d).1, if_neg hu]
    · intro u d; rw [(h1 u d).2.1]
    · intro d
      refine carries_of d ?_
      rw [(h1 t d).1, if_pos rfl]
      simpa [Stage.carried, hst] using hw.pushed.grown.newCopies d
  | lose t x s hx hst =>
    refine .oneEq hx (by rfl) (by rfl) (by intros; rfl) (by intros; rfl) ?_
    intro d
    exact carries_of d (by simp [Stage.carried, hst, queuedFor])
  | closeQuiet t env lost x s hx hst hd =>
    refine .one hx (by rfl) (by rfl) (by intros; rfl) (by intros; rfl) ?_ ?_
    · intro d
      simp only [Task.carries, Stage.carried, hst, hsink]
      cases lost.contains d <;> simp [queuedFor]
    · intro d h _
      have h : (if lost.contains d then (x.sinks.get d).toList else []) = [] := by
        simpa [droppedFor] using h
      simp only [Task.carries, Stage.carried, hst, hsink]
      cases hl : lost.contains d
      · simp [queuedFor]
      · rw [hl, if_pos rfl] at h
        rw [h]
        simp [queuedFor]
  | closeWill t env lost x s hx hst hd hp s' g m hw =>
    have h1 := queuedFor_will hw t
    have h2 : ∀ u d, queuedFor u d ((Event.dropped t fun d =>
        if lost.contains d then (x.sinks.get d).toList else []) :: willEvents t s s' m) =
        if t = u then newCopies s s' d else [] := fun u d =>
      (queuedFor_append u d [_] (willEvents t s s' m)).trans (by rw [(h1 u d).1]; rfl)
    have h3 : ∀ u d, tookFrom u d ((Event.dropped t fun d =>
        if lost.contains d then (x.sinks.get d).toList else []) :: willEvents t s s' m) = [] :=
      fun u d => (tookFrom_append u d [_] (willEvents t s s' m)).trans (by rw [(h1 u d).2.1]; rfl)
    have h4 : ∀ d, droppedFor t d ((Event.dropped t fun d =>
        if lost.contains d then (x.sinks.get d).toList else []) :: willEvents t s s' m) =
        if lost.contains d then (x.sinks.get d).toList else [] :=
      fun d => (droppedFor_append t d [_] (willEvents t s s' m)).trans (by rw [(h1 t d).2.2]; simp [droppedFor])
    have h5 := hw.pushed.grown.newCopies
    refine .one hx (by rfl) (by rfl) (fun u d hu => by rw [h2, if_neg hu]) h3 ?_ ?_
    · intro d
      rw [h2, if_pos rfl]
      simp only [Task.carries, Stage.carried, hst, hsink, h5 d]
      cases lost.contains d <;> simp
    · intro d h _
      rw [h4] at h
      rw [h2, if_pos rfl]
      simp only [Task.carries, Stage.carried, hst, hsink, h5 d]
      cases hl : lost.contains d
      · simp
      · rw [hl, if_pos rfl] at h
        rw [h]
        simp
  | closeDelayed t env lost x s hx hst hd hp =>
    refine .one hx (by rfl) (by rfl) (by intros; rfl) (by intros; rfl) ?_ ?_
    · intro d
      simp only [Task.carries, Stage.carried, hst, hsink]
      cases lost.contains d <;> simp [queuedFor]
    · intro d h _
      have h : (if lost.contains d then (x.sinks.get d).toList else []) = [] := by
        simpa [droppedFor] using h
      simp only [Task.carries, Stage.carried, hst, hsink]
      cases hl : lost.contains d
      · simp [queuedFor]
      · rw [hl, if_pos rfl] at h
        rw [h]
        simp [queuedFor]
  | push t d' x s hx hst m rest hq hk =>
    refine .oneEq hx (by rfl) (by rfl) (by intros; rfl) (by intros; rfl) ?_
    intro d
    have hcs := carried_sending hst d
    simp only [Task.carries, hcs.1, hcs.2, queuedFor, List.flatMap_nil, List.append_nil]
    by_cases hd : d' = d
    · subst hd
      rw [FMap.get_insert_self, hk, hq]
      cases rest <;> simp [Session.queue, FMap.get_erase, FMap.get_insert]
    · rw [FMap.get_insert_ne _ _ hd]
      cases rest <;> simp [Session.queue, FMap.get_erase, FMap.get_insert, hd]
  | flush t d' x hx m q hk hin hl =>
    by_cases hu : t = u
    · subst hu
      refine .of_eq ?_
      rw [onTheWay_of hx, onTheWay_of (FMap.get_insert_self ..)]
      by_cases hd : d' = d
      · subst hd
        rw [inboxFrom_some hin, inboxFrom_some (FMap.get_insert_self ..)]
        simp [Task.carries, FMap.get_erase, hk, tookFrom, queuedFor]
      · rw [inboxFrom_congr (w := w) (FMap.get_insert_ne _ _ hd)]
        simp [Task.carries, FMap.get_erase, hd, tookFrom, queuedFor]
    · refine .of_eq ?_
      rw [onTheWay_congr (w := w) (FMap.get_insert_ne _ _ hu)]
      by_cases hd : d' = d
      · subst hd
        rw [inboxFrom_some hin, inboxFrom_some (FMap.get_insert_self ..)]
        simp [tookFrom, queuedFor, hu]
      · rw [inboxFrom_congr (w := w) (FMap.get_insert_ne _ _ hd)]
        simp [tookFrom, queuedFor]
  | giveUp t d' x s hx hst hin =>
    refine .one hx (by rfl) (by rfl) (by intros; rfl) (by intros; rfl) ?_ ?_
    · intro d
      have hcs := carried_sending hst d
      simp only [Task.carries, hcs.1, hcs.2, queuedFor, List.flatMap_nil, List.append_nil]
      by_cases hd : d' = d <;> simp [Session.queue, FMap.get_erase, hd]
    · intro d _ hc
      have hd : d' ≠ d := by rintro rfl; rw [hin] at hc; cases hc
      have hcs := carried_sending hst d
      simp [Task.carries, hcs.1, hcs.2, queuedFor, Session.queue, FMap.get_erase, hd]
  | remove t x s hx hst hd r route hrem =>
    obtain ⟨hn1, hn2⟩ := idle_nil hd
    have hst' : x.stage.carried d = [] := by
      rcases hst with ⟨h, _⟩ | h <;> rw [h] <;> simp [Stage.carried, Session.queue, hn1, FMap.get]
    have hway : ∀ {w2 : World}, w2.tasks = w.tasks.insert t { x with stage := .gone } →
        w2.onTheWay u d = w.onTheWay u d := by
      intro w2 h2
      by_cases htu : t = u
      · subst htu
        rw [onTheWay_of hx, onTheWay_of (w := w2) (by rw [h2]; exact FMap.get_insert_self ..)]
        simp only [Task.carries, hst']
        rfl
      · exact onTheWay_congr (by rw [h2]; exact FMap.get_insert_ne _ _ htu) d
    by_cases hc : s.clientId = d
    · refine .erased ?_ (by simp [FMap.get_erase, hc]) rfl
      rw [hway rfl]
      exact List.Sublist.refl _
    · refine .of_eq ?_
      rw [hway rfl, inboxFrom_congr (w := w) (FMap.get_erase_ne _ hc)]
      simp [tookFrom, queuedFor]
  | rest t x s hx hst hd hee r hr timers htm =>
    refine .oneEq hx (by rfl) (by rfl) (by intros; rfl) (by intros; rfl) ?_
    intro d
    exact carries_of d (by simp [Stage.carried, hst, queuedFor])
  | fire i tm ht w2 hw =>
    rcases hw with ⟨rfl, _⟩ | ⟨q, _, _, rfl⟩ <;> exact .still rfl rfl rfl rfl
  | kick id q hr hq => exact .still rfl rfl rfl rfl

/-! ## Clients that do not exist yet -/

/-- A task before it has started has nothing in its sinks; nothing is on the way to clients that do
not exist yet. -/
def Task.fine (n : Nat) (x : Task) : Prop :=
  (x.stage.early = true → x.sinks = []) ∧
    ∀ d, n ≤ d → x.sinks.get d = none ∧ x.stage.blank d

def FineInv (w : World) (n : Nat) : Prop := ∀ t x, w.tasks.get t = some x → x.fine n

theorem FineInv.early {n : Nat} (h : FineInv w n) : EarlyInv w := fun t x hx => (h t x hx).1

theorem FineInv.mono {n n' : Nat} (h : FineInv w n) (hn : n ≤ n') : FineInv w n' :=
  fun t x hx => ⟨(h t x hx).1, fun d hd => (h t x hx).2 d (Nat.le_trans hn hd)⟩

theorem FineInv.insert {n : Nat} (h : FineInv w n) {t : TaskId} {x : Task}
    (ht : w'.tasks = w.tasks.insert t x) (hx : x.fine n) : FineInv w' n := by
  intro u y hy
  rw [ht, FMap.get_insert] at hy
  split at hy
  · cases hy; exact hx
  · exact h u y hy

theorem FineInv.congr {n : Nat} (h : FineInv w n) (ht : w'.tasks = w.tasks) : FineInv w' n := by
  intro u y hy
  rw [ht] at hy
  exact h u y hy

theorem fine_new (n : Nat) {req : Request} {c : Option Nat} {st : Stage} (h : ∀ d, st.blank d) :
    Task.fine n { req, stage := st, connectedAt := c } :=
  ⟨fun _ => rfl, fun d _ => ⟨rfl, h d⟩⟩

/-- The stage changes. -/
theorem Task.fine.stage {n : Nat} {x x' : Task} (h : x.fine n) (he : x'.stage.early = false)
    (hs : ∀ d, n ≤ d → x.stage.blank d → x'.stage.blank d) (hk : x'.sinks = x.sinks := by rfl) :
    x'.fine n :=
  ⟨(fun h => by rw [he] at h; cases h),
    fun d hd => ⟨by rw [hk]; exact (h.2 d hd).1, hs d hd (h.2 d hd).2⟩⟩

theorem Task.fine.filter {n : Nat} {x x' : Task} (h : x.fine n) (he : x'.stage.early = false)
    (p : ClientId → Bool) (hs : ∀ d, n ≤ d → x.stage.blank d → x'.stage.blank d)
    (hk : x'.sinks = x.sinks.filter fun e => p e.1) : x'.fine n := by
  refine ⟨(fun h => by rw [he] at h; cases h), fun d hd => ⟨?_, hs d hd (h.2 d hd).2⟩⟩
  rw [hk, get_filter_key, (h.2 d hd).1]
  simp

theorem bcast_of_copies {s s' : Session} (h : s'.copies = s.copies) : s'.bcast = s.bcast :=
  congrArg Prod.fst h

theorem blank_sending {st : Stage} {s : Session} (h : st.sending? = some s) (d : ClientId) :
    (st.blank d ↔ s.bcast.get d = none) ∧ (st.early = false) ∧
      ∀ s', ((st.setSession s').blank d ↔ s'.bcast.get d = none) ∧
        (st.setSession s').early = false := by
  cases st <;> simp_all [Stage.sending?, Stage.blank, Stage.setSession, Stage.early]

/-- What a step does for clients that do not exist yet. -/
structure FineStep (w w' : World) (e : List Event) : Prop where
  next : w.registry.nextId ≤ w'.registry.nextId
  fine : FineInv w' w.registry.nextId
  none : ∀ u d, w.registry.nextId ≤ d → queuedFor u d e = []
  inbox : ∀ d, w'.inbox.contains d = true → w.inbox.contains d = true ∨ w.registry.nextId ≤ d

theorem newCopies_none {s s' : Session} {d : ClientId} (h' : s'.bcast.get d = none) :
    newCopies s s' d = [] := by
  unfold newCopies Session.queue
  rw [h']
  simp

theorem unregistered (hi : OInv w) {d : ClientId} (hd : w.registry.nextId ≤ d) :
    w.global.registered d = false := by
  cases h : w.global.registered d with
  | false => rfl
  | true =>
    exfalso
    have h : w.registry.clients.contains d = true := h
    rw [hi.reg.queue d] at h
    obtain ⟨e, he⟩ := Option.isSome_iff_exists.1 h
    exact absurd (hi.reg.below d e he) (Nat.not_lt.2 hd)

theorem fine_step {a : Act} (hi : OInv w) (h : FineInv w w.registry.nextId)
    (hc : WCase cfg ext w a w' e) : FineStep w w' e := by
  have hadd' : ∀ {name r a}, w.registry.add name = some (r, a) →
      w.registry.nextId ≤ r.nextId ∧ ∀ id, a = .new id → w.registry.nextId ≤ id := by
    intro name r a hadd
    cases hi.reg.add_cases hadd with
    | present id on _ _ => exact ⟨Nat.le_refl _, (fun id h => by cases h)⟩
    | new _ => exact ⟨Nat.le_succ _, (fun id h => by cases h; exact Nat.le_refl _)⟩
  have hun := fun {d : ClientId} (hd : w.registry.nextId ≤ d) => unregistered hi hd
  have hwill : ∀ {pr env s s' g m} (t : TaskId), WillSent ext pr env w.global s s' g m →
      (∀ d, w.registry.nextId ≤ d → s.bcast.get d = none) →
      (∀ d, w.registry.nextId ≤ d → s'.bcast.get d = none) ∧
      ∀ u d, w.registry.nextId ≤ d → queuedFor u d (willEvents t s s' m) = [] := by
    intro pr env s s' g m t hw hs
    have h1 : ∀ d, w.registry.nextId ≤ d → s'.bcast.get d = none := fun d hd =>
      hw.pushed.known d (hun hd) (hs d hd)
    refine ⟨h1, fun u d hd => ?_⟩
    rw [(queuedFor_will hw t u d).1, newCopies_none (h1 d hd)]
    simp
  cases hc with
  | idle a => exact ⟨Nat.le_refl _, h, fun _ _ _ => rfl, fun _ h => .inl h⟩
  | fresh req env r id hadd hw s out hs =>
    obtain ⟨h1, h2⟩ := hadd' hadd
    refine ⟨h1, h.insert rfl (fine_new _ fun d => ?_), fun _ _ _ => by simp [queuedFor], ?_⟩
    · show s.bcast.get d = none
      rw [pendings_bcast hs, start_bcast]; rfl
    · intro d hd
      have hd : (w.inbox.insert id []).contains d = true := hd
      rw [Registry.contains_insert] at hd
      by_cases hid : id = d
      · right; rw [← hid]; exact h2 id rfl
      · left; simpa [Ne.symm hid] using hd
  | stillborn req env wr r id hadd =>
    obtain ⟨h1, h2⟩ := hadd' hadd
    refine ⟨h1, h.insert rfl (fine_new _ fun d => trivial), fun _ _ _ => rfl, ?_⟩
    intro d hd
    have hd : ((w.inbox.insert id []).erase id).contains d = true := hd
    rw [Registry.contains_erase, Registry.contains_insert] at hd
    by_cases hid : id = d
    · right; rw [← hid]; exact h2 id rfl
    · left; simpa [Ne.symm hid] using hd
  | wait req env wr r id q hadd hq =>
    exact ⟨(hadd' hadd).1, h.insert rfl (fine_new _ fun d => trivial), fun _ _ _ => rfl,
      fun _ h => .inl h⟩
  | locked req env wr r id hadd hq =>
    exact ⟨(hadd' hadd).1, h.insert rfl (fine_new _ fun d => trivial), fun _ _ _ => rfl,
      fun _ h => .inl h⟩
  | accept t env x old level hx hst hw s0 present h0 s out hs =>
    refine ⟨Nat.le_refl _, h.insert rfl (fine_new _ fun d => ?_), fun u d _ => ?_, fun _ h => .inl h⟩
    · show s.bcast.get d = none
      rw [pendings_bcast hs, session_bcast h0]; rfl
    · exact (quiet_of u d (by cases present <;> simp)).1
  | refused t env wr x old level hx hst =>
    refine ⟨Nat.le_refl _, h.insert rfl (fine_new _ fun d => trivial), fun _ _ _ => rfl, ?_⟩
    intro d hd
    have hd : (w.inbox.erase old.clientId).contains d = true := hd
    rw [Registry.contains_erase] at hd
    left
    by_cases hid : old.clientId = d
    · simp [hid] at hd
    · simpa [Ne.symm hid] using hd
  | packet t env after size p x s hx hst hd r hr =>
    have hb : ∀ d, w.registry.nextId ≤ d → r.session.bcast.get d = none := by
      intro d hd
      refine (pushed_onPacket hr).known d (hun hd) ?_
      have := ((h t x hx).2 d hd).2
      rw [hst] at this
      exact this
    refine ⟨Nat.le_refl _, h.insert rfl ((h t x hx).stage ?_ ?_), fun u d hd => ?_, fun _ h => .inl h⟩
    · cases r.closed <;> rfl
    · intro d hd _
      cases r.closed <;> exact hb d hd
    · simp only [queuedFor, List.flatMap_cons, newCopies_none (hb d hd)]
      simp
  | normalOn t env x s hx hst hd src m rest hin =>
    refine ⟨Nat.le_refl _, h.insert rfl ((h t x hx).stage rfl ?_), fun u d _ => by simp [queuedFor], ?_⟩
    · intro d _ hb
      rw [hst] at hb
      show _ = none
      rw [bcast_of_copies (copies_onNormal ..)]
      exact hb
    · intro d hd; left
      have hd : (w.inbox.insert s.clientId rest).contains d = true := hd
      rw [Registry.contains_insert] at hd
      by_cases hid : s.clientId = d
      · subst hid; unfold FMap.contains; rw [hin]; rfl
      · simpa [Ne.symm hid] using hd
  | normalOff t env x s hx hst hd src m rest hin =>
    refine ⟨Nat.le_refl _, h.insert rfl ((h t x hx).stage rfl ?_), fun u d _ => by simp [queuedFor], ?_⟩
    · intro d _ hb
      rw [hst] at hb
      show _ = none
      rw [bcast_of_copies (copies_normal ..)]
      exact hb
    · intro d hd; left
      have hd : (w.inbox.insert s.clientId rest).contains d = true := hd
      rw [Registry.contains_insert] at hd
      by_cases hid : s.clientId = d
      · subst hid; unfold FMap.contains; rw [hin]; rfl
      · simpa [Ne.symm hid] using hd
  | handOn t env x s hx hst b y q hq hy =>
    have hyw := (hi.requester hq hy).1
    have h1 := h t x hx
    have h2 := h b y hy
    refine ⟨Nat.le_refl _, ?_, fun u d _ => by simp [queuedFor], fun _ h => .inl h⟩
    intro u z hz
    have hz : ((w.tasks.insert t { x with stage := .gone, sinks := [] }).insert b
      { y with stage := .granted s x.req.level }).get u = some z := hz
    rw [FMap.get_insert, FMap.get_insert] at hz
    split at hz
    · cases hz
      exact ⟨fun _ => h2.1 (by rw [hyw]; rfl), fun d hd => ⟨(h2.2 d hd).1, trivial⟩⟩
    · split at hz
      · cases hz; exact ⟨fun _ => rfl, fun d hd => ⟨rfl, trivial⟩⟩
      · exact h u z hz
  | handOff t env x s hx hst hd b y q hq hy msgs inbox hm =>
    have hyw := (hi.requester hq hy).1
    have h1 := h t x hx
    have h2 := h b y hy
    refine ⟨Nat.le_refl _, ?_, fun u d _ => ?_, ?_⟩
    · intro u z hz
      have hz : ((w.tasks.insert t { x with stage := .gone, sinks := [] }).insert b
        { y with stage := .granted (drainInbox cfg x.req.level.proto env s msgs) x.req.level }).get u =
          some z := hz
      rw [FMap.get_insert, FMap.get_insert] at hz
      split at hz
      · cases hz
        exact ⟨fun _ => h2.1 (by rw [hyw]; rfl), fun d hd => ⟨(h2.2 d hd).1, trivial⟩⟩
      · split at hz
        · cases hz; exact ⟨fun _ => rfl, fun d hd => ⟨rfl, trivial⟩⟩
        · exact h u z hz
    · rw [queuedFor_append]
      have : queuedFor u d (msgs.map (fun e => Event.took t s.clientId e.1 e.2)) = [] := by
        unfold queuedFor
        rw [List.flatMap_eq_nil_iff]
        intro ev hev
        obtain ⟨_, _, rfl⟩ := List.mem_map.1 hev
        rfl
      rw [this]; rfl
    · intro d hd; left
      rcases hm with ⟨_, _, rfl⟩ | ⟨_, _, rfl⟩
      · have hd : (w.inbox.insert s.clientId []).contains d = true := hd
        rw [Registry.contains_insert] at hd
        by_cases hid : s.clientId = d
        · subst hid
          exact hi.held t _ (by rw [(Tasks.views hx).1, hst]; rfl)
        · simpa [Ne.symm hid] using hd
      · exact hd
  | deny t env x s hx hst pr b y q hq hpr hy =>
    exact ⟨Nat.le_refl _, h.insert rfl ((h b y hy).stage rfl (fun _ _ _ => trivial)),
      fun _ _ _ => rfl, fun _ h => .inl h⟩
  | ignored t env x s hx hst c q hq hcc =>
    exact ⟨Nat.le_refl _, h.congr rfl, fun _ _ _ => rfl, fun _ h => .inl h⟩
  | kicked t env x s hx hst q hq =>
    exact ⟨Nat.le_refl _, h.insert rfl ((h t x hx).stage rfl (fun d _ hb => by
      rw [hst] at hb; exact hb)), fun _ _ _ => rfl, fun _ h => .inl h⟩
  | expire t env x s hx hst hd time q hq hpr ht s' g m hw r route hrem =>
    obtain ⟨h1, h2⟩ := hwill t hw (fun d hd => by
      have := ((h t x hx).2 d hd).2
      rw [hst] at this; exact this)
    refine ⟨Nat.le_of_eq (hi.reg.removed hrem).2.1.symm, h.insert rfl ((h t x hx).stage rfl
      (fun d hd _ => h1 d hd)), fun u d hd => ?_, fun _ h => .inl h⟩
    rw [queuedFor_append, h2 u d hd]; rfl
  | lateWill t env x s hx hst hd time q hq hpr ht s' g m hw =>
    obtain ⟨h1, h2⟩ := hwill t hw (fun d hd => by
      have := ((h t x hx).2 d hd).2
      rw [hst] at this; exact this)
    exact ⟨Nat.le_refl _, h.insert rfl ((h t x hx).stage rfl
      (fun d hd _ => h1 d hd)), h2, fun _ h => .inl h⟩
  | lose t x s hx hst =>
    exact ⟨Nat.le_refl _, h.insert rfl ((h t x hx).stage rfl (fun d _ hb => by
      rw [hst] at hb; exact hb)), fun _ _ _ => rfl, fun _ h => .inl h⟩
  | closeQuiet t env lost x s hx hst hd =>
    exact ⟨Nat.le_refl _, h.insert rfl ((h t x hx).filter rfl (fun k => !lost.contains k)
      (fun d _ hb => by rw [hst] at hb; exact hb) rfl), fun _ _ _ => rfl, fun _ h => .inl h⟩
  | closeWill t env lost x s hx hst hd hp s' g m hw =>
    obtain ⟨h1, h2⟩ := hwill t hw (fun d hd => by
      have := ((h t x hx).2 d hd).2
      rw [hst] at this; exact this)
    refine ⟨Nat.le_refl _, h.insert rfl ((h t x hx).filter rfl (fun k => !lost.contains k)
      (fun d hd _ => h1 d hd) rfl), fun u d hd => ?_, fun _ h => .inl h⟩
    exact (queuedFor_append u d [_] (willEvents t s s' m)).trans (by rw [h2 u d hd]; rfl)
  | closeDelayed t env lost x s hx hst hd hp =>
    exact ⟨Nat.le_refl _, h.insert rfl ((h t x hx).filter rfl (fun k => !lost.contains k)
      (fun d _ hb => by rw [hst] at hb; exact hb) rfl), fun _ _ _ => rfl, fun _ h => .inl h⟩
  | push t d' x s hx hst m rest hq hk =>
    refine ⟨Nat.le_refl _, h.insert rfl ⟨?_, ?_⟩, fun _ _ _ => rfl, fun _ h => .inl h⟩
    · intro he
      rw [((blank_sending hst d').2.2 _).2] at he; cases he
    · intro d hd
      have h1 := (h t x hx).2 d hd
      have hne : d' ≠ d := by
        rintro rfl
        have := (blank_sending hst d').1.1 h1.2
        unfold Session.queue at hq
        rw [this] at hq; cases hq
      refine ⟨by rw [FMap.get_insert_ne _ _ hne]; exact h1.1, ((blank_sending hst d).2.2 _).1.2 ?_⟩
      have := (blank_sending hst d).1.1 h1.2
      cases rest
      · exact (FMap.get_erase_ne _ hne).trans this
      · exact (FMap.get_insert_ne _ _ hne).trans this
  | flush t d' x hx m q hk hin hl =>
    refine ⟨Nat.le_refl _, h.insert rfl ⟨?_, ?_⟩, fun _ _ _ => rfl, ?_⟩
    · intro he
      have := (h t x hx).1 he
      rw [this] at hk; cases hk
    · intro d hd
      refine ⟨?_, ((h t x hx).2 d hd).2⟩
      show FMap.get (FMap.erase x.sinks d') d = none
      rw [FMap.get_erase, ((h t x hx).2 d hd).1]; simp
    · intro d hd; left
      have hd : (w.inbox.insert d' (q ++ [(t, m)])).contains d = true := hd
      rw [Registry.contains_insert] at hd
      by_cases hid : d' = d
      · subst hid; unfold FMap.contains; rw [hin]; rfl
      · simpa [Ne.symm hid] using hd
  | giveUp t d' x s hx hst hin =>
    refine ⟨Nat.le_refl _, h.insert rfl ⟨?_, ?_⟩, fun _ _ _ => rfl, fun _ h => .inl h⟩
    · intro he
      rw [((blank_sending hst d').2.2 _).2] at he; cases he
    · intro d hd
      have h1 := (h t x hx).2 d hd
      refine ⟨?_, ((blank_sending hst d).2.2 _).1.2 ?_⟩
      · show FMap.get (FMap.erase x.sinks d') d = none
        rw [FMap.get_erase, h1.1]; simp
      · show FMap.get (FMap.erase s.bcast d') d = none
        rw [FMap.get_erase, (blank_sending hst d).1.1 h1.2]; simp
  | remove t x s hx hst hd r route hrem =>
    refine ⟨Nat.le_of_eq (hi.reg.removed hrem).2.1.symm, h.insert rfl ((h t x hx).stage rfl
      (fun d hd _ => trivial)), fun u d hd => rfl, ?_⟩
    intro d hd; left
    have hd : (w.inbox.erase s.clientId).contains d = true := hd
    rw [Registry.contains_erase] at hd
    by_cases hid : s.clientId = d
    · simp [hid] at hd
    · simpa [Ne.symm hid] using hd
  | rest t x s hx hst hd hee r hr timers htm =>
    exact ⟨Nat.le_of_eq (Registry.Inv.offline_get hr).2.symm, h.insert rfl ((h t x hx).stage rfl
      (fun d _ hb => by rw [hst] at hb; exact hb)), fun _ _ _ => rfl, fun _ h => .inl h⟩
  | fire i tm ht w2 hw =>
    rcases hw with ⟨rfl, _⟩ | ⟨q, _, _, rfl⟩ <;>
      exact ⟨Nat.le_refl _, h.congr rfl, fun _ _ _ => rfl, fun _ h => .inl h⟩
  | kick id q hr hq => exact ⟨Nat.le_refl _, h.congr rfl, fun _ _ _ => rfl, fun _ h => .inl h⟩

/-! ## All steps together -/

structure FlowInv (w : World) (evs : List Event) : Prop where
  fine : FineInv w w.registry.nextId
  none : ∀ t d, w.registry.nextId ≤ d → queuedFor t d evs = []
  sub : ∀ t d, (tookFrom t d evs ++ w.inboxFrom t d ++ w.onTheWay t d).Sublist (queuedFor t d evs)
  same : ∀ t d, droppedFor t d evs = [] → w.inbox.contains d = true →
    tookFrom t d evs ++ w.inboxFrom t d ++ w.onTheWay t d = queuedFor t d evs

theorem FlowInv.init : FlowInv {} [] :=
  ⟨fun t x h => by (cases h), fun _ _ _ => rfl, fun _ _ => List.Sublist.refl _, fun _ _ _ _ => rfl⟩

theorem FlowInv.step {a : Act} (h : FlowInv w evs) (hi : OInv w) (hc : WCase cfg ext w a w' e) :
    FlowInv w' (evs ++ e) := by
  have hf := fine_step hi h.fine hc
  have hfl := flow_step hi h.fine.early hc
  have hsub : ∀ t d, (tookFrom t d (evs ++ e) ++ w'.inboxFrom t d ++ w'.onTheWay t d).Sublist
      (queuedFor t d (evs ++ e)) := by
    intro t d
    rw [tookFrom_append, queuedFor_append]
    have h1 := h.sub t d
    have h2 := (hfl t d).sub
    simp only [List.append_assoc] at h1 h2 ⊢
    exact ((List.Sublist.refl _).append h2).trans (by
      have := h1.append (List.Sublist.refl (queuedFor t d e))
      simpa only [List.append_assoc] using this)
  refine ⟨hf.fine.mono hf.next, ?_, hsub, ?_⟩
  · intro t d hd
    have hd := Nat.le_trans hf.next hd
    rw [queuedFor_append, h.none t d hd, hf.none t d hd]; rfl
  · intro t d hdr hc'
    rcases hf.inbox d hc' with hin | hnew
    · rw [droppedFor_append, List.append_eq_nil_iff] at hdr
      rw [tookFrom_append, queuedFor_append, ← h.same t d hdr.1 hin]
      have h2 := (hfl t d).same hdr.2 hin hc'
      simp only [List.append_assoc] at h2 ⊢
      rw [h2]
    · have : queuedFor t d (evs ++ e) = [] := by
        rw [queuedFor_append, h.none t d hnew, hf.none t d hnew]; rfl
      have h1 := hsub t d
      rw [this] at h1 ⊢
      exact List.sublist_nil.1 h1

theorem flowInv_run {acts : List Act} (h : Reaches cfg ext acts w evs) : FlowInv w evs := by
  have : BrokerInv w ∧ FlowInv w evs := by
    refine world_induction (P := fun w evs => BrokerInv w ∧ FlowInv w evs) ⟨.init, .init⟩ ?_ h
    intro w evs a w' e ⟨hb, hf⟩ hs
    exact ⟨hb.step hs, hf.step hb.own (step_cases hs)⟩
  exact this.2

end Akasa
