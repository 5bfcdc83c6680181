import Verif.Proof.Watch
import Verif.Proof.WorldTime
import Verif.Proof.WorldReach
/-! # The invariant of the keep-alive timers -/
namespace Akasa

variable {cfg : Config} {ext : Ext} {c c' : Clocked} {log : List (Nat × Noted)}

theorem run_snoc_clocked {xs : List Tick} {x : Tick} {c0 c2 : Clocked} {log : List (Nat × Noted)}
    (h : Clocked.run cfg ext c0 (xs ++ [x]) = some (c2, log)) :
    ∃ c1 l1 l2, Clocked.run cfg ext c0 xs = some (c1, l1) ∧ c1.step cfg ext x = some (c2, l2) ∧
      log = l1 ++ l2.map fun e => (c1.now, e) := by
  induction xs generalizing c0 log with
  | nil =>
    simp only [List.nil_append, Clocked.run] at h
    cases hs : c0.step cfg ext x with
    | none => rw [hs] at h; cases h
    | some r =>
      rw [hs] at h
      obtain ⟨r1, r2⟩ := r
      simp only [Option.map_some, List.append_nil, Option.some.injEq] at h
      cases h
      exact ⟨c0, [], r2, rfl, hs, rfl⟩
  | cons y ys ih =>
    simp only [List.cons_append, Clocked.run] at h ⊢
    cases hs : c0.step cfg ext y with
    | none => rw [hs] at h; cases h
    | some r =>
      rw [hs] at h
      obtain ⟨r1, r2⟩ := r
      simp only [Option.map_eq_some_iff] at h
      obtain ⟨⟨c3, l3⟩, h1, h2⟩ := h
      cases h2
      obtain ⟨c1, l1, l2, h3, h4, rfl⟩ := ih h1
      refine ⟨c1, r2.map (fun e => (c0.now, e)) ++ l1, l2, ?_, h4, ?_⟩
      · simp only [h3, Option.map_some]
      · simp

theorem split_log {α : Type} {l m pre post : List α} {x : α} (h : l ++ m = pre ++ x :: post) :
    (∃ post', l = pre ++ x :: post' ∧ post = post' ++ m) ∨
    ∃ pre', pre = l ++ pre' ∧ m = pre' ++ x :: post := by
  rcases List.append_eq_append_iff.1 h with ⟨as, h1, h2⟩ | ⟨bs, h1, h2⟩
  · exact .inr ⟨as, h1, h2⟩
  · cases bs with
    | nil => exact .inr ⟨[], by simpa using h1.symm, by simpa using h2.symm⟩
    | cons b bs =>
      simp only [List.cons_append, List.cons.injEq] at h2
      obtain ⟨rfl, rfl⟩ := h2
      exact .inl ⟨bs, h1, rfl⟩

/-- What the broker knows about the connections and their timers. -/
structure WatchInv (c : Clocked) (log : List (Nat × Noted)) : Prop where
  broker : BrokerInv c.world
  quiet : QuietTimers c.world
  past : ∀ x ∈ log, x.1 ≤ c.now
  heard : ∀ t time, c.last.get t = some time →
    HeardAt log t time ∧ ∀ time', HeardAt log t time' → time' ≤ time
  unheard : ∀ t, c.last.get t = none → ∀ time, ¬ HeardAt log t time
  watch : ∀ v ∈ c.watches, v.keepAlive > 0 ∧ c.keep.get v.owner = some v.keepAlive ∧
    v.id < c.world.registry.nextId ∧
    (∃ time, c.last.get v.owner = some time ∧ v.due ≤ time + 2000 * v.keepAlive) ∧
    ∃ n, Tasks.name c.world.tasks v.owner = some n ∧
      ∀ u, Tasks.client c.world.tasks u = some v.id → Tasks.name c.world.tasks u = some n
  kick : ∀ time t id, (time, .kick t id) ∈ log → id < c.world.registry.nextId ∧ c.interval t > 0 ∧
    ∃ n, Tasks.name c.world.tasks t = some n ∧
      ∀ u, Tasks.client c.world.tasks u = some id → Tasks.name c.world.tasks u = some n
  silent : ∀ pre post time t id, log = pre ++ (time, .kick t id) :: post →
    SilentFor pre t (c.interval t) time
  queue : ∀ id q, c.world.control.get id = some q → .kick ∈ q → ∃ time t, (time, .kick t id) ∈ log
  closed : ∀ pre post time t, log = pre ++ (time, .closed t) :: post →
    ∃ pre' post' time' t' id n, pre = pre' ++ (time', .kick t' id) :: post' ∧
      Tasks.name c.world.tasks t' = some n ∧ Tasks.name c.world.tasks t = some n
  online : ∀ t id, Tasks.onlineId c.world.tasks t = some id → c.interval t > 0 →
    (∃ v ∈ c.watches, v.owner = t ∧ v.id = id) ∨ ∃ q, c.world.control.get id = some q ∧ .kick ∈ q

theorem heard_append {l m : List (Nat × Noted)} {t : TaskId} {time : Nat} :
    HeardAt (l ++ m) t time ↔ HeardAt l t time ∨ HeardAt m t time := by
  unfold HeardAt
  simp only [List.mem_append]
  constructor
  · rintro (⟨p, h | h⟩ | ⟨p, h | h⟩)
    · exact .inl (.inl ⟨p, h⟩)
    · exact .inr (.inl ⟨p, h⟩)
    · exact .inl (.inr ⟨p, h⟩)
    · exact .inr (.inr ⟨p, h⟩)
  · rintro ((⟨p, h⟩ | ⟨p, h⟩) | (⟨p, h⟩ | ⟨p, h⟩))
    · exact .inl ⟨p, .inl h⟩
    · exact .inr ⟨p, .inl h⟩
    · exact .inl ⟨p, .inr h⟩
    · exact .inr ⟨p, .inr h⟩

theorem WatchInv.init : WatchInv {} [] where
  broker := .init
  quiet := fun _ h => by cases h
  past := fun _ h => by cases h
  heard := fun _ _ h => by cases h
  unheard := fun _ _ _ h => by rcases h with ⟨_, h⟩ | ⟨_, h⟩ <;> cases h
  watch := fun _ h => by cases h
  kick := fun _ _ _ h => by cases h
  silent := fun pre post _ _ _ h => by cases pre <;> cases h
  queue := fun _ _ h => by cases h
  closed := fun pre post _ _ h => by cases pre <;> cases h
  online := fun _ _ h => by cases h

theorem WatchInv.pass (h : WatchInv c log) (ms : Nat) :
    WatchInv { c with now := c.now + ms } log where
  broker := h.broker
  quiet := h.quiet
  past := fun x hx => Nat.le_trans (h.past x hx) (Nat.le_add_right ..)
  heard := h.heard
  unheard := h.unheard
  watch := h.watch
  kick := h.kick
  silent := h.silent
  queue := h.queue
  closed := h.closed
  online := h.online

/-- A kick that is sent. -/
theorem tell_cases (w : World) (id : ClientId) (m : Control) :
    (w.tell id m = w ∧ (w.registry.clients.contains id = false ∨ w.control.get id = none)) ∨
    ∃ q, w.control.get id = some q ∧
      w.tell id m = { w with control := w.control.insert id (q ++ [m]) } := by
  unfold World.tell
  split
  · split
    · rename_i q hq; exact .inr ⟨q, hq, rfl⟩
    · rename_i hq; exact .inl ⟨rfl, .inr hq⟩
  · rename_i hc; exact .inl ⟨rfl, .inl (by simpa using hc)⟩

theorem onlineId_reached {w : World} (ho : OInv w) {t : TaskId} {id : ClientId}
    (h : Tasks.onlineId w.tasks t = some id) :
    w.registry.clients.contains id = true ∧ ∃ q, w.control.get id = some q := by
  have hcl := Tasks.onlineId_client h
  have hq : w.control.contains id = true := by rw [ho.control]; exact ho.held t id hcl
  refine ⟨?_, ?_⟩
  · unfold Tasks.onlineId at h
    cases hx : FMap.get w.tasks t with
    | none => rw [hx] at h; cases h
    | some x =>
      rw [hx] at h
      simp only [Option.bind_some] at h
      cases hst : x.stage <;> rw [hst] at h <;> cases h
      exact owner_registered ho hx (by rw [hst]; rfl)
  · unfold FMap.contains at hq
    cases hg : w.control.get id with
    | none => rw [hg] at hq; cases hq
    | some q => exact ⟨q, rfl⟩

theorem WatchInv.wake (cfg : Config) (ext : Ext) (h : WatchInv c log) (i : Nat) {l : List Noted} (hw : c.wake i = (c', l)) :
    WatchInv c' (log ++ l.map fun e => (c.now, e)) := by
  unfold Clocked.wake at hw
  split at hw
  · cases hw; simpa using h
  · rename_i v hv
    have hmem := List.mem_of_getElem? hv
    obtain ⟨w1, w2, w3, ⟨time, w4, w5⟩, n, w6, w7⟩ := h.watch v hmem
    obtain ⟨hh1, hh2⟩ := h.heard _ _ w4
    have htime : time ≤ c.now := by
      rcases hh1 with ⟨p, hp⟩ | ⟨p, hp⟩ <;> exact h.past _ hp
    split at hw
    · cases hw; simpa using h
    · split at hw
      · rename_i hok
        cases hw
        simp only [List.map_nil, List.append_nil]
        refine { h with watch := ?_, online := ?_ }
        · intro v' hv'
          rcases List.mem_or_eq_of_mem_set hv' with h1 | rfl
          · exact h.watch v' h1
          · refine ⟨w1, w2, w3, ⟨time, w4, ?_⟩, n, w6, w7⟩
            have hok := of_decide_eq_true hok
            rw [w4] at hok
            simp only [halfInterval, Option.getD_some] at hok
            simp only [halfInterval]
            omega
        · intro t id h1 h2
          rcases h.online t id h1 h2 with ⟨v', hv', h3, h4⟩ | h3
          · obtain ⟨j, hj⟩ := List.getElem?_of_mem hv'
            by_cases hij : i = j
            · subst hij
              rw [hv] at hj
              cases hj
              refine .inl ⟨{ v with due := c.now + halfInterval v.keepAlive }, ?_, h3, h4⟩
              have hlt : i < c.watches.length := by
                rcases Nat.lt_or_ge i c.watches.length with h5 | h5
                · exact h5
                · rw [List.getElem?_eq_none h5] at hv; cases hv
              exact List.mem_set hlt _
            · refine .inl ⟨v', ?_, h3, h4⟩
              refine List.mem_of_getElem? (i := j) ?_
              rw [List.getElem?_set_ne hij]
              exact hj
          · exact .inr h3
      · rename_i hok
        cases hw
        have hsilent : time + 1500 * v.keepAlive < c.now := by
          have hok := of_decide_eq_false (Bool.eq_false_iff.2 hok)
          rw [w4] at hok
          simp only [halfInterval, Option.getD_some] at hok
          omega
        have hint : c.interval v.owner = v.keepAlive := by unfold Clocked.interval; rw [w2]; rfl
        have hstep : c.world.step cfg ext (.kick v.id) = some (c.world.tell v.id .kick, []) := rfl
        have hb := h.broker.step hstep
        have htell := tell_cases c.world v.id .kick
        have htasks : (c.world.tell v.id .kick).tasks = c.world.tasks := by
          rcases htell with ⟨e, _⟩ | ⟨q, _, e⟩ <;> rw [e]
        have hreg : (c.world.tell v.id .kick).registry = c.world.registry := by
          rcases htell with ⟨e, _⟩ | ⟨q, _, e⟩ <;> rw [e]
        have htim : (c.world.tell v.id .kick).timers = c.world.timers := by
          rcases htell with ⟨e, _⟩ | ⟨q, _, e⟩ <;> rw [e]
        have hnot : ∀ t time, ¬ HeardAt [(c.now, .kick v.owner v.id)] t time := by
          intro t time
          rintro (⟨p, hp⟩ | ⟨p, hp⟩) <;> cases List.mem_singleton.1 hp
        have hheard : ∀ t time, HeardAt (log ++ [(c.now, .kick v.owner v.id)]) t time ↔
            HeardAt log t time := by
          intro t time
          rw [heard_append]
          constructor
          · rintro (h1 | h1)
            · exact h1
            · exact absurd h1 (hnot t time)
          · exact .inl
        simp only [List.map_cons, List.map_nil]
        refine ⟨hb, ?_, ?_, ?_, ?_, ?_, ?_, ?_, ?_, ?_, ?_⟩
        · intro tm htm
          rw [htim] at htm
          exact h.quiet tm htm
        · intro x hx
          rcases List.mem_append.1 hx with hx | hx
          · exact h.past x hx
          · obtain rfl := List.mem_singleton.1 hx; exact Nat.le_refl _
        · intro t time h1
          obtain ⟨h2, h3⟩ := h.heard t time h1
          exact ⟨(hheard _ _).2 h2, fun time' h4 => h3 time' ((hheard _ _).1 h4)⟩
        · intro t h1 time h2
          exact h.unheard t h1 time ((hheard _ _).1 h2)
        · intro v' hv'
          have := h.watch v' (mem_of_eraseIdx hv')
          rw [htasks, hreg]
          exact this
        · intro time' t id hx
          rw [htasks, hreg]
          rcases List.mem_append.1 hx with hx | hx
          · exact h.kick time' t id hx
          · cases List.mem_singleton.1 hx
            exact ⟨w3, by rw [← hint] at w1; exact w1, n, w6, w7⟩
        · intro pre post time' t id hl
          rcases split_log hl with ⟨post', h1, _⟩ | ⟨pre', h1, h2⟩
          · exact h.silent pre post' time' t id h1
          · cases pre' with
            | cons y ys => cases ys <;> cases h2
            | nil =>
              cases h2
              simp only [List.append_nil] at h1
              subst h1
              show SilentFor pre v.owner (c.interval v.owner) c.now
              rw [hint]
              exact ⟨⟨time, hh1⟩, fun time' h3 => by have := hh2 time' h3; omega⟩
        · intro id q hq hk
          rcases htell with ⟨e, _⟩ | ⟨q0, h0, e⟩
          · rw [e] at hq
            obtain ⟨time', t, h1⟩ := h.queue id q hq hk
            exact ⟨time', t, List.mem_append_left _ h1⟩
          · rw [e] at hq
            rw [FMap.get_insert] at hq
            split at hq
            · rename_i hid; subst hid; exact ⟨c.now, v.owner, by simp⟩
            · obtain ⟨time', t, h1⟩ := h.queue id q hq hk
              exact ⟨time', t, List.mem_append_left _ h1⟩
        · intro pre post time' t hl
          rw [htasks]
          rcases split_log hl with ⟨post', h1, _⟩ | ⟨pre', h1, h2⟩
          · exact h.closed pre post' time' t h1
          · cases pre' with
            | cons y ys => cases ys <;> cases h2
            | nil => cases h2
        · intro t id h1 h2
          have h1 : Tasks.onlineId c.world.tasks t = some id := by rw [htasks] at h1; exact h1
          obtain ⟨hcon, q0, hq0⟩ := onlineId_reached h.broker.own h1
          have hkept : ∀ q, c.world.control.get id = some q → Control.kick ∈ q →
              ∃ q, (c.world.tell v.id .kick).control.get id = some q ∧ .kick ∈ q := by
            intro q hq hk
            rcases htell with ⟨e, _⟩ | ⟨q1, h4, e⟩
            · rw [e]; exact ⟨q, hq, hk⟩
            · rw [e]
              rw [FMap.get_insert]
              split
              · exact ⟨_, rfl, by simp⟩
              · exact ⟨q, hq, hk⟩
          rcases h.online t id h1 h2 with ⟨v', hv', h3, h4⟩ | ⟨q, hq, hk⟩
          · obtain ⟨j, hj⟩ := List.getElem?_of_mem hv'
            by_cases hij : j = i
            · subst hij
              rw [hv] at hj
              cases hj
              right
              rcases htell with ⟨e, h5⟩ | ⟨q1, h5, e⟩
              · rw [h4, hcon, hq0] at h5
                rcases h5 with h5 | h5 <;> cases h5
              · rw [e, h4]
                rw [FMap.get_insert, if_pos rfl]
                exact ⟨_, rfl, by simp⟩
            · exact .inl ⟨v', List.mem_eraseIdx_iff_getElem?.2 ⟨j, hij, hj⟩, h3, h4⟩
          · exact .inr (hkept q hq hk)

theorem onlineId_task {m : Tasks} {t : TaskId} {id : ClientId} (h : Tasks.onlineId m t = some id) :
    ∃ x s, FMap.get m t = some x ∧ x.stage = .online s ∧ s.clientId = id := by
  unfold Tasks.onlineId at h
  cases hx : FMap.get m t with
  | none => rw [hx] at h; cases h
  | some x =>
    rw [hx] at h
    simp only [Option.bind_some] at h
    cases hst : x.stage <;> rw [hst] at h <;> cases h
    exact ⟨x, _, rfl, hst, rfl⟩

theorem mem_watch {w : World} {t : TaskId} {v : Watch} (h : v ∈ c.watch w t) :
    v.owner = t ∧ v.due = c.now ∧ v.keepAlive > 0 ∧ c.keep.get t = some v.keepAlive ∧
      Tasks.onlineId w.tasks t = some v.id := by
  unfold Clocked.watch at h
  split at h
  · rename_i x k hx hk
    split at h
    · rename_i s hst
      split at h
      · rename_i hpos
        obtain rfl := List.mem_singleton.1 h
        refine ⟨rfl, rfl, hpos, hk, ?_⟩
        rw [Tasks.onlineId_of hx, hst]
        rfl
      · cases h
    · cases h
  · cases h

theorem watch_mem {w : World} {t : TaskId} {id : ClientId}
    (h : Tasks.onlineId w.tasks t = some id) (hk : c.interval t > 0) :
    ∃ v ∈ c.watch w t, v.owner = t ∧ v.id = id := by
  obtain ⟨x, s, hx, hst, rfl⟩ := onlineId_task h
  unfold Clocked.interval at hk
  cases hg : c.keep.get t with
  | none => rw [hg] at hk; cases hk
  | some k =>
    rw [hg] at hk
    have hk : k > 0 := hk
    unfold Clocked.watch
    simp only [hx, hg, hst]
    rw [if_pos hk]
    exact ⟨_, List.mem_singleton_self _, rfl, rfl⟩

theorem mem_kickTaken {w : World} {a : Act} {t : TaskId} (h : t ∈ w.kickTaken a) :
    ∃ x s q, w.tasks.get t = some x ∧ x.stage = .online s ∧
      w.control.get s.clientId = some (.kick :: q) := by
  unfold World.kickTaken at h
  split at h
  · split at h
    · rename_i x hx
      split at h
      · rename_i s hst
        split at h
        · rename_i q hq
          obtain rfl := List.mem_singleton.1 h
          exact ⟨x, s, q, hx, hst, hq⟩
        · cases h
      · cases h
    · cases h
  · cases h

theorem WatchInv.act (h : WatchInv c log) {a : Act} {k : Nat} {l : List Noted}
    (hk : ∀ id, a ≠ .kick id) (ha : c.act cfg ext a k = some (c', l)) :
    WatchInv c' (log ++ l.map fun e => (c.now, e)) := by
  unfold Clocked.act at ha
  split at ha
  · cases ha
  rename_i w' evs hs
  have hb := h.broker.step hs
  have hc := step_cases hs
  have ec := event_case hc
  have ws := watch_step h.broker.own hb.own h.quiet hk hc
  have hquiet := h.quiet.case hc
  simp only [Option.some.injEq, Prod.mk.injEq] at ha
  obtain ⟨rfl, rfl⟩ := ha
  have hlast : ∀ t, (Clocked.lastAfter { c with keep := c.keepAfter k a } evs).get t =
      if evs.findSome? Event.hears = some t then some c.now else c.last.get t := by
    intro t
    unfold Clocked.lastAfter
    split
    · rename_i u hu
      rw [hu, FMap.get_insert]
      simp only [Option.some.injEq]
    · rename_i hu
      rw [hu]
      simp
  have hkeep : ∀ t n, Tasks.name c.world.tasks t = some n →
      (c.keepAfter k a).get t = c.keep.get t := by
    intro t n ht
    have hlt := h.broker.own.fresh t (by rw [ht]; exact Option.some_ne_none _)
    unfold Clocked.keepAfter
    split
    · rw [FMap.get_insert, if_neg]
      intro he
      rw [he] at hlt
      exact Nat.lt_irrefl _ hlt
    · rfl
  generalize c.keepAfter k a = keep' at hlast hkeep ⊢
  generalize hlast' : Clocked.lastAfter { c with keep := keep' } evs = last' at hlast ⊢
  have hmem : ∀ (time : Nat) (y : Noted),
      (time, y) ∈ (evs.map Noted.event ++ (c.world.kickTaken a).map Noted.closed).map (fun e => (c.now, e)) ↔
        time = c.now ∧ ((∃ v ∈ evs, y = .event v) ∨ ∃ t ∈ c.world.kickTaken a, y = .closed t) := by
    intro time y
    simp only [List.mem_map, List.mem_append, Prod.mk.injEq]
    constructor
    · rintro ⟨z, (⟨v, hv, rfl⟩ | ⟨v, hv, rfl⟩), rfl, rfl⟩
      · exact ⟨rfl, .inl ⟨v, hv, rfl⟩⟩
      · exact ⟨rfl, .inr ⟨v, hv, rfl⟩⟩
    · rintro ⟨rfl, (⟨v, hv, rfl⟩ | ⟨v, hv, rfl⟩)⟩
      · exact ⟨_, .inl ⟨v, hv, rfl⟩, rfl, rfl⟩
      · exact ⟨_, .inr ⟨v, hv, rfl⟩, rfl, rfl⟩
  generalize hnew : (evs.map Noted.event ++ (c.world.kickTaken a).map Noted.closed).map
    (fun e => (c.now, e)) = new at hmem ⊢
  have hheard : ∀ t time, HeardAt (log ++ new) t time ↔
      HeardAt log t time ∨ (time = c.now ∧ evs.findSome? Event.hears = some t) := by
    intro t time
    rw [heard_append, ← hears_iff ec t]
    refine or_congr_right ?_
    unfold HeardAt
    simp only [hmem]
    constructor
    · rintro (⟨p, h1, ⟨v, hv, h2⟩ | ⟨v, hv, h2⟩⟩ | ⟨p, h1, ⟨v, hv, h2⟩ | ⟨v, hv, h2⟩⟩) <;> cases h2
      · exact ⟨h1, .inl ⟨p, hv⟩⟩
      · exact ⟨h1, .inr ⟨p, hv⟩⟩
    · rintro ⟨h1, ⟨p, hv⟩ | ⟨p, hv⟩⟩
      · exact .inl ⟨p, h1, .inl ⟨_, hv, rfl⟩⟩
      · exact .inr ⟨p, h1, .inl ⟨_, hv, rfl⟩⟩
  have hpast : ∀ t time, HeardAt log t time → time ≤ c.now := by
    rintro t time (⟨p, hp⟩ | ⟨p, hp⟩) <;> exact h.past _ hp
  have hnokick : ∀ time t id, (time, Noted.kick t id) ∉ new := by
    intro time t id hn
    rcases (hmem _ _).1 hn with ⟨_, ⟨v, _, h2⟩ | ⟨v, _, h2⟩⟩ <;> cases h2
  have hnames : ∀ (o : TaskId) (id : ClientId) (n : Str), id < c.world.registry.nextId →
      (∀ u, Tasks.client c.world.tasks u = some id → Tasks.name c.world.tasks u = some n) →
      ∀ u, Tasks.client w'.tasks u = some id → Tasks.name w'.tasks u = some n := by
    intro o id n hid hn u hu
    rcases ws.client u id hu with h1 | ⟨u', h1, h2⟩
    · exact absurd hid (Nat.not_lt.2 h1)
    · rw [← h2]; exact hn u' h1
  have hint : ∀ t n, Tasks.name c.world.tasks t = some n →
      (keep'.get t).getD 0 = c.interval t := by
    intro t n ht
    unfold Clocked.interval
    rw [hkeep t n ht]
  refine ⟨hb, hquiet, ?_, ?_, ?_, ?_, ?_, ?_, ?_, ?_, ?_⟩
  · rintro ⟨time, y⟩ hx
    rcases List.mem_append.1 hx with hx | hx
    · exact h.past _ hx
    · exact Nat.le_of_eq ((hmem _ _).1 hx).1
  · intro t time ht
    have ht : last'.get t = some time := ht
    rw [hlast] at ht
    simp only [hheard]
    split at ht
    · rename_i he
      cases ht
      refine ⟨.inr ⟨rfl, he⟩, ?_⟩
      rintro time' (h1 | ⟨rfl, _⟩)
      · exact hpast _ _ h1
      · exact Nat.le_refl _
    · rename_i he
      obtain ⟨h1, h2⟩ := h.heard t time ht
      refine ⟨.inl h1, ?_⟩
      rintro time' (h3 | ⟨_, h3⟩)
      · exact h2 _ h3
      · exact absurd h3 he
  · intro t ht time
    have ht : last'.get t = none := ht
    rw [hlast] at ht
    rw [hheard]
    split at ht
    · cases ht
    · rename_i he
      rintro (h3 | ⟨_, h3⟩)
      · exact h.unheard t ht time h3
      · exact absurd h3 he
  · intro v hv
    have hcase : v ∈ c.watches ∨ ∃ t, evs.findSome? Event.accepts = some t ∧
        v ∈ Clocked.watch { c with keep := keep' } w' t := by
      have hv : v ∈ Clocked.watchesAfter { c with keep := keep' } w' evs := hv
      unfold Clocked.watchesAfter at hv
      split at hv
      · rename_i t ht
        rcases List.mem_append.1 hv with hv | hv
        · exact .inl hv
        · exact .inr ⟨t, ht, hv⟩
      · exact .inl hv
    rcases hcase with hv | ⟨t, ht, hv⟩
    · obtain ⟨w1, w2, w3, ⟨time, w4, w5⟩, n, w6, w7⟩ := h.watch v hv
      refine ⟨w1, by rw [← w2]; exact hkeep _ _ w6, Nat.lt_of_lt_of_le w3 ws.next, ?_, n,
        ws.name _ _ w6, hnames v.owner _ _ w3 w7⟩
      show ∃ time, last'.get v.owner = some time ∧ _
      rw [hlast]
      split
      · have := hpast _ _ (h.heard _ _ w4).1
        exact ⟨_, rfl, by omega⟩
      · exact ⟨time, w4, w5⟩
    · obtain ⟨h1, h2, h3, h4, h5⟩ := mem_watch hv
      obtain ⟨x, s, hx, hst, hid⟩ := onlineId_task h5
      have hcl := Tasks.onlineId_client h5
      refine ⟨h3, by rw [h1]; exact h4, hb.own.below t _ hcl, ⟨c.now, ?_, ?_⟩,
        x.req.identifier, ?_, ?_⟩
      · show last'.get v.owner = some c.now
        rw [hlast, if_pos]
        rw [h1]
        exact accepts_imp ec ht
      · rw [h2]; exact Nat.le_add_right ..
      · rw [h1]; exact (Tasks.views hx).2.2.2.1
      · intro u hu
        obtain rfl := hb.own.uniq u t _ hu hcl
        exact (Tasks.views hx).2.2.2.1
  · intro time t id hx
    rcases List.mem_append.1 hx with hx | hx
    · obtain ⟨h1, h2, n, h3, h4⟩ := h.kick time t id hx
      refine ⟨Nat.lt_of_lt_of_le h1 ws.next, ?_, n, ws.name _ _ h3, hnames t _ _ h1 h4⟩
      show (keep'.get t).getD 0 > 0
      rw [hint t n h3]
      exact h2
    · exact absurd hx (hnokick _ _ _)
  · intro pre post time t id hl
    rcases split_log hl with ⟨post', h1, _⟩ | ⟨pre', h1, h2⟩
    · obtain ⟨_, _, n, h3, _⟩ := h.kick time t id (by rw [h1]; simp)
      show SilentFor pre t ((keep'.get t).getD 0) time
      rw [hint t n h3]
      exact h.silent pre post' time t id h1
    · exact absurd (show (time, Noted.kick t id) ∈ new by rw [h2]; simp) (hnokick _ _ _)
  · intro id q hq hkq
    obtain ⟨q0, h1, h2⟩ := ws.kick id q hq hkq
    obtain ⟨time, t, h3⟩ := h.queue id q0 h1 h2
    exact ⟨time, t, List.mem_append_left _ h3⟩
  · intro pre post time t hl
    rcases split_log hl with ⟨post', h1, _⟩ | ⟨pre', h1, h2⟩
    · obtain ⟨p1, p2, time', t', id, n, h3, h4, h5⟩ := h.closed pre post' time t h1
      exact ⟨p1, p2, time', t', id, n, h3, ws.name _ _ h4, ws.name _ _ h5⟩
    · have hin : (time, Noted.closed t) ∈ new := by rw [h2]; simp
      rcases (hmem _ _).1 hin with ⟨_, ⟨v, _, h3⟩ | ⟨v, hv, h3⟩⟩ <;> cases h3
      obtain ⟨x, s, q, hx, hst, hq⟩ := mem_kickTaken hv
      obtain ⟨time', t', h4⟩ := h.queue _ _ hq (by simp)
      obtain ⟨h5, _, n, h6, h7⟩ := h.kick _ _ _ h4
      obtain ⟨l1, l2, h8⟩ := List.append_of_mem h4
      have hcl : Tasks.client c.world.tasks t = some s.clientId := by
        rw [(Tasks.views hx).1, hst]; rfl
      refine ⟨l1, l2 ++ pre', time', t', s.clientId, n, ?_, ws.name _ _ h6, ws.name _ _ (h7 t hcl)⟩
      rw [h1, h8]
      simp
  · intro t id h1 h2
    have h2 : (keep'.get t).getD 0 > 0 := h2
    by_cases hacc : evs.findSome? Event.accepts = some t
    · left
      obtain ⟨v, hv, h3, h4⟩ := watch_mem (c := { c with keep := keep' }) h1 h2
      refine ⟨v, ?_, h3, h4⟩
      show v ∈ Clocked.watchesAfter { c with keep := keep' } w' evs
      unfold Clocked.watchesAfter
      rw [hacc]
      exact List.mem_append_right _ hv
    · obtain ⟨h3, h4⟩ := ws.online t id h1 hacc
      obtain ⟨x, s, hx, hst, _⟩ := onlineId_task h3
      rw [hint t _ (Tasks.views hx).2.2.2.1] at h2
      rcases h.online t id h3 h2 with ⟨v, hv, h5, h6⟩ | ⟨q, h5, h6⟩
      · refine .inl ⟨v, ?_, h5, h6⟩
        show v ∈ Clocked.watchesAfter { c with keep := keep' } w' evs
        unfold Clocked.watchesAfter
        split
        · exact List.mem_append_left _ hv
        · exact hv
      · exact .inr (h4 q h5 h6)

theorem WatchInv.step (h : WatchInv c log) {x : Tick} {l : List Noted}
    (hs : c.step cfg ext x = some (c', l)) : WatchInv c' (log ++ l.map fun e => (c.now, e)) := by
  cases x with
  | act a k =>
    cases a with
    | kick id => cases hs; simpa using h
    | _ =>
      simp only [Clocked.step] at hs
      refine h.act ?_ hs
      intro _ h
      cases h
  | pass ms => cases hs; simpa using h.pass ms
  | wake i => exact h.wake cfg ext i (Option.some.inj hs)

theorem WatchInv.run {xs : List Tick} (h : Clocked.Reaches cfg ext xs c log) : WatchInv c log := by
  unfold Clocked.Reaches at h
  induction xs using snoc_induction generalizing c log with
  | nil => cases h; exact .init
  | snoc xs x ih =>
    obtain ⟨c1, l1, l2, h1, h2, rfl⟩ := run_snoc_clocked h
    exact (ih h1).step h2

end Akasa
