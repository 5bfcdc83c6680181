import Verif.Spec.Slow
import Verif.Proof.WorldTime
import Verif.Props.EndToEnd
import Verif.Props.Timers
import Verif.Proof.WorldRoom
/-!
# Lemmas of C94
-/
namespace Akasa

variable {cfg : Config} {ext : Ext} {w w' : World} {evs e : List Event}

/-! ## Passing copies on changes nobody's stage -/

/-- A task that is where it was. -/
structure Like (x x' : Task) : Prop where
  online : ∀ s, x.stage = .online s → ∃ s', x'.stage = .online s' ∧ s'.core = s.core
  offline : ∀ s, x.stage = .offline s → x.idle s = true →
    ∃ s', x'.stage = .offline s' ∧ s'.core = s.core ∧ x'.idle s' = true
  sending : x.stage.sending? ≠ none → x'.stage.sending? ≠ none

theorem Like.refl (x : Task) : Like x x :=
  ⟨fun s h => ⟨s, h, rfl⟩, fun s h hi => ⟨s, h, rfl, hi⟩, id⟩

theorem Like.trans {a b c : Task} (h : Like a b) (h' : Like b c) : Like a c := by
  refine ⟨fun s hs => ?_, fun s hs hi => ?_, fun hs => h'.sending (h.sending hs)⟩
  · obtain ⟨s1, h1, h2⟩ := h.online s hs
    obtain ⟨s2, h3, h4⟩ := h'.online s1 h1
    exact ⟨s2, h3, h4.trans h2⟩
  · obtain ⟨s1, h1, h2, h5⟩ := h.offline s hs hi
    obtain ⟨s2, h3, h4, h6⟩ := h'.offline s1 h1 h5
    exact ⟨s2, h3, h4.trans h2, h6⟩

/-- All tasks are where they were. -/
def Calm (w w' : World) : Prop :=
  ∀ v x, w.tasks.get v = some x → ∃ x', w'.tasks.get v = some x' ∧ Like x x'

theorem Calm.refl (w : World) : Calm w w := fun _ x h => ⟨x, h, .refl x⟩

theorem Calm.trans {a b c : World} (h : Calm a b) (h' : Calm b c) : Calm a c := by
  intro v x hx
  obtain ⟨y, hy, h1⟩ := h v x hx
  obtain ⟨z, hz, h2⟩ := h' v y hy
  exact ⟨z, hz, h1.trans h2⟩

theorem Calm.insert {t : TaskId} {x x' : Task} (hx : w.tasks.get t = some x)
    (hw : w'.tasks = w.tasks.insert t x') (h : Like x x') : Calm w w' := by
  intro v y hy
  rw [hw, FMap.get_insert]
  split
  · rename_i hv
    subst hv
    rw [hx] at hy
    cases hy
    exact ⟨x', rfl, h⟩
  · exact ⟨y, hy, .refl y⟩

theorem takes_iff {u : TaskId} {d : ClientId} : w.takes u d ↔ ∃ x s, w.tasks.get u = some x ∧
    s.clientId = d ∧ ((x.stage = .online s ∧ s.disconnected = false) ∨
      (x.stage = .offline s ∧ x.idle s = true)) := by
  constructor
  · rintro ⟨s, hd, ⟨h, h1⟩ | ⟨h, h1, h2⟩⟩
    · obtain ⟨x, hx, hst⟩ := online_stage h
      exact ⟨x, s, hx, hd, .inl ⟨hst, h1⟩⟩
    · obtain ⟨x, hx, hst⟩ := offline_stage h
      refine ⟨x, s, hx, hd, .inr ⟨hst, ?_⟩⟩
      unfold Task.idle
      rw [h1, h2 x hx]; rfl
  · rintro ⟨x, s, hx, hd, ⟨h, h1⟩ | ⟨h, h1⟩⟩
    · exact ⟨s, hd, .inl ⟨by unfold World.onlineSession; rw [hx]; simp [h], h1⟩⟩
    · refine ⟨s, hd, .inr ⟨by unfold World.offlineSession; rw [hx]; simp [h], (idle_nil h1).1, ?_⟩⟩
      intro y hy
      rw [hx] at hy
      cases hy
      exact (idle_nil h1).2

theorem Calm.takes (h : Calm w w') {u : TaskId} {d : ClientId} (hu : w.takes u d) : w'.takes u d := by
  obtain ⟨x, s, hx, hd, hst⟩ := takes_iff.1 hu
  obtain ⟨x', hx', hl⟩ := h u x hx
  refine takes_iff.2 ?_
  rcases hst with ⟨h1, h2⟩ | ⟨h1, h2⟩
  · obtain ⟨s', h3, h4⟩ := hl.online s h1
    exact ⟨x', s', hx', (ident_clientId (ident_of_core h4)).trans hd,
      .inl ⟨h3, (ident_disc (ident_of_core h4)).trans h2⟩⟩
  · obtain ⟨s', h3, h4, h5⟩ := hl.offline s h1 h2
    exact ⟨x', s', hx', (ident_clientId (ident_of_core h4)).trans hd, .inr ⟨h3, h5⟩⟩

theorem passesOn_iff {t : TaskId} :
    w.passesOn t ↔ ∃ x, w.tasks.get t = some x ∧ x.stage.sending? ≠ none := by
  constructor
  · rintro ⟨x, s, hx, h⟩
    refine ⟨x, hx, ?_⟩
    rcases h with h | h | h | h <;> rw [h] <;> simp [Stage.sending?]
  · rintro ⟨x, hx, h⟩
    cases hst : x.stage <;> rw [hst] at h <;> simp only [Stage.sending?, ne_eq, not_true] at h
    · exact ⟨x, _, hx, .inl hst⟩
    · exact ⟨x, _, hx, .inr (.inl hst)⟩
    · exact ⟨x, _, hx, .inr (.inr (.inl hst))⟩
    · exact ⟨x, _, hx, .inr (.inr (.inr hst))⟩

theorem Calm.passesOn (h : Calm w w') {t : TaskId} (ht : w.passesOn t) : w'.passesOn t := by
  obtain ⟨x, hx, hs⟩ := passesOn_iff.1 ht
  obtain ⟨x', hx', hl⟩ := h t x hx
  exact passesOn_iff.2 ⟨x', hx', hl.sending hs⟩

theorem Calm.online (h : Calm w w') {t : TaskId} {s : Session} (ht : w.onlineSession t = some s) :
    ∃ s', w'.onlineSession t = some s' ∧ s'.disconnected = s.disconnected := by
  obtain ⟨x, hx, hst⟩ := online_stage ht
  obtain ⟨x', hx', hl⟩ := h t x hx
  obtain ⟨s', h1, h2⟩ := hl.online s hst
  exact ⟨s', by unfold World.onlineSession; rw [hx']; simp [h1], ident_disc (ident_of_core h2)⟩

theorem like_setSession {x : Task} {s s' : Session} {k : FMap ClientId NormalMsg}
    (hst : x.stage.sending? = some s) (hc : s'.core = s.core)
    (hi : x.idle s = true → ({ x with sinks := k } : Task).idle s' = true) :
    Like x { x with stage := x.stage.setSession s', sinks := k } := by
  refine ⟨fun s0 h0 => ?_, fun s0 h0 hi0 => ?_, fun _ => ?_⟩
  · rw [h0] at hst ⊢
    cases hst
    exact ⟨s', rfl, hc⟩
  · rw [h0] at hst ⊢
    cases hst
    exact ⟨s', rfl, hc, hi hi0⟩
  · cases hh : x.stage <;> rw [hh] at hst <;> simp [Stage.sending?] at hst <;>
      simp [Stage.setSession, Stage.sending?]

/-- What passing copies on from `t` to `d` does. -/
structure Moved (t : TaskId) (d : ClientId) (w w' : World) (evs : List Event) : Prop where
  calm : Calm w w'
  other : ∀ d', d' ≠ d → w'.inbox.get d' = w.inbox.get d' ∧ w'.onTheWay t d' = w.onTheWay t d' ∧
    tookFrom t d' evs = []
  there : w'.inbox.contains d = w.inbox.contains d
  flow : w.inbox.contains d = true → tookFrom t d evs ++ w'.inboxFrom t d ++ w'.onTheWay t d =
    w.inboxFrom t d ++ w.onTheWay t d

theorem Moved.refl (t : TaskId) (d : ClientId) (w : World) : Moved t d w w [] :=
  ⟨.refl w, fun _ _ => ⟨rfl, rfl, rfl⟩, rfl, fun _ => rfl⟩

theorem Moved.trans {t : TaskId} {d : ClientId} {a b c : World} {e e' : List Event}
    (h : Moved t d a b e) (h' : Moved t d b c e') : Moved t d a c (e ++ e') := by
  refine ⟨h.calm.trans h'.calm, fun d' hd => ?_, h'.there.trans h.there, fun hc => ?_⟩
  · obtain ⟨h1, h2, h3⟩ := h.other d' hd
    obtain ⟨h4, h5, h6⟩ := h'.other d' hd
    exact ⟨h4.trans h1, h5.trans h2, by rw [tookFrom_append, h3, h6]; rfl⟩
  · rw [tookFrom_append, List.append_assoc, List.append_assoc, ← List.append_assoc (tookFrom t d e'),
      h'.flow (h.there.trans hc), ← List.append_assoc, h.flow hc]

theorem sends_other {x : Task} {s s' : Session} {k : FMap ClientId NormalMsg} {d' : ClientId}
    (hst : x.stage.sending? = some s) (hq : s'.queue d' = s.queue d')
    (hk : k.get d' = x.sinks.get d') :
    Task.carries { x with stage := x.stage.setSession s', sinks := k } d' = x.carries d' := by
  have h := carried_sending hst d'
  unfold Task.carries
  simp only
  rw [h.1, h.2, hq, hk]

theorem moved_step {t : TaskId} {d : ClientId} (hi : OInv w) (he : EarlyInv w) {a : Act}
    (ha : a = .push t d ∨ a = .flush t d ∨ a = .giveUp t d ∨
      ∃ u env, a = .normal u env ∧ w.takes u d)
    (hs : w.step cfg ext a = some (w', e)) : Moved t d w w' e := by
  have hc := step_cases hs
  have hf := flow_step hi he hc t d
  cases hc with
  | idle => exact .refl ..
  | normalOn u env x s hx hst hd src m rest hin =>
    have hsd : s.clientId = d := by
      rcases ha with h | h | h | ⟨u', env', h, hu⟩
      · cases h
      · cases h
      · cases h
      · cases h
        obtain ⟨y, s1, hy, h1, h2⟩ := takes_iff.1 hu
        rw [hx] at hy
        cases hy
        rw [hst] at h2
        rcases h2 with ⟨h2, _⟩ | ⟨h2, _⟩ <;> cases h2
        exact h1
    subst hsd
    have hcp := copies_onNormal cfg x.req.level.proto env w.global s m
    refine ⟨.insert hx rfl ⟨fun s0 h0 => ?_, fun s0 h0 => ?_, fun _ => ?_⟩, fun d' hd' => ?_, ?_, ?_⟩
    · rw [hst] at h0; cases h0
      exact ⟨_, rfl, core_onNormal ..⟩
    · rw [hst] at h0; cases h0
    · simp [Stage.sending?]
    · refine ⟨FMap.get_insert_ne _ _ (Ne.symm hd'), ?_, ?_⟩
      · by_cases hut : u = t
        · subst hut
          rw [onTheWay_of hx, onTheWay_of (FMap.get_insert_self ..)]
          simp [Task.carries, hst, Stage.carried, queue_of_copies hcp]
        · exact onTheWay_congr (FMap.get_insert_ne _ _ hut) d'
      · simp [tookFrom, Ne.symm hd']
    · exact contains_rest hin _
    · intro hcn
      have := hf.same (by simp [droppedFor]) hcn (by rw [← hcn]; exact contains_rest hin _)
      rw [this]
      simp [queuedFor]
  | normalOff u env x s hx hst hd src m rest hin =>
    have hsd : s.clientId = d := by
      rcases ha with h | h | h | ⟨u', env', h, hu⟩
      · cases h
      · cases h
      · cases h
      · cases h
        obtain ⟨y, s1, hy, h1, h2⟩ := takes_iff.1 hu
        rw [hx] at hy
        cases hy
        rw [hst] at h2
        rcases h2 with ⟨h2, _⟩ | ⟨h2, _⟩ <;> cases h2
        exact h1
    subst hsd
    have hcp := copies_normal cfg x.req.level.proto (env.now 0 0) s m
    refine ⟨.insert hx rfl ⟨fun s0 h0 => ?_, fun s0 h0 hi0 => ?_, fun _ => ?_⟩, fun d' hd' => ?_, ?_, ?_⟩
    · rw [hst] at h0; cases h0
    · rw [hst] at h0; cases h0
      refine ⟨_, rfl, core_normal .., ?_⟩
      unfold Task.idle at hi0 ⊢
      rw [bcast_of_copies hcp]; exact hi0
    · simp [Stage.sending?]
    · refine ⟨FMap.get_insert_ne _ _ (Ne.symm hd'), ?_, ?_⟩
      · by_cases hut : u = t
        · subst hut
          rw [onTheWay_of hx, onTheWay_of (FMap.get_insert_self ..)]
          simp [Task.carries, hst, Stage.carried, queue_of_copies hcp]
        · exact onTheWay_congr (FMap.get_insert_ne _ _ hut) d'
      · simp [tookFrom, Ne.symm hd']
    · exact contains_rest hin _
    · intro hcn
      have := hf.same (by simp [droppedFor]) hcn (by rw [← hcn]; exact contains_rest hin _)
      rw [this]
      simp [queuedFor]
  | push t' d0 x s hx hst m rest hq hk =>
    obtain ⟨rfl, rfl⟩ : t' = t ∧ d0 = d := by
      rcases ha with h | h | h | ⟨u', env', h, hu⟩ <;> cases h
      exact ⟨rfl, rfl⟩
    refine ⟨.insert hx rfl (like_setSession hst rfl ?_), fun d' hd' => ⟨rfl, ?_, rfl⟩, rfl, ?_⟩
    · intro hidle
      have := (idle_nil hidle).1
      unfold Session.queue at hq
      rw [this] at hq
      cases hq
    · rw [onTheWay_of hx, onTheWay_of (FMap.get_insert_self ..)]
      refine sends_other hst ?_ (FMap.get_insert_ne _ _ (Ne.symm hd'))
      unfold Session.queue
      simp only
      split
      · rw [FMap.get_erase, if_neg (Ne.symm hd')]
      · rw [FMap.get_insert_ne _ _ (Ne.symm hd')]
    · intro hcn
      have := hf.same rfl hcn hcn
      rw [this]
      simp [queuedFor]
  | flush t' d0 x hx m q hk hin hl =>
    obtain ⟨rfl, rfl⟩ : t' = t ∧ d0 = d := by
      rcases ha with h | h | h | ⟨u', env', h, hu⟩ <;> cases h
      exact ⟨rfl, rfl⟩
    refine ⟨.insert hx rfl ⟨fun s0 h0 => ⟨s0, h0, rfl⟩, fun s0 h0 hi0 => ⟨s0, h0, rfl, ?_⟩, id⟩,
      fun d' hd' => ⟨FMap.get_insert_ne _ _ (Ne.symm hd'), ?_, rfl⟩, contains_rest hin _, ?_⟩
    · have := (idle_nil hi0).2
      rw [this] at hk
      cases hk
    · rw [onTheWay_of hx, onTheWay_of (FMap.get_insert_self ..)]
      simp [Task.carries, FMap.get_erase, Ne.symm hd']
    · intro hcn
      have := hf.same rfl hcn (by rw [← hcn]; exact contains_rest hin _)
      rw [this]
      simp [queuedFor]
  | giveUp t' d0 x s hx hst hin =>
    obtain ⟨rfl, rfl⟩ : t' = t ∧ d0 = d := by
      rcases ha with h | h | h | ⟨u', env', h, hu⟩ <;> cases h
      exact ⟨rfl, rfl⟩
    refine ⟨.insert hx rfl (like_setSession hst rfl ?_), fun d' hd' => ⟨rfl, ?_, rfl⟩, rfl, ?_⟩
    · intro hidle
      obtain ⟨h1, h2⟩ := idle_nil hidle
      unfold Task.idle
      simp [h1, h2, FMap.erase]
    · rw [onTheWay_of hx, onTheWay_of (FMap.get_insert_self ..)]
      refine sends_other hst ?_ (by rw [FMap.get_erase, if_neg (Ne.symm hd')])
      unfold Session.queue
      simp only
      rw [FMap.get_erase, if_neg (Ne.symm hd')]
    · intro hcn
      rw [hin] at hcn
      cases hcn
  | _ => rcases ha with h | h | h | ⟨u', env', h, hu⟩ <;> cases h

theorem run_cons_world {a : Act} {acts : List Act} {w1 w2 : World} {e1 e2 : List Event}
    (h1 : w.step cfg ext a = some (w1, e1)) (h2 : World.run cfg ext w1 acts = some (w2, e2)) :
    World.run cfg ext w (a :: acts) = some (w2, e1 ++ e2) := by
  simp only [World.run, h1, h2, Option.map_some]

theorem run_uncons_world {a : Act} {acts : List Act}
    (h : World.run cfg ext w (a :: acts) = some (w', e)) :
    ∃ w1 e1 e2, w.step cfg ext a = some (w1, e1) ∧ World.run cfg ext w1 acts = some (w', e2) ∧
      e = e1 ++ e2 := by
  unfold World.run at h
  cases hs : w.step cfg ext a with
  | none => rw [hs] at h; cases h
  | some r =>
    rw [hs] at h
    cases hr : World.run cfg ext r.1 acts with
    | none => simp [hr] at h
    | some r' =>
      simp [hr] at h
      exact ⟨r.1, r.2, r'.2, rfl, by rw [hr, ← h.1], h.2.symm⟩

/-- What a state needs for the lemmas above. -/
structure Sound (w : World) : Prop where
  own : OInv w
  early : EarlyInv w

theorem Sound.of {acts : List Act} (h : Reaches cfg ext acts w evs) : Sound w :=
  ⟨(BrokerInv.run h).own, (flowInv_run h).fine.early⟩

/-- A reachable state. -/
def Reached (cfg : Config) (ext : Ext) (w : World) : Prop := ∃ acts evs, Reaches cfg ext acts w evs

theorem Reached.step (h : Reached cfg ext w) {a : Act} (hs : w.step cfg ext a = some (w', e)) :
    Reached cfg ext w' := by
  obtain ⟨acts, evs, h⟩ := h
  exact ⟨acts ++ [a], evs ++ e, run_snoc_world.2 ⟨w, evs, e, h, hs, rfl⟩⟩

theorem Reached.sound (h : Reached cfg ext w) : Sound w := by
  obtain ⟨acts, evs, h⟩ := h
  exact .of h

/-- The acts that move copies from `t` to `d`, whose messages `u` takes. -/
def Act.moves (t u : TaskId) (d : ClientId) (a : Act) : Prop :=
  a = .push t d ∨ a = .flush t d ∨ ∃ env, a = .normal u env

theorem moved_run {t u : TaskId} {d : ClientId} {acts : List Act} (hr : Reached cfg ext w)
    (hu : w.takes u d) (ha : ∀ a ∈ acts, a.moves t u d)
    (h : World.run cfg ext w acts = some (w', evs)) :
    Moved t d w w' evs ∧ Reached cfg ext w' := by
  induction acts generalizing w evs with
  | nil => cases h; exact ⟨.refl .., hr⟩
  | cons a acts ih =>
    simp only [World.run] at h
    cases hs : w.step cfg ext a with
    | none => rw [hs] at h; cases h
    | some r =>
      obtain ⟨w1, e1⟩ := r
      rw [hs] at h
      simp only [Option.map_eq_some_iff, Prod.mk.injEq] at h
      obtain ⟨⟨w2, e2⟩, h1, rfl, rfl⟩ := h
      have hm : Moved t d w w1 e1 := by
        refine moved_step hr.sound.own hr.sound.early ?_ hs
        rcases ha a List.mem_cons_self with h | h | ⟨env, h⟩
        · exact .inl h
        · exact .inr (.inl h)
        · exact .inr (.inr (.inr ⟨u, env, h, hu⟩))
      obtain ⟨h2, h3⟩ := ih (hr.step hs) (hm.calm.takes hu)
        (fun a h => ha a (List.mem_cons_of_mem _ h)) h1
      exact ⟨hm.trans h2, h3⟩

/-- Whoever takes messages can take the first. -/
theorem take_first {u : TaskId} {d : ClientId} (hu : w.takes u d) {t : TaskId} {src : TaskId}
    {m : NormalMsg} {rest : List (TaskId × NormalMsg)} (hq : w.inbox.get d = some ((src, m) :: rest)) :
    ∃ w' e, w.step cfg ext (.normal u {}) = some (w', e) ∧ w'.inbox.get d = some rest ∧
      w'.onTheWay t d = w.onTheWay t d := by
  obtain ⟨x, s, hx, rfl, ⟨hst, hd⟩ | ⟨hst, hd⟩⟩ := takes_iff.1 hu
  · refine ⟨_, _, by
      simp only [World.step, World.normal, hx, hst, hq, hd, Bool.false_eq_true, if_false]; rfl,
      FMap.get_insert_self .., ?_⟩
    by_cases hut : u = t
    · subst hut
      rw [onTheWay_of hx, onTheWay_of (FMap.get_insert_self ..)]
      simp [Task.carries, hst, Stage.carried, queue_of_copies (copies_onNormal ..)]
    · exact onTheWay_congr (FMap.get_insert_ne _ _ hut) _
  · refine ⟨_, _, by simp only [World.step, World.normal, hx, hst, hq, hd, if_true]; rfl,
      FMap.get_insert_self .., ?_⟩
    by_cases hut : u = t
    · subst hut
      rw [onTheWay_of hx, onTheWay_of (FMap.get_insert_self ..)]
      simp [Task.carries, hst, Stage.carried, queue_of_copies (copies_normal ..)]
    · exact onTheWay_congr (FMap.get_insert_ne _ _ hut) _

/-- All copies for one receiver can be delivered. -/
theorem drain_one {t u : TaskId} {d : ClientId} (n : Nat) : ∀ {w : World} {q}, Reached cfg ext w →
    w.passesOn t → w.takes u d → w.inbox.get d = some q →
    2 * (w.onTheWay t d).length + q.length = n →
    ∃ acts w' evs, World.run cfg ext w acts = some (w', evs) ∧ (∀ a ∈ acts, a.moves t u d) ∧
      w'.inbox.get d = some [] ∧ w'.onTheWay t d = [] := by
  induction n using Nat.strongRecOn with
  | ind n ih =>
    intro w q hr ht hu hq hn
    cases q with
    | cons e rest =>
      obtain ⟨src, m⟩ := e
      obtain ⟨w1, e1, hs, h1, h2⟩ := take_first (cfg := cfg) (ext := ext) hu (t := t) hq
      have ha : ∀ a ∈ [Act.normal u {}], a.moves t u d := by
        intro a h
        rw [List.mem_singleton] at h
        exact .inr (.inr ⟨_, h⟩)
      obtain ⟨hm, hr1⟩ := moved_run hr hu ha (run_cons_world hs rfl)
      simp only [List.length_cons] at hn
      obtain ⟨acts, w', evs, h3, h4, h5⟩ := ih (n - 1) (by omega) hr1 (hm.calm.passesOn ht)
        (hm.calm.takes hu) h1 (by rw [h2]; omega)
      refine ⟨_, w', _, run_cons_world hs h3, ?_, h5⟩
      intro a h
      rcases List.mem_cons.1 h with rfl | h
      · exact .inr (.inr ⟨_, rfl⟩)
      · exact h4 a h
    | nil =>
      cases hw : w.onTheWay t d with
      | nil => exact ⟨[], w, [], rfl, fun a h => by (cases h), hq, hw⟩
      | cons m rest =>
        obtain ⟨w1, hs, h1, h2⟩ := C56_moves (cfg := cfg) (ext := ext) ht hw hq (by simp)
        have ha : ∀ a ∈ [Act.push t d, Act.flush t d], a.moves t u d := by
          intro a h
          simp only [List.mem_cons, List.not_mem_nil, or_false] at h
          rcases h with rfl | rfl
          · exact .inl rfl
          · exact .inr (.inl rfl)
        obtain ⟨hm, hr1⟩ := moved_run hr hu ha hs
        rw [hw] at hn
        simp only [List.length_cons, List.length_nil] at hn
        obtain ⟨acts, w', evs, h3, h4, h5⟩ := ih (n - 1) (by omega) hr1 (hm.calm.passesOn ht)
          (hm.calm.takes hu) h1 (by rw [h2]; simp; omega)
        refine ⟨_, w', _, run_append_world hs h3, ?_, h5⟩
        intro a h
        rcases List.mem_append.1 h with h | h
        · exact ha a h
        · exact h4 a h

/-- All copies for a receiver that is gone can be given up. -/
theorem give_up {t : TaskId} {d : ClientId} (ht : w.passesOn t) (hd : w.inbox.get d = none) :
    ∃ w', w.step cfg ext (.giveUp t d) = some (w', []) ∧ w'.onTheWay t d = [] := by
  obtain ⟨x, hx, hs⟩ := passesOn_iff.1 ht
  cases hst : x.stage.sending? with
  | none => exact absurd hst hs
  | some s =>
    have hc : w.inbox.contains d = false := by unfold FMap.contains; rw [hd]; rfl
    refine ⟨_, by simp only [World.step, World.giveUp, hx, hst, hc, Bool.false_eq_true, if_false]; rfl,
      ?_⟩
    rw [onTheWay_of (FMap.get_insert_self ..)]
    have := (carried_sending hst d).2
    unfold Task.carries
    simp only
    rw [this]
    simp [Session.queue]

/-- A receiver that is gone, or has somebody who takes its messages, now and in the state `w0`. -/
def Served (w0 w : World) (d : ClientId) : Prop :=
  w.inbox.get d = none ∨ ∃ u, w0.takes u d ∧ w.takes u d

/-- All copies for some receivers can be delivered, or given up. -/
theorem drain_list {t : TaskId} {w0 : World} (ds : List ClientId) (hn : ds.Nodup)
    (hne : ∀ d ∈ ds, w0.onTheWay t d ≠ []) : ∀ {w : World},
    Reached cfg ext w → w.passesOn t → (∀ d ∈ ds, Served w0 w d) →
    ∃ acts w' evs, World.run cfg ext w acts = some (w', evs) ∧ (∀ a ∈ acts, a.delivers w0 t) ∧
      Calm w w' ∧ Reached cfg ext w' ∧
      (∀ d ∈ ds, w'.onTheWay t d = [] ∧
        (w.inbox.get d ≠ none → tookFrom t d evs = w.inboxFrom t d ++ w.onTheWay t d)) ∧
      ∀ d, d ∉ ds → w'.inbox.get d = w.inbox.get d ∧ w'.onTheWay t d = w.onTheWay t d ∧
        tookFrom t d evs = [] := by
  induction ds with
  | nil =>
    intro w hr ht _
    exact ⟨[], w, [], rfl, fun a h => by (cases h), .refl w, hr, fun d h => by (cases h),
      fun d _ => ⟨rfl, rfl, rfl⟩⟩
  | cons d ds ih =>
    intro w hr ht hs
    obtain ⟨hd, hn⟩ := List.nodup_cons.1 hn
    obtain ⟨acts1, w1, evs1, h1, h2, hm, hr1, h3, h4⟩ : ∃ acts w' evs,
        World.run cfg ext w acts = some (w', evs) ∧ (∀ a ∈ acts, a.delivers w0 t) ∧
        Moved t d w w' evs ∧ Reached cfg ext w' ∧ w'.onTheWay t d = [] ∧
        (w.inbox.get d ≠ none → tookFrom t d evs = w.inboxFrom t d ++ w.onTheWay t d) := by
      cases hq : w.inbox.get d with
      | none =>
        obtain ⟨w1, h1, h2⟩ := give_up (cfg := cfg) (ext := ext) ht hq
        have hm := moved_step hr.sound.own hr.sound.early (.inr (.inr (.inl rfl))) h1
        refine ⟨[.giveUp t d], w1, [] ++ [], run_cons_world h1 rfl, ?_, hm, hr.step h1, h2,
          fun h => absurd rfl h⟩
        intro a h
        cases List.mem_singleton.1 h
        exact rfl
      | some q =>
        rcases hs d List.mem_cons_self with h | ⟨u, hu0, hu⟩
        · rw [hq] at h; cases h
        · obtain ⟨acts, w', evs, h1, h2, h3, h4⟩ := drain_one (cfg := cfg) (ext := ext) _ hr ht hu hq rfl
          obtain ⟨hm, hr1⟩ := moved_run hr hu h2 h1
          refine ⟨acts, w', evs, h1, ?_, hm, hr1, h4, fun _ => ?_⟩
          · intro a ha
            rcases h2 a ha with rfl | rfl | ⟨env, rfl⟩
            · exact rfl
            · exact rfl
            · exact ⟨d, hne d List.mem_cons_self, hu0⟩
          · have := hm.flow (by unfold FMap.contains; rw [hq]; rfl)
            rw [h4, inboxFrom_some h3] at this
            simpa using this
    have hback : ∀ d', d' ≠ d → w1.inbox.get d' = w.inbox.get d' ∧
        w1.onTheWay t d' = w.onTheWay t d' ∧ tookFrom t d' evs1 = [] := hm.other
    have hin : ∀ {d'}, d' ∈ ds → d' ≠ d := by rintro d' h rfl; exact hd h
    have hserved : ∀ d' ∈ ds, Served w0 w1 d' := by
      intro d' h
      rcases hs d' (List.mem_cons_of_mem _ h) with h1 | ⟨u, hu0, hu⟩
      · exact .inl ((hback d' (hin h)).1.trans h1)
      · exact .inr ⟨u, hu0, hm.calm.takes hu⟩
    obtain ⟨acts2, w2, evs2, g1, g2, g3, g4, g5, g6⟩ := ih hn
      (fun d' h => hne d' (List.mem_cons_of_mem _ h)) hr1 (hm.calm.passesOn ht) hserved
    refine ⟨acts1 ++ acts2, w2, evs1 ++ evs2, run_append_world h1 g1, ?_, hm.calm.trans g3, g4, ?_, ?_⟩
    · intro a h
      rcases List.mem_append.1 h with h | h
      · exact h2 a h
      · exact g2 a h
    · intro d' h
      rcases List.mem_cons.1 h with rfl | h
      · obtain ⟨k1, k2, k3⟩ := g6 d' hd
        exact ⟨k2.trans h3, fun hq => by rw [tookFrom_append, h4 hq, k3, List.append_nil]⟩
      · obtain ⟨k1, k2⟩ := g5 d' h
        obtain ⟨b1, b2, b3⟩ := hback d' (hin h)
        exact ⟨k1, fun hq => by
          rw [tookFrom_append, b3, k2 (by rw [b1]; exact hq), inboxFrom_congr b1, b2]; rfl⟩
    · intro d' h
      have h5 : d' ≠ d := fun h' => h (by rw [h']; exact List.mem_cons_self)
      obtain ⟨b1, b2, b3⟩ := hback d' h5
      obtain ⟨k1, k2, k3⟩ := g6 d' fun h' => h (List.mem_cons_of_mem _ h')
      exact ⟨k1.trans b1, k2.trans b2, by rw [tookFrom_append, b3, k3]; rfl⟩

/-- The receivers a task holds copies for. -/
theorem receivers (w : World) (t : TaskId) :
    ∃ ds : List ClientId, ds.Nodup ∧ ∀ d, d ∈ ds ↔ w.onTheWay t d ≠ [] := by
  cases hx : w.tasks.get t with
  | none => exact ⟨[], List.nodup_nil, fun d => by simp [onTheWay_none hx]⟩
  | some x =>
    have hfin : ∃ ks : List ClientId, ∀ d, w.onTheWay t d ≠ [] → d ∈ ks := by
      have hq : ∀ s : Session, ∀ d, s.queue d ≠ [] → d ∈ s.bcast.keys := by
        intro s d h
        unfold Session.queue at h
        cases hg : s.bcast.get d with
        | none => rw [hg] at h; exact absurd rfl h
        | some l => exact FMap.mem_keys_of_mem (FMap.mem_of_get hg)
      have hst : ∃ ks : List ClientId, ∀ d, x.stage.carried d ≠ [] → d ∈ ks := by
        cases x.stage with
        | online s => exact ⟨_, hq s⟩
        | closed s => exact ⟨_, hq s⟩
        | ending s => exact ⟨_, hq s⟩
        | offline s => exact ⟨_, hq s⟩
        | expired s => exact ⟨_, hq s⟩
        | _ => exact ⟨[], fun d h => absurd rfl h⟩
      obtain ⟨ks, hks⟩ := hst
      refine ⟨x.sinks.keys ++ ks, fun d h => ?_⟩
      rw [onTheWay_of hx] at h
      unfold Task.carries at h
      cases hg : x.sinks.get d with
      | some m => exact List.mem_append_left _ (FMap.mem_keys_of_mem (FMap.mem_of_get hg))
      | none =>
        rw [hg] at h
        exact List.mem_append_right _ (hks d h)
    obtain ⟨ks, hks⟩ := hfin
    refine ⟨(ks.filter fun d => decide (w.onTheWay t d ≠ [])).eraseDups, nodup_eraseDups _, fun d => ?_⟩
    rw [List.mem_eraseDups, List.mem_filter]
    simp only [decide_eq_true_eq]
    exact ⟨fun h => h.2, fun h => ⟨hks d h, h⟩⟩

/-! ## Held up -/

/-- The connection was established and is over. -/
def Stage.over : Stage → Bool
  | .closed _ => true
  | .ending _ => true
  | .offline _ => true
  | .expired _ => true
  | .gone => true
  | _ => false

/-- The connection was established and is over, or was refused. -/
def World.over (w : World) (t : TaskId) : Prop := ∃ x, w.tasks.get t = some x ∧ x.stage.over = true

theorem new_task (hi : OInv w) : w.tasks.get w.nextTask = none := by
  cases h : w.tasks.get w.nextTask with
  | none => rfl
  | some x =>
    have := hi.fresh w.nextTask (by rw [(Tasks.views h).2.2.2.1]; simp)
    exact absurd this (Nat.lt_irrefl _)

theorem asked_waiting (hi : OInv w) {id : ClientId} {pr : Proto} {b : TaskId} {q : List Control}
    (hq : w.control.get id = some (.online pr b :: q)) {y : Task} (hy : w.tasks.get b = some y) :
    y.stage = .waiting id := by
  have := (hi.queue id _ pr b hq List.mem_cons_self).1
  unfold Tasks.waiting at this
  rw [hy, Option.bind_some] at this
  cases hst : y.stage <;> rw [hst] at this <;> simp [Stage.waiting?] at this
  rw [this]

/-- What is over stays over. -/
theorem over_step (hi : OInv w) {t : TaskId} (h : w.over t) {a : Act}
    (hs : w.step cfg ext a = some (w', e)) : w'.over t ∧ ∀ p, .received t p ∉ e := by
  obtain ⟨x, hx, hp⟩ := h
  have ne : ∀ {u : TaskId} {y : Task}, w.tasks.get u = some y → y.stage.over = false → u ≠ t := by
    rintro u y hy h rfl
    rw [hx] at hy
    cases hy
    rw [h] at hp; cases hp
  have hnew : w.nextTask ≠ t := by
    intro h
    have := new_task hi
    rw [h, hx] at this; cases this
  have keep : ∀ {u : TaskId} {y : Task} {W : World}, W.tasks = w.tasks.insert u y →
      (u = t → y.stage.over = true) → W.over t := by
    intro u y W hW h
    unfold World.over
    rw [hW, FMap.get_insert]
    split
    · exact ⟨y, rfl, h ‹_›⟩
    · exact ⟨x, hx, hp⟩
  have keep2 : ∀ {u b : TaskId} {y z : Task} {W : World},
      W.tasks = (w.tasks.insert u y).insert b z → y.stage.over = true → b ≠ t → W.over t := by
    intro u b y z W hW h hb
    unfold World.over
    rw [hW, FMap.get_insert, if_neg hb, FMap.get_insert]
    split
    · exact ⟨y, rfl, h⟩
    · exact ⟨x, hx, hp⟩
  have hwill : ∀ {u : TaskId} {s s' : Session} {m : Option SendPub} {p : InPkt},
      Event.received t p ∉ willEvents u s s' m := by
    intro u s s' m p
    cases m <;> simp [willEvents]
  cases step_cases hs with
  | idle => exact ⟨⟨x, hx, hp⟩, by simp⟩
  | fresh => exact ⟨keep rfl fun h => absurd h hnew, by simp⟩
  | stillborn => exact ⟨keep rfl fun h => absurd h hnew, by simp⟩
  | wait => exact ⟨keep rfl fun h => absurd h hnew, by simp⟩
  | locked => exact ⟨keep rfl fun h => absurd h hnew, by simp⟩
  | accept u env y old level hy hst hw s0 present h0 s out hs =>
    exact ⟨keep rfl fun h => absurd h (ne hy (by rw [hst]; rfl)), by cases present <;> simp⟩
  | refused u env wr y old level hy hst => exact ⟨keep rfl fun _ => rfl, by simp⟩
  | packet u env after size p y s hy hst hd r hr hroom =>
    have := ne hy (by rw [hst]; rfl)
    exact ⟨keep rfl fun h => absurd h this, by simp [Ne.symm this]⟩
  | normalOn u env y s hy hst hd src m rest hin =>
    exact ⟨keep rfl fun h => absurd h (ne hy (by rw [hst]; rfl)), by simp⟩
  | normalOff u env y s hy hst hd src m rest hin => exact ⟨keep rfl fun _ => rfl, by simp⟩
  | handOn u env y s hy hst b z q hq hz =>
    exact ⟨keep2 rfl rfl (ne hz (by rw [asked_waiting hi hq hz]; rfl)), by simp⟩
  | handOff u env y s hy hst hd b z q hq hz msgs inbox hm =>
    exact ⟨keep2 rfl rfl (ne hz (by rw [asked_waiting hi hq hz]; rfl)), by simp⟩
  | deny u env y s hy hst pr b z q hq hpr hz => exact ⟨keep rfl fun _ => rfl, by simp⟩
  | ignored => exact ⟨⟨x, hx, hp⟩, by simp⟩
  | kicked => exact ⟨keep rfl fun _ => rfl, by simp⟩
  | expire => exact ⟨keep rfl fun _ => rfl, by simp [hwill]⟩
  | lateWill => exact ⟨keep rfl fun _ => rfl, fun _ => hwill⟩
  | lose => exact ⟨keep rfl fun _ => rfl, by simp⟩
  | closeQuiet => exact ⟨keep rfl fun _ => rfl, by simp⟩
  | closeWill => exact ⟨keep rfl fun _ => rfl, by simp [hwill]⟩
  | closeDelayed => exact ⟨keep rfl fun _ => rfl, by simp⟩
  | push u d y s hy hst m rest hq hk =>
    refine ⟨keep rfl fun h => ?_, by simp⟩
    subst h
    rw [hx] at hy
    cases hy
    cases hh : x.stage <;> rw [hh] at hp <;> simp [Stage.over] at hp <;> rfl
  | flush u d y hy m q hk hin hl =>
    refine ⟨keep rfl fun h => ?_, by simp⟩
    subst h
    rw [hx] at hy
    cases hy
    exact hp
  | giveUp u d y s hy hst hin =>
    refine ⟨keep rfl fun h => ?_, by simp⟩
    subst h
    rw [hx] at hy
    cases hy
    cases hh : x.stage <;> rw [hh] at hp <;> simp [Stage.over] at hp <;> rfl
  | remove => exact ⟨keep rfl fun _ => rfl, by simp⟩
  | rest => exact ⟨keep rfl fun _ => rfl, by simp⟩
  | fire i tm ht _ hw => rcases hw with ⟨rfl, _⟩ | ⟨q, _, _, rfl⟩ <;> exact ⟨⟨x, hx, hp⟩, by simp⟩
  | kick => exact ⟨⟨x, hx, hp⟩, by simp⟩

/-- A client whose receivers are dropped. -/
def World.deaf (w : World) (d : ClientId) : Prop :=
  w.inbox.contains d = false ∧ d < w.registry.nextId

theorem deaf_step (hi : OInv w) {d : ClientId} (h : w.deaf d) {a : Act}
    (hs : w.step cfg ext a = some (w', e)) : w'.deaf d := by
  obtain ⟨h1, h2⟩ := h
  have hcl : ∀ {u : TaskId} {y : Task} {s : Session}, w.tasks.get u = some y →
      y.stage.session? = some s → s.clientId ≠ d := by
    intro u y s hy hst hid
    have := hi.held u s.clientId (by rw [(Tasks.views hy).1, hst]; rfl)
    rw [hid, h1] at this; cases this
  have hin : ∀ {d' : ClientId} {q q' : List (TaskId × NormalMsg)}, w.inbox.get d' = some q →
      (w.inbox.insert d' q').contains d = false := by
    intro d' q q' hd
    rw [contains_rest hd]; exact h1
  cases step_cases hs with
  | fresh req env r id' hadd hw s out hs =>
    cases hi.reg.add_cases hadd with
    | new hnone => constructor <;> grind
  | stillborn req env wr r id' hadd =>
    cases hi.reg.add_cases hadd with
    | new hnone => constructor <;> grind
  | wait req env wr r id' q hadd hq =>
    cases hi.reg.add_cases hadd with
    | present id on g1 g2 => exact ⟨h1, h2⟩
  | locked req env wr r id' hadd hq =>
    cases hi.reg.add_cases hadd with
    | present id on g1 g2 => exact ⟨h1, h2⟩
  | refused u env wr y old level hy hst' => constructor <;> grind
  | normalOn u env y s hy hst' hd src m rest hi => exact ⟨hin hi, h2⟩
  | normalOff u env y s hy hst' hd src m rest hi => exact ⟨hin hi, h2⟩
  | handOff u env y s hy hst' hd b z q hq hz msgs inbox hm =>
    refine ⟨?_, h2⟩
    rcases hm with ⟨_, _, rfl⟩ | ⟨_, _, rfl⟩
    · have := hcl hy (s := s) (by rw [hst']; rfl)
      simp only
      rw [Registry.contains_insert, h1]
      simp [Ne.symm this]
    · exact h1
  | expire u env y s hy hst' hd time q hq hpr ht s' g m hw r route hrem =>
    exact ⟨h1, by simp only; rw [(hi.reg.removed hrem).2.1]; exact h2⟩
  | flush u d y hy m q hk hi hl => exact ⟨hin hi, h2⟩
  | remove u y s hy hst' hd r route hrem =>
    exact ⟨by grind, by simp only; rw [(hi.reg.removed hrem).2.1]; exact h2⟩
  | rest u y s hy hst' hd he r hr timers htm =>
    exact ⟨h1, by simp only; rw [(Registry.Inv.offline_get hr).2]; exact h2⟩
  | fire i tm ht _ hw => rcases hw with ⟨rfl, _⟩ | ⟨q, _, _, rfl⟩ <;> exact ⟨h1, h2⟩
  | _ => exact ⟨h1, h2⟩

theorem Reached.room (h : Reached cfg ext w) : RoomInv w := by
  obtain ⟨acts, evs, h⟩ := h
  exact room_run h

theorem deaf_run {d : ClientId} {acts : List Act} : ∀ {w : World} {e : List Event},
    Reached cfg ext w → w.deaf d → w.run cfg ext acts = some (w', e) → w'.deaf d := by
  induction acts with
  | nil =>
    intro w e _ h hs
    cases hs
    exact h
  | cons a acts ih =>
    intro w e hr h hs
    obtain ⟨w1, e1, e2, h1, h2, rfl⟩ := run_uncons_world hs
    exact ih (hr.step h1) (deaf_step hr.sound.own h h1) h2

theorem held_step (hi : OInv w) (he : EarlyInv w) (hr : RoomInv w) {t : TaskId} {d : ClientId}
    (h : w.heldUp t d) {a : Act} (hs : w.step cfg ext a = some (w', e))
    (hno : ∀ u src m, .took u d src m ∉ e) :
    (w'.heldUp t d ∨ w'.over t ∨ w'.deaf d) ∧ ∀ p, .received t p ∉ e := by
  obtain ⟨⟨s0, hs0⟩, hlen, q0, hq0, hl0⟩ := h
  obtain ⟨x, hx, hst⟩ := online_stage hs0
  have ne : ∀ {u : TaskId} {y : Task}, w.tasks.get u = some y → y.stage ≠ .online s0 → u ≠ t := by
    rintro u y hy h rfl
    rw [hx] at hy
    cases hy
    exact h hst
  have hdc : w.inbox.contains d = true := by
    unfold FMap.contains; rw [hq0]; rfl
  have hnew : w.nextTask ≠ t := by
    intro h
    have := new_task hi
    rw [h, hx] at this; cases this
  have hbelow : d < w.registry.nextId := by
    obtain ⟨n, hn⟩ := hi.inbox d hdc
    exact hi.below n d hn
  have keep : ∀ {W : World}, W.tasks.get t = w.tasks.get t → W.inbox.get d = w.inbox.get d →
      W.heldUp t d := by
    intro W h1 h2
    refine ⟨⟨s0, ?_⟩, ?_, q0, h2.trans hq0, hl0⟩
    · unfold World.onlineSession at hs0 ⊢
      rw [h1]; exact hs0
    · rw [onTheWay_congr h1]; exact hlen
  have put : ∀ {u : TaskId} {y : Task} {W : World}, W.tasks = w.tasks.insert u y →
      W.inbox = w.inbox → (u = t → y.stage.over = true) → W.heldUp t d ∨ W.over t ∨ W.deaf d := by
    intro u y W h1 h2 h3
    by_cases hu : u = t
    · exact .inr (.inl ⟨y, by rw [h1, hu, FMap.get_insert_self], h3 hu⟩)
    · exact .inl (keep (by rw [h1, FMap.get_insert_ne _ _ hu]) (by rw [h2]))
  have other : ∀ {u : TaskId} {y : Task} {W : World}, W.tasks = w.tasks.insert u y →
      W.inbox.get d = w.inbox.get d → u ≠ t → W.heldUp t d ∨ W.over t ∨ W.deaf d :=
    fun h1 h2 h3 => .inl (keep (by rw [h1, FMap.get_insert_ne _ _ h3]) h2)
  have erased : ∀ {u : TaskId} {y : Task} {c : ClientId} {W : World},
      W.tasks = w.tasks.insert u y → W.inbox = w.inbox.erase c → u ≠ t →
      W.registry.nextId = w.registry.nextId → W.heldUp t d ∨ W.over t ∨ W.deaf d := by
    intro u y c W h1 h2 h3 h4
    by_cases hc : c = d
    · refine .inr (.inr ⟨?_, by rw [h4]; exact hbelow⟩)
      unfold FMap.contains
      rw [h2, FMap.get_erase, if_pos hc]; rfl
    · refine other h1 ?_ h3
      rw [h2, FMap.get_erase, if_neg hc]
  have moved : ∀ {W : World} {E : List Event} {d' : ClientId}, Moved t d' w W E →
      W.inbox.get d = w.inbox.get d → tookFrom t d E = [] → W.heldUp t d := by
    intro W E d' hm hin htk
    obtain ⟨s', hs', _⟩ := hm.calm.online hs0
    refine ⟨⟨s', hs'⟩, ?_, q0, hin.trans hq0, hl0⟩
    by_cases hd : d' = d
    · subst hd
      have := hm.flow hdc
      rw [htk, inboxFrom_congr hin, List.nil_append] at this
      rw [List.append_cancel_left this]; exact hlen
    · rw [(hm.other d (Ne.symm hd)).2.1]; exact hlen
  have hwill : ∀ {u : TaskId} {s s' : Session} {m : Option SendPub} {p : InPkt},
      Event.received t p ∉ willEvents u s s' m := by
    intro u s s' m p
    cases m <;> simp [willEvents]
  have hc := step_cases hs
  cases hc with
  | idle => exact ⟨.inl (keep rfl rfl), by simp⟩
  | fresh req env r id hadd hw s out hs =>
    refine ⟨other rfl ?_ hnew, by simp⟩
    cases hi.reg.add_cases hadd with
    | new hnone => exact FMap.get_insert_ne _ _ (Nat.ne_of_gt hbelow)
  | stillborn req env wr r id hadd =>
    refine ⟨other rfl ?_ hnew, by simp⟩
    cases hi.reg.add_cases hadd with
    | new hnone =>
      simp only
      rw [FMap.get_erase, if_neg (Nat.ne_of_gt hbelow), FMap.get_insert_ne _ _ (Nat.ne_of_gt hbelow)]
  | wait => exact ⟨other rfl rfl hnew, by simp⟩
  | locked => exact ⟨other rfl rfl hnew, by simp⟩
  | accept u env y old level hy hst1 hw s1 present h0 s out hs =>
    exact ⟨other rfl rfl (ne hy (by rw [hst1]; simp)), by cases present <;> simp⟩
  | refused u env wr y old level hy hst1 =>
    exact ⟨erased rfl rfl (ne hy (by rw [hst1]; simp)) rfl, by simp⟩
  | packet u env after size p y s hy hst1 hd r hpk hroom =>
    have hu : u ≠ t := by
      rintro rfl
      rw [hx] at hy
      cases hy
      rw [hst] at hst1
      cases hst1
      have hcnt := hr.count u x hx
      rw [hst] at hcnt
      have := (fewer_iff (s := s0) hcnt bcastMax).2 hroom [d] (by simp)
      rw [onTheWay_of hx] at hlen
      unfold Task.carries at hlen
      rw [hst, List.length_append] at hlen
      have h1 : ((x.sinks.get d).toList).length ≤ 1 := by
        cases x.sinks.get d <;> simp
      simp [totalFor, bcastMax] at this
      simp [Stage.carried] at hlen
      omega
    exact ⟨other rfl rfl hu, by simp [Ne.symm hu]⟩
  | normalOn u env y s hy hst1 hd src m rest hin =>
    have hne : s.clientId ≠ d := by
      rintro rfl
      exact hno u src m (by simp)
    refine ⟨.inl (moved (moved_step (d := s.clientId) hi he (.inr (.inr (.inr ⟨u, env, rfl,
      takes_iff.2 ⟨y, s, hy, rfl, .inl ⟨hst1, hd⟩⟩⟩))) hs) (FMap.get_insert_ne _ _ hne) ?_), by simp⟩
    simp [tookFrom, hne]
  | normalOff u env y s hy hst1 hd src m rest hin =>
    have hne : s.clientId ≠ d := by
      rintro rfl
      exact hno u src m (by simp)
    exact ⟨other rfl (FMap.get_insert_ne _ _ hne) (ne hy (by rw [hst1]; simp)), by simp⟩
  | handOn u env y s hy hst1 b z q hq hz =>
    have hb : b ≠ t := ne hz (by rw [asked_waiting hi hq hz]; simp)
    refine ⟨?_, by simp⟩
    by_cases hu : u = t
    · refine .inr (.inl ⟨_, by simp only; rw [FMap.get_insert_ne _ _ hb, hu, FMap.get_insert_self], rfl⟩)
    · exact .inl (keep (by simp only; rw [FMap.get_insert_ne _ _ hb, FMap.get_insert_ne _ _ hu]) rfl)
  | handOff u env y s hy hst1 hd b z q hq hz msgs inbox hm =>
    have hb : b ≠ t := ne hz (by rw [asked_waiting hi hq hz]; simp)
    have hu : u ≠ t := ne hy (by rw [hst1]; simp)
    refine ⟨.inl (keep (by simp only; rw [FMap.get_insert_ne _ _ hb, FMap.get_insert_ne _ _ hu]) ?_),
      by simp⟩
    rcases hm with ⟨_, rfl, rfl⟩ | ⟨_, _, rfl⟩
    · refine FMap.get_insert_ne _ _ ?_
      rintro rfl
      rw [hq0] at hno
      cases q0 with
      | nil => cases hl0
      | cons e0 q1 => exact hno u e0.1 e0.2 (by simp)
    · rfl
  | deny u env y s hy hst1 pr b z q hq hpr hz =>
    exact ⟨other rfl rfl (ne hz (by rw [asked_waiting hi hq hz]; simp)), by simp⟩
  | ignored => exact ⟨.inl (keep rfl rfl), by simp⟩
  | kicked => exact ⟨put rfl rfl fun _ => rfl, by simp⟩
  | expire u env y s hy hst1 => exact ⟨put rfl rfl fun _ => rfl, by simp [hwill]⟩
  | lateWill => exact ⟨put rfl rfl fun _ => rfl, fun _ => hwill⟩
  | lose => exact ⟨put rfl rfl fun _ => rfl, by simp⟩
  | closeQuiet => exact ⟨put rfl rfl fun _ => rfl, by simp⟩
  | closeWill => exact ⟨put rfl rfl fun _ => rfl, by simp [hwill]⟩
  | closeDelayed => exact ⟨put rfl rfl fun _ => rfl, by simp⟩
  | push u d' y s hy hst1 m rest hq hk =>
    refine ⟨?_, by simp⟩
    by_cases hu : u = t
    · subst hu
      exact .inl (moved (moved_step hi he (.inl rfl) hs) rfl rfl)
    · exact other rfl rfl hu
  | flush u d' y hy m q hk hin hl =>
    have hne : d' ≠ d := by
      rintro rfl
      rw [hq0] at hin
      cases hin
      simp [inboxSize, hl0] at hl
    refine ⟨?_, by simp⟩
    by_cases hu : u = t
    · subst hu
      exact .inl (moved (moved_step hi he (.inr (.inl rfl)) hs) (FMap.get_insert_ne _ _ hne) rfl)
    · exact other rfl (FMap.get_insert_ne _ _ hne) hu
  | giveUp u d' y s hy hst1 hin =>
    refine ⟨?_, by simp⟩
    by_cases hu : u = t
    · subst hu
      exact .inl (moved (moved_step hi he (.inr (.inr (.inl rfl))) hs) rfl rfl)
    · exact other rfl rfl hu
  | remove u y s hy hst1 hd r route hrem =>
    refine ⟨erased rfl rfl (ne hy ?_) (hi.reg.removed hrem).2.1, by simp⟩
    rcases hst1 with ⟨h, _⟩ | h <;> rw [h] <;> simp
  | rest u y s hy hst1 => exact ⟨put rfl rfl fun _ => rfl, by simp⟩
  | fire i tm ht _ hw =>
    rcases hw with ⟨rfl, _⟩ | ⟨q, _, _, rfl⟩ <;> exact ⟨.inl (keep rfl rfl), by simp⟩
  | kick => exact ⟨.inl (keep rfl rfl), by simp⟩

theorem held_run {t : TaskId} {d : ClientId} {acts : List Act} :
    ∀ {w : World} {e : List Event}, Reached cfg ext w → w.heldUp t d ∨ w.over t ∨ w.deaf d →
      w.run cfg ext acts = some (w', e) → (∀ u src m, .took u d src m ∉ e) →
      w'.inbox.contains d = true → ∀ p, .received t p ∉ e := by
  induction acts with
  | nil =>
    intro w e _ _ hs _ _
    cases hs
    simp
  | cons a acts ih =>
    intro w e hr h hs hno hd
    obtain ⟨w1, e1, e2, h1, h2, rfl⟩ := run_uncons_world hs
    have key : (w1.heldUp t d ∨ w1.over t ∨ w1.deaf d) ∧ (w.deaf d ∨ ∀ p, .received t p ∉ e1) := by
      rcases h with h | h | h
      · have := held_step hr.sound.own hr.sound.early hr.room h h1
          (fun u src m hm => hno u src m (List.mem_append_left _ hm))
        exact ⟨this.1, .inr this.2⟩
      · have := over_step hr.sound.own h h1
        exact ⟨.inr (.inl this.1), .inr this.2⟩
      · exact ⟨.inr (.inr (deaf_step hr.sound.own h h1)), .inl h⟩
    rcases key.2 with hde | hrc
    · exfalso
      have := deaf_run hr hde hs
      rw [this.1] at hd
      cases hd
    · intro p hp
      rcases List.mem_append.1 hp with hp | hp
      · exact hrc p hp
      · exact ih (hr.step h1) key.1 h2 (fun u src m hm => hno u src m (List.mem_append_right _ hm)) hd p hp

end Akasa
