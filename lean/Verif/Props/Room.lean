import Verif.Proof.WorldRoom
import Verif.Props.EndToEnd
import Verif.Props.Timers
/-!
# C72: the broker keeps few messages on their way

The whole broker with any number of connections.
-/
namespace Akasa

variable {cfg : Config} {ext : Ext} {w w' : World} {evs e : List Event}

/-- **C72, inboxes.**  No client ever has more than 8 messages in its inbox. -/
theorem C72_inbox {acts : List Act} (hrun : Reaches cfg ext acts w evs) {d : ClientId}
    {q : List (TaskId × NormalMsg)} (h : w.inbox.get d = some q) : q.length ≤ 8 :=
  (room_run hrun).inbox d q h

/-- A publisher has passed eight copies to a client that takes none; the ninth stays where it is. -/
def exFull : List Act :=
  exThird ++ (List.replicate 9 [exHello, .push 3 0, .flush 3 0, .giveUp 3 7, .push 3 1]).flatten

example : ∃ w evs q, Reaches {} exExt exFull w evs ∧ w.inbox.get 0 = some q ∧ q.length = 8 ∧
    (w.onTheWay 3 0).length = 1 :=
  ⟨_, _, _, rfl, rfl, rfl, rfl⟩

theorem queued_online {t : TaskId} {s : Session} (h : w.onlineSession t = some s) :
    w.queued t = s.queue := by
  funext d
  unfold World.queued
  rw [h]

theorem counted_online {acts : List Act} (hrun : Reaches cfg ext acts w evs) {t : TaskId}
    {s : Session} (h : w.onlineSession t = some s) : Counted s := by
  obtain ⟨x, hx, hst⟩ := online_stage h
  have := (room_run hrun).count t x hx
  rw [hst] at this
  exact this

/-- **C72, reading.**  An established connection that is not being closed reads a packet exactly when
fewer than 10 copies of messages it published wait to be passed on; otherwise the packet stays where
it is and nothing changes. -/
theorem C72_reads {acts : List Act} (hrun : Reaches cfg ext acts w evs) {t : TaskId} {s : Session}
    (hon : w.onlineSession t = some s) (hd : s.disconnected = false) {env : Env} {after : Clock}
    {size : Nat} {p : InPkt} (hs : w.step cfg ext (.packet t env after size p) = some (w', e)) :
    (.received t p ∈ e ↔ FewerThan 10 (w.queued t)) ∧
    (.received t p ∉ e → w' = w ∧ e = []) := by
  rw [queued_online hon, fewer_iff (counted_online hrun hon)]
  obtain ⟨x, hx, hst⟩ := online_stage hon
  simp only [World.step, World.packet, hx, hst, hd, Bool.false_or, decide_eq_true_eq] at hs
  split at hs
  · rename_i hn
    cases hs
    have : ¬ s.bcastCnt < 10 := Nat.not_lt.2 hn
    simp [this]
  · rename_i hn
    have : s.bcastCnt < 10 := Nat.lt_of_not_le hn
    split at hs
    · cases hs
    · cases hs
      simp [this]

/-- Each message makes two copies: the fifth is read, the sixth is not. -/
example : ∃ w evs s w' e, Reaches {} exExt (exThird ++ List.replicate 4 exHello) w evs ∧
    w.onlineSession 3 = some s ∧ s.disconnected = false ∧ w.step {} exExt exHello = some (w', e) ∧
    e.length = 4 ∧ w'.step {} exExt exHello = some (w', []) :=
  ⟨_, _, _, _, _, rfl, rfl, rfl, rfl, rfl, rfl⟩

theorem total_mono {ds : List ClientId} {f g : ClientId → List NormalMsg}
    (h : ∀ d, (f d).length ≤ (g d).length) : totalFor ds f ≤ totalFor ds g := by
  induction ds with
  | nil => exact Nat.le_refl _
  | cons d ds ih =>
    have := h d
    unfold totalFor at ih ⊢
    simp only [List.map_cons, List.sum_cons]
    omega

theorem total_append {ds : List ClientId} {f g k : ClientId → List NormalMsg}
    (h : ∀ d, k d = f d ++ g d) : totalFor ds k = totalFor ds f + totalFor ds g := by
  induction ds with
  | nil => rfl
  | cons d ds ih =>
    have := congrArg List.length (h d)
    rw [List.length_append] at this
    unfold totalFor at ih ⊢
    simp only [List.map_cons, List.sum_cons]
    omega

theorem fewer_mono {n : Nat} {f g : ClientId → List NormalMsg} (hf : FewerThan n g)
    (h : ∀ d, (f d).length ≤ (g d).length) : FewerThan n f :=
  fun ds hd => Nat.lt_of_le_of_lt (total_mono h) (hf ds hd)

/-- **C72, publishers.**  If no message published on a connection makes more than `k` copies, then
never more than `9 + k` copies wait on that connection while it is established. -/
theorem C72_bounded {acts : List Act} (hrun : Reaches cfg ext acts w evs) {t : TaskId} {k : Nat}
    (hk : ∀ ms, .queued t ms ∈ evs → FewerThan (k + 1) ms) : FewerThan (10 + k) (w.queued t) := by
  have key := world_induction (P := fun w evs => RoomInv w ∧
    ((∀ ms, .queued t ms ∈ evs → FewerThan (k + 1) ms) →
      ∀ x s, w.tasks.get t = some x → x.stage = .online s → FewerThan (10 + k) s.queue))
    ⟨.init, fun _ x s h => by cases h⟩ ?_ hrun
  · cases hon : w.onlineSession t with
    | none =>
      intro ds hd
      have : totalFor ds (w.queued t) = 0 := by
        unfold totalFor World.queued
        rw [hon]
        induction ds with
        | nil => rfl
        | cons d ds ih => simpa using ih (List.nodup_cons.1 hd).2
      omega
    | some s =>
      obtain ⟨x, hx, hst⟩ := online_stage hon
      rw [queued_online hon]
      exact key.2 hk x s hx hst
  · rintro w evs a w' e ⟨hi, ih⟩ hs
    have hc := step_cases hs
    refine ⟨room_step hi hc, fun hk => ?_⟩
    have ih := ih fun ms hm => hk ms (List.mem_append_left _ hm)
    have hk : ∀ ms, .queued t ms ∈ e → FewerThan (k + 1) ms :=
      fun ms hm => hk ms (List.mem_append_right _ hm)
    have hnil : ∀ {s : Session}, s.bcast = [] → FewerThan (10 + k) s.queue := by
      intro s hb ds hd
      have : totalFor ds s.queue = 0 := by
        have hq : s.queue = fun _ => [] := by
          funext d; unfold Session.queue; rw [hb]; rfl
        rw [hq]
        unfold totalFor
        clear hd
        induction ds with
        | nil => rfl
        | cons d ds ih => simpa using ih
      omega
    have one : ∀ {u : TaskId} {x' : Task},
        (∀ s, u = t → x'.stage = .online s → FewerThan (10 + k) s.queue) →
        ∀ x s, (w.tasks.insert u x').get t = some x → x.stage = .online s →
          FewerThan (10 + k) s.queue := by
      intro u x' h x s hx hst
      rw [FMap.get_insert] at hx
      split at hx
      · cases hx; exact h s ‹_› hst
      · exact ih x s hx hst
    have two : ∀ {u v : TaskId} {x' y' : Task},
        (∀ s, x'.stage ≠ .online s) → (∀ s, y'.stage ≠ .online s) →
        ∀ x s, ((w.tasks.insert u x').insert v y').get t = some x → x.stage = .online s →
          FewerThan (10 + k) s.queue := by
      intro u v x' y' h h' x s hx hst
      rw [FMap.get_insert] at hx
      split at hx
      · cases hx; exact absurd hst (h' s)
      · exact one (fun s _ hh => absurd hh (h s)) x s hx hst
    have same : ∀ {u : TaskId} {x : Task} {s s' : Session}, w.tasks.get u = some x → x.stage = .online s →
        s'.copies = s.copies → u = t → FewerThan (10 + k) s'.queue := by
      rintro u x s s' hx hst hc rfl
      have := ih x s hx hst
      rw [show s'.queue = s.queue from funext fun d => queue_of_copies hc d]
      exact this
    cases hc with
    | idle => exact ih
    | fresh req env r id hadd hw s out hp =>
      refine one fun s' _ hst => ?_
      cases hst
      exact hnil (by rw [pendings_bcast hp, start_bcast])
    | stillborn => exact one fun s' _ hst => by cases hst
    | wait => exact one fun s' _ hst => by cases hst
    | locked => exact one fun s' _ hst => by cases hst
    | accept u env x old level hx hst hw s0 present h0 s out hp =>
      refine one fun s' _ hst => ?_
      cases hst
      exact hnil (by rw [pendings_bcast hp, session_bcast h0])
    | refused => exact one fun s' _ hst => by cases hst
    | packet u env after size p x s hx hst hd r hr hroom =>
      refine one fun s' hu hst' => ?_
      subst hu
      have hs' : s' = r.session := by
        simp only at hst'
        split at hst'
        · cases hst'
        · cases hst'; rfl
      subst hs'
      have hcount : Counted s := by
        have := hi.count _ _ hx
        rw [hst] at this
        exact this
      have h1 := (fewer_iff hcount 10).2 hroom
      have h2 := hk (newCopies s r.session) (by simp)
      have h3 := (pushed_onPacket hr).grown
      intro ds hds
      rw [total_append (fun d => h3.newCopies d)]
      have := h1 ds hds
      have := h2 ds hds
      omega
    | normalOn u env x s hx hst hd src m rest hi' =>
      refine one fun s' hu hst' => ?_
      cases hst'
      exact same hx hst (copies_onNormal ..) hu
    | normalOff => exact one fun s' _ hst => by cases hst
    | handOn => exact two (fun s hh => by cases hh) (fun s hh => by cases hh)
    | handOff => exact two (fun s hh => by cases hh) (fun s hh => by cases hh)
    | deny => exact one fun s' _ hst => by cases hst
    | ignored => exact ih
    | kicked => exact one fun s' _ hst => by cases hst
    | expire => exact one fun s' _ hst => by cases hst
    | lateWill => exact one fun s' _ hst => by cases hst
    | lose => exact one fun s' _ hst => by cases hst
    | closeQuiet => exact one fun s' _ hst => by cases hst
    | closeWill => exact one fun s' _ hst => by cases hst
    | closeDelayed => exact one fun s' _ hst => by cases hst
    | push u d x s hx hst m rest hq hkk =>
      refine one fun s' hu hst' => ?_
      subst hu
      have hon : x.stage = .online s ∧ s' = { s with
          bcast := if rest.isEmpty then s.bcast.erase d else s.bcast.insert d rest
          bcastCnt := s.bcastCnt - 1 } := by
        cases hh : x.stage <;> rw [hh] at hst hst' <;>
          simp only [Stage.setSession, Stage.sending?, Option.some.injEq, reduceCtorEq,
            Stage.online.injEq] at hst hst'
        subst hst
        exact ⟨rfl, hst'.symm⟩
      obtain ⟨hon, rfl⟩ := hon
      refine fewer_mono (ih x s hx hon) fun d' => ?_
      by_cases hd : d = d'
      · subst hd
        rw [hq]
        cases rest <;> simp [Session.queue]
      · cases rest <;> simp [Session.queue, FMap.get_erase, FMap.get_insert, hd]
    | flush u d x hx m q hkk hii hl =>
      refine one fun s' hu hst' => ?_
      subst hu
      exact ih x s' hx hst'
    | giveUp u d x s hx hst hii =>
      refine one fun s' hu hst' => ?_
      subst hu
      have hon : x.stage = .online s ∧ s' = { s with
          bcast := s.bcast.erase d, bcastCnt := s.bcastCnt - (s.queue d).length } := by
        cases hh : x.stage <;> rw [hh] at hst hst' <;>
          simp only [Stage.setSession, Stage.sending?, Option.some.injEq, reduceCtorEq,
            Stage.online.injEq] at hst hst'
        subst hst
        exact ⟨rfl, hst'.symm⟩
      obtain ⟨hon, rfl⟩ := hon
      refine fewer_mono (ih x s hx hon) fun d' => ?_
      simp only [Session.queue, FMap.get_erase]
      split
      · simp
      · exact Nat.le_refl _
    | remove => exact one fun s' _ hst => by cases hst
    | rest => exact one fun s' _ hst => by cases hst
    | fire i tm ht w' hw => rcases hw with ⟨rfl, _⟩ | ⟨q, _, _, rfl⟩ <;> exact ih
    | kick => exact ih

/-- Each message makes two copies, for the clients 0 and 1; ten of them wait. -/
example : ∃ w evs, Reaches {} exExt (exThird ++ List.replicate 6 exHello) w evs ∧
    totalFor [0, 1] (w.queued 3) = 10 ∧
    (evs.filterMap fun e =>
      match e with
      | .queued 3 ms => some (totalFor [0, 1] ms, totalFor [2, 3, 4] ms)
      | _ => none) = List.replicate 5 (2, 0) :=
  ⟨_, _, rfl, rfl, rfl⟩

end Akasa
