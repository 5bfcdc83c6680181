import Verif.Props.Agree
import Verif.Props.Leftover
/-!
# C33, C104: what becomes of the subscriptions of a dropped session

`C33_false` and `C104_false` have one run each.  Here it is shown that it always happens: whenever a
session is dropped by a new connection of its client, all its subscriptions stay in the routing table.
-/
namespace Akasa

variable {cfg : Config} {ext : Ext} {w w' w'' : World} {evs e : List Event}

/-- How a session can be dropped by a new connection. -/
theorem drop_cases {a : Act} (hc : WCase cfg ext w a w' e) {t : TaskId} {old : Session}
    (hd : .discarded t old ∈ e) :
    ∃ x level y, w.tasks.get t = some x ∧ x.stage = .granted old level ∧
      w'.tasks = w.tasks.insert t y ∧ w'.route = w.route ∧ w'.registry = w.registry ∧
      (y.stage = .gone ∨ .accepted t false ∈ e ∧ ∃ s, y.stage = .online s ∧ s.subscribes = []) := by
  have hw : ∀ {t' : TaskId} {s s' : Session} {m : Option SendPub},
      Event.discarded t old ∉ willEvents t' s s' m := by
    intro t' s s' m h
    cases m <;> simp [willEvents] at h
  cases hc with
  | accept t' env x old' level hx hst hwr s0 present h0 s out hs =>
    have hp : present = false := by
      cases present with
      | false => rfl
      | true => simp at hd
    subst hp
    simp at hd
    obtain ⟨rfl, rfl⟩ := hd
    refine ⟨x, level, _, hx, hst, rfl, rfl, rfl, .inr ⟨by simp, s, rfl, ?_⟩⟩
    have h1 := (pendings_same hs).subs
    unfold Request.session at h0
    split at h0
    · cases h0
    · cases h0
      rw [h1, start_subs]
  | refused t' env wr x old' level hx hst =>
    simp at hd
    obtain ⟨rfl, rfl⟩ := hd
    exact ⟨x, level, _, hx, hst, rfl, rfl, rfl, .inl rfl⟩
  | expire t env x s hx hst hd' time q hq' hpr ht s' g m hw' r route hrem =>
    rw [List.mem_append] at hd
    exact hd.elim (fun hh => absurd hh hw) (fun hh => by simp at hh)
  | lateWill t env x s hx hst hd' time q hq' hpr ht s' g m hw' => exact absurd hd hw
  | closeWill t env lost x s hx hst hd' hp s' g m hw' =>
    rw [List.mem_cons] at hd
    exact hd.elim (fun hh => by cases hh) (fun hh => absurd hh hw)
  | _ => simp at hd

/-- **C33, dropped sessions.**  Whenever a new connection of a client drops its session, every message
whose topic matches a plain filter of that session still finds the client in the routing table, with the
QoS it had, though no session of the client lists the filter any more. -/
theorem C33_dropped {acts : List Act} (hrun : Reaches cfg ext acts w evs) {a : Act}
    (hs : w.step cfg ext a = some (w', e)) {t : TaskId} {old : Session} (hd : .discarded t old ∈ e)
    {F : Str} {d : SubData} (hl : old.subscribes.get F = some d) (hp : IsPlain F) {topic : Str}
    (hv : ValidTopic topic) (hm : Matches F topic) :
    w'.routes topic F old.clientId d.opts.maxQos ∧ ∀ q, ¬ w'.lists F old.clientId q := by
  have hb := (BrokerInv.run hrun).own
  obtain ⟨x, level, y, hx, hst, ht, hr, -, hy⟩ := drop_cases (step_cases hs) hd
  have howned : w.owned t = some old := by rw [owned_of hx, hst]; rfl
  constructor
  · unfold World.routes
    rw [hr]
    exact C33_listed hrun ⟨t, old, d, howned, rfl, hl, rfl⟩ hp hv hm
  · rintro q ⟨u, s, d', h1, h2, h3, -⟩
    obtain ⟨z, hz, hzs⟩ := owned_stage h1
    rw [ht, FMap.get_insert] at hz
    split at hz
    · cases hz
      rcases hy with hy | ⟨-, s', hy, he⟩
      · rw [hy] at hzs; cases hzs
      · rw [hy] at hzs
        cases hzs
        rw [he] at h3
        cases h3
    · rename_i hne
      have hcu : Tasks.client w.tasks u = some old.clientId := by
        rw [(Tasks.views hz).1, ← h2]
        cases hzst : z.stage <;> rw [hzst] at hzs <;> cases hzs <;> rfl
      have hct : Tasks.client w.tasks t = some old.clientId := by
        rw [(Tasks.views hx).1, hst]; rfl
      exact hne (hb.uniq t u _ hct hcu)

/-- A client with a subscription asks for a clean session. -/
example : ∃ w evs w' e old d, Reaches {} exExt exClean.dropLast w evs ∧
    w.step {} exExt (.accept 2 {} true) = some (w', e) ∧ .discarded 2 old ∈ e ∧
    old.subscribes.get (str "a") = some d ∧ d.opts.maxQos = 1 ∧ IsPlain (str "a") ∧
    ValidTopic (str "a") ∧ Matches (str "a") (str "a") :=
  ⟨_, _, _, _, _, _, rfl, rfl, .head _, rfl, rfl, by decide, by unfold ValidTopic; decide,
    .same _ .done, by decide⟩

/-- **C104, dropped sessions.**  If moreover the new connection is not accepted, because its will is
refused or its CONNACK cannot be written, the subscriptions stay whatever happens afterwards. -/
theorem C104_dropped {acts acts' : List Act} (hrun : Reaches cfg ext acts w evs) {a : Act}
    (hs : w.step cfg ext a = some (w', e)) {t : TaskId} {old : Session} (hd : .discarded t old ∈ e)
    (hna : .accepted t false ∉ e) {e' : List Event}
    (hrun' : World.run cfg ext w' acts' = some (w'', e')) :
    ¬ w''.serves old.clientId ∧
      ∀ (F topic : Str) (d : SubData), old.subscribes.get F = some d → IsPlain F → ValidTopic topic →
        Matches F topic → w''.routes topic F old.clientId d.opts.maxQos := by
  have hb := (BrokerInv.run hrun).own
  obtain ⟨x, level, y, hx, hst, ht, hr, hreg, hy⟩ := drop_cases (step_cases hs) hd
  have hct : Tasks.client w.tasks t = some old.clientId := by
    rw [(Tasks.views hx).1, hst]; rfl
  have hn : ¬ w'.serves old.clientId := by
    rw [serves_iff]
    rintro ⟨u, hu⟩
    rcases hy with hy | ⟨hy, -⟩
    · unfold Tasks.client at hu
      rw [ht, FMap.get_insert] at hu
      split at hu
      · rw [Option.bind_some, hy] at hu; cases hu
      · rename_i hne
        exact hne (hb.uniq t u _ hct hu)
    · exact hna hy
  have hrun1 : Reaches cfg ext (acts ++ [a]) w' (evs ++ e) := run_snoc_world.2 ⟨w, evs, e, hrun, hs, rfl⟩
  obtain ⟨h1, h2⟩ := C104_stays hrun1 (id := old.clientId)
    (by unfold World.gaveOut; rw [hreg]; exact hb.below t _ hct) hn hrun'
  exact ⟨h1, fun F topic d hl hp hv hm => (h2 _ _ _ hv).2 (C33_dropped hrun hs hd hl hp hv hm).1⟩

/-- The CONNACK of such a connection cannot be written. -/
example : ∃ w evs w' e old d, Reaches {} exExt exClean.dropLast w evs ∧
    w.step {} exExt (.accept 2 {} false) = some (w', e) ∧ .discarded 2 old ∈ e ∧
    .accepted 2 false ∉ e ∧ old.subscribes.get (str "a") = some d :=
  ⟨_, _, _, _, _, _, rfl, rfl, .head _, (fun h => by cases h with | tail _ h => cases h), rfl⟩

end Akasa
