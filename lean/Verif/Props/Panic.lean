import Verif.Proof.WorldToken
import Verif.Props.EndToEnd
import Verif.Props.Ending
/-!
# C73: no client can make the broker panic

The whole broker with any number of connections, any packets, any order of steps.
-/
namespace Akasa

variable {cfg : Config} {ext : Ext} {w w' : World} {evs e : List Event}

theorem tokens_run {acts : List Act} (hrun : Reaches cfg ext acts w evs) :
    ∃ toks, TokInv w toks := by
  have key := world_induction (P := fun w _ => BrokerInv w ∧ ∃ toks, TokInv w toks)
    ⟨BrokerInv.init, [], TokInv.init⟩
    (fun w evs a w' e h hs => by
      obtain ⟨hb, toks, ht⟩ := h
      exact ⟨hb.step hs, ht.case hb.own (step_cases hs)⟩) hrun
  exact key.2

/-- The full claim: no sequence of packets with valid filters makes the broker panic. -/
def NeverPanics (cfg : Config) (ext : Ext) : Prop :=
  ∀ acts : List Act, (∀ a ∈ acts, a.validFilters) → ∃ w evs, Reaches cfg ext acts w evs

/-- Two MQTT 5 clients join a shared subscription, the second leaves it and joins again. -/
def exRejoin : List Act :=
  [.connect { level := .v500, identifier := str "p", clean := true } {} true,
   .connect { level := .v500, identifier := str "q", clean := true } {} true,
   .packet 0 {} (Clock.const 0) 10 (.subscribe 1 [(str "$share/g/x", { maxQos := 1 })] none),
   .packet 1 {} (Clock.const 0) 10 (.subscribe 1 [(str "$share/g/x", { maxQos := 1 })] none),
   .packet 1 {} (Clock.const 0) 10 (.unsubscribe 2 [str "$share/g/x"]),
   .packet 1 {} (Clock.const 0) 10 (.subscribe 3 [(str "$share/g/x", { maxQos := 1 })] none)]

theorem rejoin_panics : World.run {} exExt {} exRejoin = none := by decide +kernel

/-- The full C73 is false of the code: with the default configuration a client that leaves a shared
subscription and joins it again makes the broker panic (`route.rs:261`). -/
theorem C73_false : ¬ NeverPanics {} exExt := by
  intro h
  obtain ⟨w, evs, hr⟩ := h exRejoin (by decide)
  unfold Reaches at hr
  rw [rejoin_panics] at hr
  cases hr

/-- Three MQTT 5 clients share a subscription; the connection of the last breaks and its session
expires. -/
def exExpireShared : List Act :=
  [.connect { level := .v500, identifier := str "p", clean := true } {} true,
   .connect { level := .v500, identifier := str "q", clean := true } {} true,
   .connect { level := .v500, identifier := str "r", clean := true
              params := { expiryInterval := 5 } } {} true,
   .packet 0 {} (Clock.const 0) 10 (.subscribe 1 [(str "$share/g/x", { maxQos := 1 })] none),
   .packet 1 {} (Clock.const 0) 10 (.subscribe 1 [(str "$share/g/x", { maxQos := 1 })] none),
   .packet 2 {} (Clock.const 0) 10 (.subscribe 1 [(str "$share/g/x", { maxQos := 1 })] none),
   .lose 2, .close 2 {} [], .finish 2, .fire 0, .control 2 {}, .finish 2]

/-- Nor does it take a client that comes back: the session of a member expires. -/
theorem C73_expiry_false : ¬ NeverPanics {} exExt := by
  intro h
  obtain ⟨w, evs, hr⟩ := h exExpireShared (by decide)
  have hn : World.run {} exExt {} exExpireShared = none := by decide +kernel
  unfold Reaches at hr
  rw [hn] at hr
  cases hr

/-- **C73, partial**: if shared subscriptions are switched off, or no client asks for one, then
nothing makes the broker panic: neither the tables nor the registry nor the handling of timers.
Missing: shared subscriptions, where the claim is false (`C73_false`, `C73_expiry_false`). -/
theorem C73_no_panic_partial {acts : List Act} (hv : ∀ a ∈ acts, a.validFilters)
    (hs : cfg.sharedAvailable = false ∨ ∀ a ∈ acts, a.noShared) :
    ∃ w evs, Reaches cfg ext acts w evs := by
  have harm : ∀ a ∈ acts, a.harmless cfg := by
    intro a ha
    have h1 := hv a ha
    have h2 := hs.imp_right fun h => h a ha
    cases a with
    | packet t env after size p =>
      cases p with
      | subscribe pid ts id =>
        intro en hen
        exact ⟨h1 en hen, h2.imp_right fun h => h en hen⟩
      | _ => trivial
    | _ => trivial
  suffices h : ∃ w evs, Reaches cfg ext acts w evs ∧ PlainRoute w.route from
    let ⟨w, evs, h1, _⟩ := h; ⟨w, evs, h1⟩
  clear hv hs
  induction acts using snoc_induction with
  | nil => exact ⟨_, _, rfl, PlainRoute.empty⟩
  | snoc acts a ih =>
    obtain ⟨w, evs, hr, hp⟩ := ih fun b hb => harm b (by simp [hb])
    obtain ⟨toks, ht⟩ := tokens_run hr
    obtain ⟨w', e, h1, h2⟩ := step_some (ext := ext) ht (BrokerInv.run hr) hp
      (harm a (by simp))
    exact ⟨w', evs ++ e, run_snoc_world.mpr ⟨w, evs, e, hr, h1, rfl⟩, h2⟩

/-- With the same packets the broker does not panic if shared subscriptions are switched off, and
other subscriptions may come, go and expire. -/
example : (∃ w evs, Reaches { sharedAvailable := false } exExt exRejoin w evs) ∧
    (∃ w evs, Reaches { sharedAvailable := false } exExt exExpireShared w evs) ∧
    (∃ w evs, Reaches {} exExt (exTwice .v500) w evs) :=
  ⟨C73_no_panic_partial (by decide) (.inl rfl), C73_no_panic_partial (by decide) (.inl rfl),
    C73_no_panic_partial (by decide) (.inr (by decide))⟩

/-- **C73, registry.**  Whatever the clients do (shared subscriptions or not), the assertions of the
registry hold: `add_client` finds its client, a client can be removed at any time, and the counter is
not zero when a connection ends. -/
theorem C73_registry {acts : List Act} (hrun : Reaches cfg ext acts w evs) :
    (∀ name, w.registry.add name ≠ none) ∧ (∀ id, w.registry.remove id ≠ none) ∧
    ∀ t s, w.atEnd t s → w.registry.offline s.clientId ≠ none := by
  obtain ⟨toks, ht⟩ := tokens_run hrun
  have ho := (BrokerInv.run hrun).own
  refine ⟨fun name => ho.reg.add_ne_none name, ?_, ?_⟩
  · intro id hn
    obtain ⟨r, hr⟩ := ht.remove_some id
    rw [hn] at hr; cases hr
  · intro t s hs hn
    obtain ⟨x, hx, hst, -, -⟩ := hs
    obtain ⟨r, hr⟩ := ht.offline_some (t := t) (id := s.clientId)
      (by rw [Tasks.active_of hx, hst]; rfl) (ho.registered hx (by rw [hst]; rfl))
    rw [hn] at hr; cases hr

/-- The connection of a client is over and its session is kept; somebody else is connected. -/
example : ∃ w evs s, Reaches {} exExt (exExpireShared.take 8) w evs ∧ w.atEnd 2 s ∧
    w.registry.online = 3 :=
  ⟨_, _, _, rfl, ⟨_, rfl, rfl, rfl, rfl⟩, rfl⟩

/-- **C37, lower bound.**  The reported number of online clients is never smaller than the number of
established connections, take-overs included. -/
theorem C37_at_least {acts : List Act} (hrun : Reaches cfg ext acts w evs) {ts : List TaskId}
    (hd : ts.Nodup) (hon : ∀ t ∈ ts, w.onlineSession t ≠ none) : ts.length ≤ w.registry.online := by
  obtain ⟨toks, ht⟩ := tokens_run hrun
  have ho := (BrokerInv.run hrun).own
  have hsub : ∀ t ∈ ts, t ∈ toks.map (·.2) := by
    intro t hm
    cases hs : w.onlineSession t with
    | none => exact absurd hs (hon t hm)
    | some s =>
      obtain ⟨x, hx, hst⟩ := online_stage hs
      have := ht.task t s.clientId (by rw [Tasks.active_of hx, hst]; rfl)
        (ho.registered hx (by rw [hst]; rfl))
      exact List.mem_map.mpr ⟨_, this, rfl⟩
  have := nodup_subset_length hd hsub
  rw [List.length_map] at this
  exact Nat.le_trans this ht.few

example : ∃ w evs, Reaches {} exExt (exExpireShared.take 3) w evs ∧ w.registry.online = 3 ∧
    ∀ t ∈ [0, 1, 2], w.onlineSession t ≠ none :=
  ⟨_, _, rfl, rfl, by decide⟩

end Akasa
