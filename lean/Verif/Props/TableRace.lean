import Verif.Proof.TableRace
/-!
# C80 — a retained message published while a client subscribes
-/
namespace Akasa

/-- **C80.**  One task publishes a retained message, another subscribes to a filter matching its
topic, at the same time, and other tasks do other things; all their calls interleave in any way.
Unless the subscription is removed before the publisher looks for subscribers, the publisher finds
the subscription, or the message was stored before the subscriber looks for retained messages.
Then the subscriber finds what was stored last for the topic: this message or a later one (unless
that is empty and so deletes the retained message). -/
theorem C80_no_gap {history : List TableCall} {pub sub : Nat → Nat} {c : RetainContent} {f : Str}
    {id : ClientId} {q : QoS}
    (hpub : TakePlace (publishCalls c) history pub)
    (hsub : TakePlace (subscribeCalls f id q) history sub)
    (hvt : ValidTopic c.topic) (hvf : ValidFilter f) (hpl : IsPlain f) (hm : Matches f c.topic)
    (hkeep : ∀ k, sub 0 < k → k < pub 1 → history[k]? ≠ some (.route (.unsub f id)))
    {atLookup atRetained : Tables}
    (hl : Tables.empty.run (history.take (pub 1)) = some atLookup)
    (hr : Tables.empty.run (history.take (sub 1)) = some atRetained) :
    (∃ d ∈ atLookup.route.getMatches c.topic, d.topicFilter = some f ∧ ∃ q', (id, q') ∈ d.clients) ∨
    ∃ k d, pub 0 ≤ k ∧ LastStored history (sub 1) c.topic k d ∧
      (d.payload ≠ [] → ∃ rs, atRetained.retain.getMatches f = some rs ∧ d ∈ rs) := by
  have hp0 := hpub.1 0 _ rfl
  have hs0 := hsub.1 0 _ rfl
  have hp01 := hpub.2 0 1 (by omega) (by simp [publishCalls])
  have hs01 := hsub.2 0 1 (by omega) (by simp [subscribeCalls])
  by_cases horder : sub 0 < pub 1
  · exact Or.inl (found_subscription horder hs0 hkeep hvt hpl hm hl)
  · right
    obtain ⟨k, d, h1, h2⟩ := exists_lastStored hp0 rfl (sub 1 - (pub 0 + 1))
    have e : pub 0 + 1 + (sub 1 - (pub 0 + 1)) = sub 1 := by omega
    rw [e] at h2
    have ht := h2.2.2.1
    exact ⟨k, d, h1, h2, fun hne => found_retained (by rw [ht]; exact h2) hvf (by rw [ht]; exact hm)
      hne hr⟩

/-- **C80**, if nobody replaces the retained message before the subscriber looks for it: either the
publisher finds the subscription, or the subscriber finds this very message. -/
theorem C80_this {history : List TableCall} {pub sub : Nat → Nat} {c : RetainContent} {f : Str}
    {id : ClientId} {q : QoS}
    (hpub : TakePlace (publishCalls c) history pub)
    (hsub : TakePlace (subscribeCalls f id q) history sub)
    (hvt : ValidTopic c.topic) (hvf : ValidFilter f) (hpl : IsPlain f) (hm : Matches f c.topic)
    (hne : c.payload ≠ [])
    (hkeep : ∀ k, sub 0 < k → k < pub 1 → history[k]? ≠ some (.route (.unsub f id)))
    (hlast : ∀ k d, pub 0 < k → k < sub 1 → history[k]? = some (.store d) → d.topic ≠ c.topic)
    {atLookup atRetained : Tables}
    (hl : Tables.empty.run (history.take (pub 1)) = some atLookup)
    (hr : Tables.empty.run (history.take (sub 1)) = some atRetained) :
    (∃ d ∈ atLookup.route.getMatches c.topic, d.topicFilter = some f ∧ ∃ q', (id, q') ∈ d.clients) ∨
    ∃ rs, atRetained.retain.getMatches f = some rs ∧ c ∈ rs := by
  rcases C80_no_gap hpub hsub hvt hvf hpl hm hkeep hl hr with h | ⟨k, d, h1, h2, h3⟩
  · exact Or.inl h
  · right
    have hk : k = pub 0 := Classical.byContradiction fun hk =>
      hlast k d (by omega) h2.1 h2.2.1 h2.2.2.1
    have hp0 := hpub.1 0 _ rfl
    have he := h2.2.1
    rw [hk, hp0] at he
    cases he
    exact h3 hne

/-- The publisher stores, the subscriber subscribes, the publisher looks up, the subscriber looks
up; and the other extreme, the subscriber first. -/
def exRaceHistory : List TableCall :=
  [.route (.sub (str "x") 7 0), .store (rmsg "a/b" [1]), .store (rmsg "x" [2]),
   .route (.sub (str "a/+") 1 2), .findSubscribers (str "a/b"), .route (.unsub (str "x") 7),
   .findRetained (str "a/+")]

/-- The hypotheses hold of it (there, both find each other). -/
example : TakePlace (publishCalls (rmsg "a/b" [1])) exRaceHistory (fun i => if i = 0 then 1 else 4) ∧
    TakePlace (subscribeCalls (str "a/+") 1 2) exRaceHistory (fun i => if i = 0 then 3 else 6) ∧
    ValidTopic (str "a/b") ∧ ValidFilter (str "a/+") ∧ IsPlain (str "a/+") ∧
    Matches (str "a/+") (str "a/b") ∧
    (∀ k, 3 < k → k < 4 → exRaceHistory[k]? ≠ some (.route (.unsub (str "a/+") 1))) ∧
    (∀ k d, 1 < k → k < 6 → exRaceHistory[k]? = some (.store d) → d.topic ≠ str "a/b") ∧
    ((Tables.empty.run (exRaceHistory.take 4)).isSome ∧
      (Tables.empty.run (exRaceHistory.take 6)).isSome) := by
  refine ⟨⟨?_, ?_⟩, ⟨?_, ?_⟩, by unfold ValidTopic; decide, by decide, by decide,
    ⟨.same _ (.plus _ .done), by decide⟩, fun k h1 h2 => by omega, ?_, ?_, ?_⟩
  · rintro (_ | _ | i) c h
    · cases h; rfl
    · cases h; rfl
    · cases h
  · intro i j h1 h2
    simp only [publishCalls, List.length_cons, List.length_nil] at h2
    have : i = 0 ∧ j = 1 := by omega
    simp [this.1, this.2]
  · rintro (_ | _ | i) c h
    · cases h; rfl
    · cases h; rfl
    · cases h
  · intro i j h1 h2
    simp only [subscribeCalls, List.length_cons, List.length_nil] at h2
    have : i = 0 ∧ j = 1 := by omega
    simp [this.1, this.2]
  · rintro (_ | _ | _ | _ | _ | _ | k) d h1 h2 h3
    all_goals first | omega | (cases h3; done) | (cases h3; decide)
  · decide +kernel
  · decide +kernel

end Akasa
