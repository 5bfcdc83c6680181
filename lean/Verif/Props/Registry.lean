import Verif.Props.Route
import Verif.Proof.Subscribe
import Verif.Proof.Registry
/-! # Theorems about the registry of clients: C35, C36, C37 -/
namespace Akasa

/-- A registry the broker can have. -/
def Registry.Reachable (r : Registry) : Prop := ∃ calls out, Registry.run {} calls = some (r, out)

theorem Registry.Reachable.inv {r : Registry} (h : r.Reachable) : r.Inv := by
  obtain ⟨calls, out, h⟩ := h
  exact Registry.Inv.empty.run h

/-! ## C35 -/

/-- **C35, no reuse.**  In every sequence of connects, removals and disconnects the ids handed out
for new clients are pairwise distinct. -/
theorem C35_never_reused {calls : List RegCall} {r : Registry} {out : List Added}
    (h : Registry.run {} calls = some (r, out)) : (out.filterMap (·.new?)).Nodup :=
  (Registry.Inv.empty.run_new h).1

/-- **C35, inverse maps.**  An identifier is registered under an id exactly if that id has this
identifier; in particular an identifier has at most one id and an id at most one identifier. -/
theorem C35_inverse {r : Registry} (h : r.Reachable) (name : Str) (id : ClientId) :
    r.lookup name = some id ↔ r.nameOf id = some name := (h.inv.inverse id name).symm

/-- **C35, one identifier per id.** -/
theorem C35_injective {r : Registry} (h : r.Reachable) {a b : Str} {id : ClientId}
    (ha : r.lookup a = some id) (hb : r.lookup b = some id) : a = b := by
  rw [C35_inverse h] at ha hb
  rw [ha] at hb
  exact Option.some.inj hb

/-- **C35, queues.**  Exactly the registered clients have a queue to send messages to. -/
theorem C35_queue {r : Registry} (h : r.Reachable) (id : ClientId) :
    r.hasQueue id ↔ ∃ name, r.lookup name = some id := by
  unfold Registry.hasQueue
  rw [h.inv.queue]
  constructor
  · intro hs
    cases hg : r.idMap.get id with
    | none => rw [hg] at hs; cases hs
    | some e => exact ⟨e.1, (C35_inverse h _ _).mpr (by unfold Registry.nameOf; rw [hg]; rfl)⟩
  · rintro ⟨name, hn⟩
    have := (C35_inverse h _ _).mp hn
    unfold Registry.nameOf at this
    cases hg : r.idMap.get id with
    | none => rw [hg] at this; cases this
    | some e => rfl

/-- **C35, connecting.**  A client that connects never makes the registry panic; it is registered
afterwards under the id it got; that id is the one it was registered under, if it was, and
otherwise new. -/
theorem C35_connect {r : Registry} (h : r.Reachable) (name : Str) :
    ∃ r' a, r.add name = some (r', a) ∧
      (∀ id, r.lookup name = some id → a = .present id ∧ r'.lookup name = some id) ∧
      (r.lookup name = none → ∃ id, a = .new id ∧ r'.lookup name = some id ∧
        r.nameOf id = none ∧ ¬ r.hasQueue id) ∧
      ∀ other, other ≠ name → r'.lookup other = r.lookup other := by
  cases ha : r.add name with
  | none => exact absurd ha (h.inv.add_ne_none name)
  | some x =>
    obtain ⟨r', a⟩ := x
    refine ⟨r', a, rfl, ?_⟩
    cases h.inv.add_cases ha with
    | present id on h1 h2 =>
      refine ⟨?_, ?_, fun _ _ => rfl⟩
      · intro id' hid
        have : some id = some id' := h1.symm.trans hid
        cases this
        exact ⟨rfl, h1⟩
      · intro hn; exact absurd (hn.symm.trans h1) (by simp)
    | new hn =>
      have hfresh : r.idMap.get r.nextId = none := by
        cases hg : r.idMap.get r.nextId with
        | none => rfl
        | some e => exact absurd (h.inv.below _ _ hg) (Nat.lt_irrefl _)
      refine ⟨?_, ?_, ?_⟩
      · intro id hid; exact absurd (hn.symm.trans hid) (by simp)
      · intro _
        refine ⟨_, rfl, FMap.get_insert_self _ _ _, ?_, ?_⟩
        · unfold Registry.nameOf; rw [hfresh]; rfl
        · unfold Registry.hasQueue; rw [h.inv.queue, hfresh]; simp
      · intro other ho
        exact FMap.get_insert_ne _ _ (Ne.symm ho)

/-- Two clients connect, one leaves, it comes back, the other is removed. -/
def exCalls : List RegCall :=
  [.add (str "a"), .add (str "b"), .offline 0, .remove 1, .add (str "a"), .add (str "b")]

example : (Registry.run {} exCalls).map (fun x => (x.1.lookup (str "a"), x.1.lookup (str "b"),
      x.1.online, x.2)) =
    some (some 0, some 2, 2, [.new 0, .new 1, .present 0, .new 2]) := by decide

/-! ## C36 -/

/-- **C36, registrations.**  Removing a client deletes its registration and queue and nothing
else. -/
theorem C36_registrations {r r' : Registry} (h : r.Reachable) {id : ClientId}
    (hr : r.remove id = some r') :
    (∀ name, r'.lookup name ≠ some id) ∧ r'.nameOf id = none ∧ ¬ r'.hasQueue id ∧
    (∀ name, r.lookup name ≠ some id → r'.lookup name = r.lookup name) ∧
    ∀ other, other ≠ id → r'.nameOf other = r.nameOf other ∧
      (r'.isOnline other ↔ r.isOnline other) ∧ (r'.hasQueue other ↔ r.hasQueue other) := by
  obtain ⟨h1, h2, h3, h4⟩ := h.inv.remove_get hr
  refine ⟨?_, ?_, ?_, ?_, ?_⟩
  · intro name hn
    unfold Registry.lookup at hn
    rw [h3] at hn
    split at hn
    · cases hn
    · rename_i hne; exact hne hn
  · unfold Registry.nameOf; rw [h2, FMap.get_erase_self]; rfl
  · unfold Registry.hasQueue; rw [h4, Registry.contains_erase]; simp
  · intro name hn
    unfold Registry.lookup
    rw [h3]
    exact if_neg hn
  · intro other ho
    have hg : r'.idMap.get other = r.idMap.get other := by
      rw [h2]; exact FMap.get_erase_ne _ (Ne.symm ho)
    refine ⟨?_, ?_, ?_⟩
    · unfold Registry.nameOf; rw [hg]
    · unfold Registry.isOnline; rw [hg]
    · unfold Registry.hasQueue; rw [h4, Registry.contains_erase]; simp [ho]

/-- **C36, idempotence of the registration.**  Removing a client again changes nothing (and does
not panic). -/
theorem C36_again {r r' : Registry} (h : r.Reachable) {id : ClientId}
    (hr : r.remove id = some r') : r'.remove id = some r' := by
  obtain ⟨h1, h2, h3, h4⟩ := h.inv.remove_get hr
  have hg : r'.idMap.get id = none := by rw [h2]; exact FMap.get_erase_self _ _
  unfold Registry.remove
  rw [hg]
  have : r'.clients.erase id = r'.clients := by
    rw [h4]
    exact FMap.erase_eq_self (FMap.get_erase_self _ _)
  simp only [this]

theorem subscribed_unsubs (ops : List RouteOp) (id : ClientId) (filters : List Str) (f' : Str)
    (id' : ClientId) :
    subscribed (ops ++ filters.map fun f => .unsub f id) f' id' =
      if id' = id ∧ f' ∈ filters then none else subscribed ops f' id' := by
  induction filters generalizing ops with
  | nil => simp
  | cons f fs ih =>
    rw [List.map_cons, List.append_cons, ih, subscribed_snoc]
    simp only [SubState.step, List.mem_cons]
    by_cases h1 : id' = id <;> by_cases h2 : f' = f <;> simp [h1, h2]

/-- A lookup finds exactly the plain subscriptions that match. -/
theorem lookup_iff {ops : List RouteOp} {t : RouteTable} (hrun : RouteTable.empty.run ops = some t)
    {topic : Str} (hv : ValidTopic topic) (f : Str) (id : ClientId) (q : QoS) :
    (∃ c ∈ t.getMatches topic, c.topicFilter = some f ∧ (id, q) ∈ c.clients) ↔
      IsPlain f ∧ Matches f topic ∧ subscribed ops f id = some q := by
  constructor
  · rintro ⟨c, hc, h1, h2⟩
    obtain ⟨g, e1, e2, _, e4⟩ := C01_lookup_sound hrun hv hc
    rw [h1] at e1; simp at e1; subst e1
    exact ⟨((e4 _ _).mp h2).1, e2, ((e4 _ _).mp h2).2⟩
  · rintro ⟨h1, h2, h3⟩
    exact C01_lookup_complete hrun hv h1 h2 h3

theorem removeClient_run {r r' : Registry} {t t' : RouteTable} {id : ClientId} {filters : List Str}
    (hr : removeClient r t id filters = some (r', t')) :
    r.remove id = some r' ∧ t.run (filters.map fun f => .unsub f id) = some t' := by
  unfold removeClient at hr
  split at hr
  · cases hr
  · rename_i r1 h1
    simp only [Option.map_eq_some_iff] at hr
    obtain ⟨t1, h2, h3⟩ := hr
    cases h3
    exact ⟨h1, h2⟩

/-- **C36, subscriptions.**  Removing a client whose list of subscriptions is complete removes
exactly its own subscriptions: a lookup finds afterwards what it found before, without those of
this client. -/
theorem C36_subscriptions {ops : List RouteOp} {r r' : Registry} {t t' : RouteTable}
    (hrun : RouteTable.empty.run ops = some t) {id : ClientId} {filters : List Str}
    (hf : ∀ f q, subscribed ops f id = some q → f ∈ filters)
    (hr : removeClient r t id filters = some (r', t')) {topic : Str} (hv : ValidTopic topic)
    (f : Str) (id' : ClientId) (q : QoS) :
    (∃ c ∈ t'.getMatches topic, c.topicFilter = some f ∧ (id', q) ∈ c.clients) ↔
      id' ≠ id ∧ ∃ c ∈ t.getMatches topic, c.topicFilter = some f ∧ (id', q) ∈ c.clients := by
  have hrun' : RouteTable.empty.run (ops ++ filters.map fun f => .unsub f id) = some t' := by
    rw [run_append, hrun]; exact (removeClient_run hr).2
  rw [lookup_iff hrun hv, lookup_iff hrun' hv, subscribed_unsubs]
  by_cases h1 : id' = id
  · subst h1
    by_cases h2 : f ∈ filters
    · simp [h2]
    · have : ∀ q, subscribed ops f id' ≠ some q := fun q hq => h2 (hf f q hq)
      simp [h2, this]
  · simp [h1]

/-- Removing a client leaves the other members of every shared group alone. -/
def RemovalIsPrecise (ops : List RouteOp) (id : ClientId) (filters : List Str) : Prop :=
  ∀ t, RouteTable.empty.run ops = some t →
    ∃ t', t.run (filters.map fun f => .unsub f id) = some t' ∧
      ∀ topic g f, ValidTopic topic → Matches f topic → '/' ∉ g → ∀ id' q,
        (GroupMember t' topic g f id' q ↔
          ¬ (id' = id ∧ shareFilter g f ∈ filters) ∧ GroupMember t topic g f id' q)

/-- The full C36 is false of the code for shared subscriptions: when the session of an MQTT 5
client expires, `remove_client` runs twice (`v5/message.rs:772`, `697`), and the second run removes
another member from its groups. -/
theorem C36_shared_false : ¬ ∀ ops id filters, RemovalIsPrecise ops id filters := by
  intro h
  have h0 : (RouteTable.empty.run exLeave).isSome = true := by decide
  cases ht : RouteTable.empty.run exLeave with
  | none => rw [ht] at h0; cases h0
  | some t =>
  obtain ⟨t', h2, h3⟩ := h exLeave 2 [str "$share/g/x"] t ht
  have key := (h3 (str "x") (str "g") (str "x") (by unfold ValidTopic; decide)
    ⟨.same _ .done, by decide⟩ (by decide) 1 0).mpr ⟨by decide, ?_⟩
  · obtain ⟨c, hc, _⟩ := key
    have : ((RouteTable.empty.run exLeave).bind fun t =>
        t.run ([str "$share/g/x"].map fun f => .unsub f 2)).map
        (fun t => (t.getMatches (str "x")).length) = some 0 := by decide
    rw [ht] at this
    simp only [Option.bind_some] at this
    rw [h2] at this
    simp at this
    rw [this] at hc
    cases hc
  · have : (RouteTable.empty.run exLeave).map
        (fun t => (t.getMatches (str "x")).any fun c => decide (c.topicFilter = some (str "x")) &&
          c.groups.any fun g => decide (g.1 = str "g") && decide ((1, 0) ∈ g.2.items)) =
        some true := by decide
    rw [ht] at this
    simp only [Option.map_some, Option.some.injEq, List.any_eq_true, Bool.and_eq_true,
      decide_eq_true_eq] at this
    obtain ⟨c, hc, hf, ⟨g, s⟩, hg, he, hi⟩ := this
    exact ⟨c, hc, hf, s, by simp only at he; subst he; exact hg, hi⟩

/-- **C36, shared groups, partial**: holds if in the whole history, with this removal, no client
leaves or joins a group it left while the group has lived on.  Missing: the other histories, where
the claim is false (`C36_shared_false`). -/
theorem C36_shared_partial (ops : List RouteOp) (id : ClientId) (filters : List Str)
    (h : NoRejoin (ops ++ filters.map fun f => .unsub f id)) : RemovalIsPrecise ops id filters := by
  intro t hrun
  obtain ⟨t', hrun'⟩ := C01_no_panic _ h
  refine ⟨t', ?_, ?_⟩
  · rw [run_append, hrun] at hrun'; exact hrun'
  · intro topic g f hv hm hg id' q
    have hpre : NoRejoin ops := by
      intro pre op post e hp
      exact h pre op (post ++ filters.map fun f => .unsub f id) (by rw [e]; simp) hp
    rw [groupMember_iff hpre hrun hv hm hg, groupMember_iff h hrun' hv hm hg, subscribed_unsubs]
    by_cases e : id' = id ∧ shareFilter g f ∈ filters <;> simp [e]

/-- The hypotheses of C36 are met: client 1 with overlapping subscriptions is removed. -/
def exRemoved : Option (Registry × RouteTable) :=
  (Registry.run {} [.add (str "x"), .add (str "a")]).bind fun x =>
    (RouteTable.empty.run exOps).bind fun t => removeClient x.1 t 1 [str "a/+", str "a/b"]

example : exRemoved.map (fun x => (x.1.lookup (str "a"), x.1.lookup (str "x"), x.1.online)) =
    some (none, some 0, 1) := by decide

example : exRemoved.map (fun x => (x.2.getMatches (str "a/b")).map fun c =>
      (c.topicFilter, c.clients)) =
    some [(some (str "a/b"), []), (some (str "a/#"), [(2, 2)]), (some (str "#"), [(5, 1)])] := by
  decide

example : ∀ f q, subscribed exOps f 1 = some q → f ∈ [str "a/+", str "a/b"] := by
  intro f q h
  simp only [exOps, subscribed, List.foldl, SubState.step, SubState.none] at h
  repeat' split at h
  all_goals simp_all

/-! ## C37 -/

/-- The counter is right after a sequence of calls. -/
def CountsOnline (calls : List RegCall) : Prop :=
  ∃ r out, Registry.run {} calls = some (r, out) ∧ r.online = r.countOnline

/-- The full C37 is false of the code: a client that connects while its previous connection is
still there is counted twice (`add_client` adds one, and the owner that hands its session over does
not subtract). -/
theorem C37_false : ¬ ∀ calls, CountsOnline calls := by
  intro h
  obtain ⟨r, out, h1, h2⟩ := h [.add (str "a"), .add (str "a")]
  have : (Registry.run {} [.add (str "a"), .add (str "a")]).map
      (fun x => (x.1.online, x.1.countOnline)) = some (2, 1) := by decide
  rw [h1] at this
  simp only [Option.map_some, Option.some.injEq, Prod.mk.injEq] at this
  omega

/-- **C37, partial**: the counter equals the number of clients marked online, and none of its
assertions fails, in every sequence of calls in which no connected client is taken over by a new
connection.  Missing: take-overs of connected clients, where the claim is false (`C37_false`). -/
theorem C37_count_partial (calls : List RegCall) (h : Orderly {} calls) : CountsOnline calls := by
  suffices ∀ r : Registry, r.Inv → r.online = r.countOnline → Orderly r calls →
      ∃ r' out, Registry.run r calls = some (r', out) ∧ r'.online = r'.countOnline from
    this {} Registry.Inv.empty rfl h
  clear h
  induction calls with
  | nil => intro r _ hc _; exact ⟨r, [], rfl, hc⟩
  | cons c cs ih =>
    intro r hi hc ho
    obtain ⟨r1, o1, h1, h2⟩ := hi.orderly_call hc ho.1
    obtain ⟨r2, o2, h3, h4⟩ := ih r1 (hi.call h1) h2 (ho.2 _ _ h1)
    exact ⟨r2, o1 ++ o2, by simp only [Registry.run, h1, h3]; rfl, h4⟩

/-- The hypothesis is met by `exCalls`. -/
example : Orderly {} exCalls := by
  simp only [exCalls, Orderly]
  refine ⟨?_, ?_⟩
  · intro id h; cases h
  · intro r out h
    have h := (Option.some.inj h.symm)
    cases h
    refine ⟨?_, ?_⟩
    · intro id h; cases h
    · intro r out h
      have h := (Option.some.inj h.symm)
      cases h
      refine ⟨⟨str "a", rfl⟩, ?_⟩
      intro r out h
      have h := (Option.some.inj h.symm)
      cases h
      refine ⟨trivial, ?_⟩
      intro r out h
      have h := (Option.some.inj h.symm)
      cases h
      refine ⟨?_, ?_⟩
      · intro id h ho
        cases h
        obtain ⟨n, ho⟩ := ho
        cases ho
      · intro r out h
        have h := (Option.some.inj h.symm)
        cases h
        refine ⟨?_, ?_⟩
        · intro id h; cases h
        · intros; trivial

end Akasa
