import Verif.Proof.Fanout
import Verif.Proof.RouteShared
import Verif.Proof.RouteTable
/-! The receivers of a published message in terms of the subscriptions made. -/
namespace Akasa

theorem skipOwn_iff {s : Session} {id : ClientId} {F : Str} :
    s.skipOwn id F = false ↔ NotOwn s id F := by
  unfold Session.skipOwn NotOwn
  by_cases e : id = s.clientId
  · rw [if_pos e]
    cases h : s.subscribes.get F with
    | none => simp [e]
    | some d => simp [e]
  · rw [if_neg e]
    exact ⟨fun _ h => absurd h e, fun _ => rfl⟩

/-- The member of a group taken by the numbers `pick`. -/
def selOf (t : RouteTable) (pick : Str → Str → Nat) (g f : Str) : Option (ClientId × QoS) :=
  ((t.root.contentAt (levels f)).groups.get g).bind fun sc => sc.getByNumber (pick g f)

theorem selects {ops : List RouteOp} {t : RouteTable} (hs : SInv ops t)
    (pick : Str → Str → Nat) : SelectsMembers ops (selOf t pick) := by
  intro g f hg
  have h := hs.group g f hg
  unfold selOf
  cases hget : (t.root.contentAt (levels f)).groups.get g with
  | none =>
    rw [hget] at h
    exact ⟨fun _ _ h => (by cases h), fun _ => h⟩
  | some sc =>
    rw [hget] at h
    obtain ⟨hinv, hne⟩ := h
    have hlt := Nat.mod_lt (pick g f) (List.length_pos_iff.mpr hne)
    have e : sc.getByNumber (pick g f) = some sc.items[pick g f % sc.items.length] := by
      unfold SharedClients.getByNumber
      rw [List.getElem?_eq_getElem hlt]
    simp only [Option.bind_some, e]
    refine ⟨?_, fun h => by cases h⟩
    intro id q h
    simp only [Option.some.injEq] at h
    exact (hinv.mem _ _).mp (by rw [← h]; exact List.getElem_mem hlt)

section
variable {ops : List RouteOp} {t : RouteTable} {topic : Str}

theorem clients_iff (hr : RInv (subscribed ops) t) {f : Str} {id : ClientId} {q : QoS} :
    (id, q) ∈ (t.root.contentAt (levels f)).clients ↔ IsPlain f ∧ subscribed ops f id = some q := by
  rw [FMap.mem_iff_get (hr.wf _), hr.clients, plainPart]
  split
  · rename_i h; exact ⟨fun h' => ⟨h, h'⟩, fun h' => h'.2⟩
  · rename_i h; exact ⟨fun h' => (by cases h'), fun h' => absurd h'.1 h⟩

theorem isEmpty_of_client {c : RouteContent} {id : ClientId} {q : QoS} (h : (id, q) ∈ c.clients) :
    c.isEmpty = false := by
  simp only [RouteContent.isEmpty]
  cases hc : c.clients with
  | nil => rw [hc] at h; cases h
  | cons a b => rfl

theorem isEmpty_of_group {c : RouteContent} {g : Str} {sc : SharedClients}
    (h : (g, sc) ∈ c.groups) : c.isEmpty = false := by
  simp only [RouteContent.isEmpty]
  cases hc : c.groups with
  | nil => rw [hc] at h; cases h
  | cons a b => simp

/-- The plain reasons. -/
theorem plainCause_iff (hr : RInv (subscribed ops) t) (hv : ValidTopic topic) {s : Session}
    {id : ClientId} {F : Str} {q : QoS} :
    (∃ c ∈ t.getMatches topic, ∃ f, c.topicFilter = some f ∧
      F = f ∧ (id, q) ∈ c.clients ∧ s.skipOwn id f = false) ↔
    PlainMatch ops topic id F q ∧ NotOwn s id F := by
  constructor
  · rintro ⟨c, hc, f, hf, rfl, hm, hs⟩
    obtain ⟨f', h1, h2, h3, h4⟩ := (RouteTable.mem_getMatches hv hr.tf).mp hc
    rw [hf] at h3; cases h3
    rw [h2, clients_iff hr] at hm
    exact ⟨⟨hm.1, h1, hm.2⟩, skipOwn_iff.mp hs⟩
  · rintro ⟨⟨hp, hm, hsub⟩, hn⟩
    have hc := (clients_iff hr).mpr ⟨hp, hsub⟩
    have he := isEmpty_of_client hc
    obtain ⟨f', h1, h2⟩ := hr.tf _ he
    have := levels_injective h2; subst this
    exact ⟨_, (RouteTable.mem_getMatches hv hr.tf).mpr ⟨f', hm, rfl, h1, he⟩, f', h1, rfl, hc,
      skipOwn_iff.mpr hn⟩

/-- The shared reasons. -/
theorem groupCause_iff (hs : SInv ops t) (hr : RInv (subscribed ops) t) (hv : ValidTopic topic)
    {pick : Str → Str → Nat} {id : ClientId} {F : Str} {q : QoS} :
    (∃ c ∈ t.getMatches topic, ∃ f, c.topicFilter = some f ∧
      ∃ g sc, (g, sc) ∈ c.groups ∧ F = fullFilter g f ∧
         sc.getByNumber (pick g f) = some (id, q)) ↔
    ∃ g f, '/' ∉ g ∧ F = shareFilter g f ∧ Matches f topic ∧
      selOf t pick g f = some (id, q) := by
  constructor
  · rintro ⟨c, hc, f, hf, g, sc, hm, rfl, hn⟩
    obtain ⟨f', h1, h2, h3, h4⟩ := (RouteTable.mem_getMatches hv hr.tf).mp hc
    rw [hf] at h3; cases h3
    rw [h2] at hm
    have hget := FMap.get_of_mem (hs.wf _) hm
    refine ⟨g, f, hs.name _ _ _ hget, rfl, h1, ?_⟩
    unfold selOf; rw [hget]; exact hn
  · rintro ⟨g, f, hg, rfl, hm, hsel⟩
    unfold selOf at hsel
    rw [Option.bind_eq_some_iff] at hsel
    obtain ⟨sc, hget, hsel⟩ := hsel
    have hmem := FMap.mem_of_get hget
    have he := isEmpty_of_group hmem
    obtain ⟨f', h1, h2⟩ := hr.tf _ he
    have := levels_injective h2; subst this
    exact ⟨_, (RouteTable.mem_getMatches hv hr.tf).mpr ⟨f', hm, rfl, h1, he⟩, f', h1, g, sc, hmem,
      rfl, hsel⟩

theorem causes_iff (hs : SInv ops t) (hr : RInv (subscribed ops) t) (hv : ValidTopic topic)
    {s : Session} {pick : Str → Str → Nat} {l : List Cause}
    (h : causes s pick (t.getMatches topic) = some l) {id : ClientId} {F : Str} {q : QoS} :
    (id, F, q) ∈ l ↔ DueV5 ops (selOf t pick) s topic id F q := by
  rw [mem_causes h]
  unfold DueV5
  rw [← plainCause_iff hr hv, ← groupCause_iff hs hr hv]
  constructor
  · rintro ⟨c, hc, f, hf, h | h⟩
    · exact .inl ⟨c, hc, f, hf, h⟩
    · exact .inr ⟨c, hc, f, hf, h⟩
  · rintro (⟨c, hc, f, hf, h⟩ | ⟨c, hc, f, hf, h⟩)
    · exact ⟨c, hc, f, hf, .inl h⟩
    · exact ⟨c, hc, f, hf, .inr h⟩

/-- Key of a reason. -/
def Cause.key (e : Cause) : ClientId × Str := (e.1, e.2.1)

theorem nodup_causesClients {s : Session} {f : Str} {cl : List (ClientId × QoS)}
    (h : (cl.map (·.1)).Nodup) : ((causesClients s f cl).map Cause.key).Nodup := by
  unfold causesClients
  rw [List.map_map]
  have h' := (List.filter_sublist (l := cl) (p := fun e => !s.skipOwn e.1 f)).map (·.1) |>.nodup h
  unfold List.Nodup at h' ⊢
  rw [List.pairwise_map] at h' ⊢
  refine h'.imp ?_
  intro a b hab e
  simp only [Function.comp_apply, Cause.key, Prod.mk.injEq] at e
  exact hab e.1

theorem nodup_causesGroups {pick : Str → Str → Nat} {f : Str} {gs : List (Str × SharedClients)}
    {l : List Cause} (h : causesGroups pick f gs = some l) (hn : (gs.map (·.1)).Nodup)
    (hname : ∀ e ∈ gs, '/' ∉ e.1) : (l.map Cause.key).Nodup := by
  induction gs generalizing l with
  | nil => cases h; simp
  | cons e gs ih =>
    obtain ⟨g, sc⟩ := e
    simp only [causesGroups] at h
    split at h
    · cases h
    · rename_i id' q' hx
      rw [Option.map_eq_some_iff] at h
      obtain ⟨l', h1, rfl⟩ := h
      rw [List.map_cons, List.nodup_cons] at hn
      rw [List.map_cons, List.nodup_cons]
      refine ⟨?_, ih h1 hn.2 fun e he => hname e (.tail _ he)⟩
      rw [List.mem_map]
      rintro ⟨⟨id, F, q⟩, hm, he⟩
      simp only [Cause.key, Prod.mk.injEq] at he
      obtain ⟨rfl, rfl⟩ := he
      obtain ⟨g', sc', h2, h3, _⟩ := (mem_causesGroups h1).mp hm
      have := (shareFilter_inj (hname _ (.head _)) (hname _ (.tail _ h2)) h3).1
      subst this
      exact hn.1 (List.mem_map.mpr ⟨_, h2, rfl⟩)

/-- What makes a list of contents well formed. -/
structure ContentsOk (cs : List RouteContent) : Prop where
  once : (cs.map (·.topicFilter)).Nodup
  clients : ∀ c ∈ cs, (c.clients.map (·.1)).Nodup
  groups : ∀ c ∈ cs, (c.groups.map (·.1)).Nodup
  names : ∀ c ∈ cs, ∀ e ∈ c.groups, '/' ∉ e.1
  plain : ∀ c ∈ cs, ∀ f, c.topicFilter = some f → ∀ e ∈ c.clients, IsPlain f

theorem ContentsOk.tail {c : RouteContent} {cs : List RouteContent} (h : ContentsOk (c :: cs)) :
    ContentsOk cs :=
  ⟨(List.nodup_cons.mp (by simpa using h.once)).2, fun c hc => h.clients c (.tail _ hc),
    fun c hc => h.groups c (.tail _ hc), fun c hc => h.names c (.tail _ hc),
    fun c hc => h.plain c (.tail _ hc)⟩

theorem nodup_causes {s : Session} {pick : Str → Str → Nat} {cs : List RouteContent}
    {l : List Cause} (h : causes s pick cs = some l) (ok : ContentsOk cs) :
    (l.map Cause.key).Nodup := by
  induction cs generalizing l with
  | nil => cases h; simp
  | cons c cs ih =>
    simp only [causes] at h
    split at h
    · cases h
    rename_i f hf
    split at h
    · cases h
    rename_i lg hg
    rw [Option.map_eq_some_iff] at h
    obtain ⟨l', h1, rfl⟩ := h
    rw [List.map_append, List.map_append, List.nodup_append, List.nodup_append]
    have hmem := List.mem_cons_self (a := c) (l := cs)
    have hn1 := nodup_causesClients (s := s) (f := f) (ok.clients c hmem)
    have hn2 := nodup_causesGroups hg (ok.groups c hmem) (ok.names c hmem)
    have hf' : ∀ c' ∈ cs, c'.topicFilter ≠ some f := by
      intro c' hc' e
      have := ok.once
      rw [List.map_cons, List.nodup_cons] at this
      exact this.1 (List.mem_map.mpr ⟨c', hc', by rw [e, hf]⟩)
    have key : ∀ id F q, (id, F, q) ∈ causesClients s f c.clients ∨ (id, F, q) ∈ lg →
        (F = f ∧ IsPlain f) ∨ ∃ g, '/' ∉ g ∧ F = shareFilter g f := by
      intro id F q hm
      rcases hm with hm | hm
      · obtain ⟨rfl, hc, _⟩ := mem_causesClients.mp hm
        exact .inl ⟨rfl, ok.plain c hmem _ hf _ hc⟩
      · obtain ⟨g, sc, hgs, rfl, _⟩ := (mem_causesGroups hg).mp hm
        exact .inr ⟨g, ok.names c hmem _ hgs, rfl⟩
    refine ⟨⟨hn1, hn2, ?_⟩, ih h1 ok.tail, ?_⟩
    · rintro ⟨a, b⟩ ha ⟨a', b'⟩ hb e
      cases e
      obtain ⟨⟨id, F, q⟩, hm, he⟩ := List.mem_map.mp ha
      obtain ⟨⟨id', F', q'⟩, hm', he'⟩ := List.mem_map.mp hb
      simp only [Cause.key, Prod.mk.injEq] at he he'
      obtain ⟨rfl, rfl⟩ := he
      obtain ⟨rfl, rfl⟩ := he'
      obtain ⟨rfl, hc, _⟩ := mem_causesClients.mp hm
      obtain ⟨g, sc, hgs, e, _⟩ := (mem_causesGroups hg).mp hm'
      have hp := ok.plain c hmem _ hf _ hc
      rw [e] at hp
      exact share_not_plain (ok.names c hmem _ hgs) _ hp
    · rintro ⟨a, b⟩ ha ⟨a', b'⟩ hb e
      cases e
      rw [List.mem_append] at ha
      obtain ⟨⟨id', F', q'⟩, hm', he'⟩ := List.mem_map.mp hb
      simp only [Cause.key, Prod.mk.injEq] at he'
      obtain ⟨rfl, rfl⟩ := he'
      have hA : (∃ q, (id', F', q) ∈ causesClients s f c.clients ∨ (id', F', q) ∈ lg) := by
        rcases ha with ha | ha
        all_goals
          obtain ⟨⟨id, F, q⟩, hm, he⟩ := List.mem_map.mp ha
          simp only [Cause.key, Prod.mk.injEq] at he
          obtain ⟨rfl, rfl⟩ := he
        · exact ⟨q, .inl hm⟩
        · exact ⟨q, .inr hm⟩
      obtain ⟨q, hA⟩ := hA
      have k1 := key _ _ _ hA
      obtain ⟨c', hc', f', hf'', h3⟩ := (mem_causes h1).mp hm'
      have k2 : (F' = f' ∧ IsPlain f') ∨ ∃ g, '/' ∉ g ∧ F' = shareFilter g f' := by
        rcases h3 with ⟨rfl, hc, _⟩ | ⟨g, sc, hgs, rfl, _⟩
        · exact .inl ⟨rfl, ok.plain c' (.tail _ hc') _ hf'' _ hc⟩
        · exact .inr ⟨g, ok.names c' (.tail _ hc') _ hgs, rfl⟩
      have : f = f' := by
        rcases k1 with ⟨rfl, p⟩ | ⟨g, hg1, e1⟩
        · rcases k2 with ⟨e2, _⟩ | ⟨g, hg2, e2⟩
          · exact e2
          · rw [e2] at p; exact absurd p (share_not_plain hg2 _)
        · rcases k2 with ⟨e2, p⟩ | ⟨g', hg2, e2⟩
          · rw [← e2, e1] at p; exact absurd p (share_not_plain hg1 _)
          · rw [e1] at e2; exact (shareFilter_inj hg1 hg2 e2).2
      subst this
      exact hf' c' hc' hf''

/-- The matches are listed once each. -/
theorem getMatches_once (hr : RInv (subscribed ops) t) (hv : ValidTopic topic) :
    ((t.getMatches topic).map (·.topicFilter)).Nodup := by
  rw [RouteTable.getMatches_eq_map t hv, List.map_map]
  have hn := RouteTable.nodup_tableMatchP t hv
  unfold List.Nodup at hn ⊢
  rw [List.pairwise_map] at hn ⊢
  refine hn.imp_of_mem ?_
  rintro ⟨p, c⟩ ⟨p', c'⟩ hm hm' hne e
  obtain ⟨_, rfl, h3, _⟩ := (RouteTable.mem_tableMatchP hv).mp hm
  obtain ⟨_, rfl, h3', _⟩ := (RouteTable.mem_tableMatchP hv).mp hm'
  obtain ⟨f, h1, h2⟩ := hr.tf _ h3
  obtain ⟨f', h1', h2'⟩ := hr.tf _ h3'
  simp only [Function.comp_apply] at e
  rw [h1, h1'] at e
  simp at e
  subst e
  exact hne (by rw [← h2, ← h2'])

theorem contentsOk (hs : SInv ops t) (hr : RInv (subscribed ops) t) (hv : ValidTopic topic) :
    ContentsOk (t.getMatches topic) := by
  refine ⟨getMatches_once hr hv, ?_, ?_, ?_, ?_⟩
  · intro c hc
    obtain ⟨f, h1, h2, h3, h4⟩ := (RouteTable.mem_getMatches hv hr.tf).mp hc
    rw [h2]; exact hr.wf _
  · intro c hc
    obtain ⟨f, h1, h2, h3, h4⟩ := (RouteTable.mem_getMatches hv hr.tf).mp hc
    rw [h2]; exact hs.wf _
  · intro c hc e he
    obtain ⟨f, h1, h2, h3, h4⟩ := (RouteTable.mem_getMatches hv hr.tf).mp hc
    rw [h2] at he
    exact hs.name _ _ _ (FMap.get_of_mem (hs.wf _) he)
  · intro c hc f hf e he
    obtain ⟨f', h1, h2, h3, h4⟩ := (RouteTable.mem_getMatches hv hr.tf).mp hc
    rw [hf] at h3; cases h3
    rw [h2] at he
    obtain ⟨id, q⟩ := e
    exact ((clients_iff hr).mp he).1

/-! MQTT 3 publishers. -/

theorem mem_collectV3 {cs : List RouteContent} {l : List Cause} (h : collectV3 cs = some l)
    {id : ClientId} {F : Str} {q : QoS} :
    (id, F, q) ∈ l ↔ ∃ c ∈ cs, c.topicFilter = some F ∧ (id, q) ∈ c.clients := by
  induction cs generalizing l with
  | nil => cases h; simp
  | cons c cs ih =>
    simp only [collectV3] at h
    split at h
    · cases h
    rename_i f hf
    rw [Option.map_eq_some_iff] at h
    obtain ⟨l', h1, rfl⟩ := h
    rw [List.mem_append, ih h1, List.mem_map]
    constructor
    · rintro (⟨⟨a, b⟩, h2, h3⟩ | ⟨c', h2, h3⟩)
      · cases h3; exact ⟨c, .head _, hf, h2⟩
      · exact ⟨c', .tail _ h2, h3⟩
    · rintro ⟨c', h2, h3, h4⟩
      cases h2 with
      | head => rw [hf] at h3; cases h3; exact .inl ⟨_, h4, rfl⟩
      | tail _ h2 => exact .inr ⟨c', h2, h3, h4⟩

theorem nodup_collectV3 {cs : List RouteContent} {l : List Cause} (h : collectV3 cs = some l)
    (once : (cs.map (·.topicFilter)).Nodup) (hc : ∀ c ∈ cs, (c.clients.map (·.1)).Nodup) :
    (l.map Cause.key).Nodup := by
  induction cs generalizing l with
  | nil => cases h; simp
  | cons c cs ih =>
    simp only [collectV3] at h
    split at h
    · cases h
    rename_i f hf
    rw [Option.map_eq_some_iff] at h
    obtain ⟨l', h1, rfl⟩ := h
    rw [List.map_cons, List.nodup_cons] at once
    rw [List.map_append, List.nodup_append]
    refine ⟨?_, ih h1 once.2 fun c h => hc c (.tail _ h), ?_⟩
    · have := hc c (.head _)
      rw [List.map_map]
      unfold List.Nodup at this ⊢
      rw [List.pairwise_map] at this ⊢
      refine this.imp ?_
      intro a b hab e
      simp only [Function.comp_apply, Cause.key, Prod.mk.injEq] at e
      exact hab e.1
    · rintro ⟨a, b⟩ ha ⟨a', b'⟩ hb e
      cases e
      obtain ⟨⟨id', F', q'⟩, hm', he'⟩ := List.mem_map.mp hb
      simp only [Cause.key, Prod.mk.injEq] at he'
      obtain ⟨rfl, rfl⟩ := he'
      obtain ⟨c', hc', h2, _⟩ := (mem_collectV3 h1).mp hm'
      obtain ⟨x, hx, hx'⟩ := List.mem_map.mp ha
      obtain ⟨y, hy, rfl⟩ := List.mem_map.mp hx
      simp only [Cause.key, Prod.mk.injEq] at hx'
      obtain ⟨_, rfl⟩ := hx'
      exact once.1 (List.mem_map.mpr ⟨c', hc', by rw [h2, hf]⟩)

theorem collectV3_iff (hr : RInv (subscribed ops) t) (hv : ValidTopic topic) {l : List Cause}
    (h : collectV3 (t.getMatches topic) = some l) {id : ClientId} {F : Str} {q : QoS} :
    (id, F, q) ∈ l ↔ PlainMatch ops topic id F q := by
  rw [mem_collectV3 h]
  constructor
  · rintro ⟨c, hc, hf, hm⟩
    obtain ⟨f', h1, h2, h3, h4⟩ := (RouteTable.mem_getMatches hv hr.tf).mp hc
    rw [hf] at h3; cases h3
    rw [h2, clients_iff hr] at hm
    exact ⟨hm.1, h1, hm.2⟩
  · rintro ⟨hp, hm, hsub⟩
    have hc := (clients_iff hr).mpr ⟨hp, hsub⟩
    have he := isEmpty_of_client hc
    obtain ⟨f', h1, h2⟩ := hr.tf _ he
    have := levels_injective h2; subst this
    exact ⟨_, (RouteTable.mem_getMatches hv hr.tf).mpr ⟨f', hm, rfl, h1, he⟩, h1, hc⟩

end
end Akasa
