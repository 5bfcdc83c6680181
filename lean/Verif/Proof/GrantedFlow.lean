import Verif.Proof.Granted
import Verif.Proof.Return
import Verif.Proof.LifeUse
import Verif.Proof.WorldFlow
import Verif.Spec.Rest
/-! # The messages taken for a client are taken by connections with its client identifier -/
namespace Akasa

variable {cfg : Config} {ext : Ext} {w w' : World} {evs e : List Event}

/-- What a step can do to the client identifiers. -/
inductive RegStep (w w' : World) (e : List Event) : Prop
  | same (h1 : w'.registry.identMap = w.registry.identMap)
      (h2 : w'.registry.nextId = w.registry.nextId)
  | new (req : Request) (h0 : w.registry.identMap.get req.identifier = none)
      (h1 : w'.registry.identMap = w.registry.identMap.insert req.identifier w.registry.nextId)
      (h2 : w'.registry.nextId = w.registry.nextId + 1)
      (h3 : (.accepted w.nextTask false ∈ e ∧ w'.request w.nextTask = some req) ∨
        w'.inbox.contains w.registry.nextId = false)
  | removed (id : ClientId) (h2 : w'.registry.nextId = w.registry.nextId)
      (h3 : ∀ n, w'.registry.identMap.get n ≠ some id)
      (h4 : ∀ n id', id' ≠ id → (w'.registry.identMap.get n = some id' ↔
        w.registry.identMap.get n = some id'))

theorem reg_step (hi : OInv w) {a : Act} (hs : w.step cfg ext a = some (w', e)) : RegStep w w' e := by
  cases step_cases hs with
  | fresh req env r id' hadd hw s out hs =>
    cases hi.reg.add_cases hadd with
    | new hnone =>
      refine .new req hnone rfl rfl (.inl ⟨List.mem_cons_self, ?_⟩)
      unfold World.request
      simp only
      rw [FMap.get_insert_self]
      rfl
  | stillborn req env wr r id' hadd =>
    cases hi.reg.add_cases hadd with
    | new hnone => exact .new req hnone rfl rfl (.inr (by grind))
  | wait req env wr r id' q hadd hq =>
    cases hi.reg.add_cases hadd with
    | present id on g1 g2 => exact .same rfl rfl
  | locked req env wr r id' hadd hq =>
    cases hi.reg.add_cases hadd with
    | present id on g1 g2 => exact .same rfl rfl
  | expire u env y s hy hst' hd time q hq hpr ht s' g m hw r route hrem =>
    obtain ⟨_, h1, h2, h3⟩ := hi.reg.removed hrem
    exact .removed s.clientId h1 h2 h3
  | remove u y s hy hst' hd r route hrem =>
    obtain ⟨_, h1, h2, h3⟩ := hi.reg.removed hrem
    exact .removed s.clientId h1 h2 h3
  | rest u y s hy hst' hd he r hr timers htm =>
    obtain ⟨h1, h2⟩ := Registry.Inv.offline_get hr
    exact .same h1 h2
  | fire i tm ht _ hw => rcases hw with ⟨rfl, _⟩ | ⟨q, _, _, rfl⟩ <;> exact .same rfl rfl
  | _ => exact .same rfl rfl

/-- The task that takes a message owns the session of the client. -/
theorem took_owner {a : Act} (hs : w.step cfg ext a = some (w', e)) {t : TaskId} {d : ClientId}
    {src : TaskId} {m : NormalMsg} (h : .took t d src m ∈ e) :
    ∃ x s, w.tasks.get t = some x ∧ x.stage.owner? = some s ∧ s.clientId = d := by
  cases step_cases hs with
  | normalOn u env y s hy hst' hd src m rest hi =>
    simp only [List.mem_cons, Event.took.injEq, reduceCtorEq, List.not_mem_nil, or_false] at h
    obtain ⟨rfl, rfl, _⟩ := h
    exact ⟨y, s, hy, by rw [hst']; rfl, rfl⟩
  | normalOff u env y s hy hst' hd src m rest hi =>
    simp only [List.mem_singleton, Event.took.injEq] at h
    obtain ⟨rfl, rfl, _⟩ := h
    exact ⟨y, s, hy, by rw [hst']; rfl, rfl⟩
  | handOff u env y s hy hst' hd b z q hq hz msgs inbox hm =>
    rw [List.mem_append, List.mem_map] at h
    rcases h with ⟨x, _, h⟩ | h
    · cases h
      exact ⟨y, s, hy, by rw [hst']; rfl, rfl⟩
    · simp at h
  | accept t' env x old level hx hst hw s1 present h0 s out hs1 => cases present <;> simp at h
  | expire u env y s hy hst' hd time q hq hpr ht s' g m' hw r route hrem =>
    cases m' <;> simp [willEvents] at h
  | lateWill u env y s hy hst' hd time q hq hpr ht s' g m' hw =>
    cases m' <;> simp [willEvents] at h
  | closeWill u env lost y s hy hst' hd hp s' g m' hw =>
    cases m' <;> simp [willEvents] at h
  | _ => simp at h

/-- A client with this client identifier, followed from some moment on. -/
structure SameClient (i : Str) (d : ClientId) (w : World) (evs : List Event) : Prop where
  below : d < w.registry.nextId
  only : ∀ n, w.registry.identMap.get n = some d → n = i
  took : ∀ t src m, .took t d src m ∈ evs → ∃ r, w.request t = some r ∧ r.identifier = i
  kept : w.keepsSession i evs → w.registry.identMap.get i = some d ∨
    w.registry.identMap.get i = none ∨ ∃ d', w.dead i d'

theorem SameClient.step {i : Str} {d : ClientId} (hi : OInv w) (h : SameClient i d w evs) {a : Act}
    (hs : w.step cfg ext a = some (w', e)) : SameClient i d w' (evs ++ e) := by
  have hr := reg_step hi hs
  have hb := h.below
  have hq : ∀ {t r}, w.request t = some r → w'.request t = some r := fun h => request_kept hi hs h
  constructor
  · cases hr with
    | same h1 h2 => rw [h2]; exact hb
    | new req h0 h1 h2 h3 => rw [h2]; exact Nat.lt_succ_of_lt hb
    | removed id h2 h3 h4 => rw [h2]; exact hb
  · intro n hn
    cases hr with
    | same h1 h2 => rw [h1] at hn; exact h.only n hn
    | new req h0 h1 h2 h3 =>
      rw [h1, FMap.get_insert] at hn
      split at hn
      · cases hn; exact absurd hb (Nat.lt_irrefl _)
      · exact h.only n hn
    | removed id h2 h3 h4 =>
      by_cases hd : d = id
      · rw [hd] at hn; exact absurd hn (h3 n)
      · exact h.only n ((h4 n d hd).1 hn)
  · intro t src m hm
    rcases List.mem_append.1 hm with hm | hm
    · obtain ⟨r, h1, h2⟩ := h.took t src m hm
      exact ⟨r, hq h1, h2⟩
    · obtain ⟨x, s, hx, hst, hd⟩ := took_owner hs hm
      refine ⟨x.req, hq (by unfold World.request; rw [hx]; rfl), ?_⟩
      refine h.only _ (hi.named t d _ ?_ ?_)
      · rw [(Tasks.views hx).2.1, hst, ← hd]; rfl
      · unfold Tasks.name; rw [hx]; rfl
  · intro hk
    have hk0 : w.keepsSession i evs := fun t ht req hr =>
      hk t (List.mem_append_left _ ht) req (hq hr)
    rcases h.kept hk0 with h1 | h1 | ⟨d', h1⟩
    · cases hr with
      | same k1 k2 => left; rw [k1]; exact h1
      | new req k0 k1 k2 k3 =>
        left
        rw [k1, FMap.get_insert_ne _ _ (by intro he; rw [he, h1] at k0; cases k0)]
        exact h1
      | removed id k2 k3 k4 =>
        by_cases hd : d = id
        · right; left
          cases hg : w'.registry.identMap.get i with
          | none => rfl
          | some x =>
            have hx : x ≠ id := fun hx => k3 i (hx ▸ hg)
            have := (k4 i x hx).1 hg
            rw [h1] at this
            cases this
            exact absurd hd hx
        · left; exact (k4 i d hd).2 h1
    · cases hr with
      | same k1 k2 => right; left; rw [k1]; exact h1
      | new req k0 k1 k2 k3 =>
        by_cases hreq : req.identifier = i
        · rcases k3 with ⟨k3, k4⟩ | k3
          · exact absurd hreq (hk _ (List.mem_append_right _ k3) req k4)
          · right; right
            exact ⟨_, by rw [k1, hreq]; exact FMap.get_insert_self .., k3⟩
        · right; left
          rw [k1, FMap.get_insert_ne _ _ hreq]
          exact h1
      | removed id k2 k3 k4 =>
        right; left
        cases hg : w'.registry.identMap.get i with
        | none => rfl
        | some x =>
          have hx : x ≠ id := fun hx => k3 i (hx ▸ hg)
          have := (k4 i x hx).1 hg
          rw [h1] at this
          cases this
    · exact .inr (.inr ⟨d', dead_step hi h1 hs⟩)

theorem SameClient.start (hi : OInv w) {t : TaskId} {s : Session} {req : Request}
    (ho : w.owned t = some s) (hreq : w.request t = some req) :
    SameClient req.identifier s.clientId w [] := by
  obtain ⟨x, hx, hst⟩ := owned_stage ho
  have hreq' : x.req = req := by
    unfold World.request at hreq; rw [hx] at hreq; cases hreq; rfl
  have h1 : w.registry.identMap.get req.identifier = some s.clientId := by
    refine hi.named t _ _ ?_ ?_
    · rw [(Tasks.views hx).2.1, hst]; rfl
    · unfold Tasks.name; rw [hx, ← hreq']; rfl
  have h2 := (hi.reg.inverse s.clientId req.identifier).2 h1
  refine ⟨?_, ?_, (fun t src m h => by cases h), fun _ => .inl h1⟩
  · cases hg : w.registry.idMap.get s.clientId with
    | none => rw [hg] at h2; cases h2
    | some e => exact hi.reg.below _ _ hg
  · intro n hn
    have h3 := (hi.reg.inverse s.clientId n).2 hn
    rw [h2] at h3
    cases h3
    rfl

theorem SameClient.run {acts0 acts : List Act} {evs0 : List Event} {w0 : World}
    (h0 : Reaches cfg ext acts0 w0 evs0)
    {t : TaskId} {s : Session} {req : Request}
    (ho : w0.owned t = some s) (hreq : w0.request t = some req)
    (h : World.run cfg ext w0 acts = some (w, evs)) :
    SameClient req.identifier s.clientId w evs := by
  have key : (∃ acts', Reaches cfg ext acts' w (evs0 ++ evs)) ∧
      SameClient req.identifier s.clientId w evs := by
    refine world_induction (cfg := cfg) (ext := ext) (P := fun w evs =>
      (∃ acts', Reaches cfg ext acts' w (evs0 ++ evs)) ∧ SameClient req.identifier s.clientId w evs)
      ⟨⟨acts0, by simpa using h0⟩, .start (BrokerInv.run h0).own ho hreq⟩ ?_ h
    rintro w evs a w' e ⟨⟨acts', h1⟩, h2⟩ hs
    refine ⟨⟨acts' ++ [a], ?_⟩, h2.step (BrokerInv.run h1).own hs⟩
    rw [← List.append_assoc]
    exact run_snoc_world.2 ⟨w, _, e, h1, hs, rfl⟩
  exact key.2

/-- As long as no new session begins, whoever owns a session with the identifier owns that one. -/
theorem SameClient.owner {i : Str} {d : ClientId} (hi : OInv w) (h : SameClient i d w evs)
    (hk : w.keepsSession i evs) {t : TaskId} {s : Session} {req : Request}
    (ho : w.owned t = some s) (hreq : w.request t = some req) (hreqi : req.identifier = i) :
    s.clientId = d := by
  obtain ⟨x, hx, hst⟩ := owned_stage ho
  have hreq' : x.req = req := by
    unfold World.request at hreq; rw [hx] at hreq; cases hreq; rfl
  have h1 : w.registry.identMap.get i = some s.clientId := by
    refine hi.named t _ _ ?_ ?_
    · rw [(Tasks.views hx).2.1, hst]; rfl
    · unfold Tasks.name; rw [hx, ← hreqi, ← hreq']; rfl
  rcases h.kept hk with h2 | h2 | ⟨d', h2, h3⟩
  · rw [h1] at h2; cases h2; rfl
  · rw [h1] at h2; cases h2
  · rw [h1] at h2
    cases h2
    have := hi.held t s.clientId (by
      rw [(Tasks.views hx).1]
      cases hs : x.stage <;> rw [hs] at hst <;> cases hst <;> rfl)
    rw [h3] at this; cases this

theorem request_run {acts0 acts : List Act} {evs0 : List Event} {w0 : World}
    (h0 : Reaches cfg ext acts0 w0 evs0) (h : World.run cfg ext w0 acts = some (w, evs)) {t : TaskId}
    {req : Request} (hr : w0.request t = some req) : w.request t = some req := by
  have key : (∃ acts', Reaches cfg ext acts' w (evs0 ++ evs)) ∧ w.request t = some req := by
    refine world_induction (cfg := cfg) (ext := ext) (P := fun w evs =>
      (∃ acts', Reaches cfg ext acts' w (evs0 ++ evs)) ∧ w.request t = some req)
      ⟨⟨acts0, by simpa using h0⟩, hr⟩ ?_ h
    rintro w evs a w' e ⟨⟨acts', h1⟩, h2⟩ hs
    refine ⟨⟨acts' ++ [a], ?_⟩, request_kept (BrokerInv.run h1).own hs h2⟩
    rw [← List.append_assoc]
    exact run_snoc_world.2 ⟨w, _, e, h1, hs, rfl⟩
  exact key.2

theorem under_some {i : Str} {t : TaskId} {c : ConnParams} (h : (w.under i).get t = some c) :
    ∃ r, w.request t = some r ∧ r.identifier = i := by
  unfold Chain.get World.under at h
  rw [Option.bind_eq_some_iff] at h
  obtain ⟨r, h1, h2⟩ := h
  split at h2
  · rename_i he; exact ⟨r, h1, he⟩
  · cases h2

theorem under_of {i : Str} {t : TaskId} {r : Request} (h : w.request t = some r)
    (hi : r.identifier = i) : (w.under i).get t = some r.params := by
  unfold Chain.get World.under
  rw [h, Option.bind_some, if_pos hi]

/-- As long as no new session begins, the life of the session goes on. -/
theorem life_goes_on {acts0 acts : List Act} {evs0 : List Event} {w0 : World}
    (h0 : Reaches cfg ext acts0 w0 evs0) (h : World.run cfg ext w0 acts = some (w, evs)) {i : Str}
    (hk : w.keepsSession i evs) :
    lifeOf w i (evs0 ++ evs) = lifeOf w0 i evs0 ++ obsOf (w.under i) evs := by
  unfold lifeOf
  rw [obsOf_append, under_obs (w := w0)]
  · unfold sinceNew
    rw [List.foldl_append, sinceNew_rest]
    intro o ho c hc
    subst hc
    unfold obsOf at ho
    rw [List.mem_flatMap] at ho
    obtain ⟨ev, hev, ho⟩ := ho
    unfold Event.obs at ho
    split at ho
    · cases ho
    · rename_i c' hc'
      obtain ⟨r, hr, hri⟩ := under_some hc'
      cases ev <;> simp at ho
      rename_i t present
      obtain ⟨rfl, _⟩ := ho
      exact hk t hev r hr hri
  · intro ev hev
    obtain ⟨x, hx, _⟩ := (LifeInv.run h0).quiet ev hev
    have := request_run h0 h (t := ev.task) (req := x.req) (by unfold World.request; rw [hx]; rfl)
    unfold World.request at this
    rw [Option.map_eq_some_iff] at this
    obtain ⟨y, hy, hyx⟩ := this
    exact ⟨x, y, hx, hy, hyx⟩

theorem took_seen {i : Str} {t : TaskId} {d : ClientId} {src : TaskId} {m : NormalMsg}
    (h : .took t d src m ∈ evs) {r : Request} (hr : w.request t = some r) (hi : r.identifier = i) :
    .took m ∈ obsOf (w.under i) evs := by
  unfold obsOf
  refine List.mem_flatMap.2 ⟨_, h, ?_⟩
  unfold Event.obs
  have : (w.under i).get (Event.task (.took t d src m)) = some r.params := under_of hr hi
  rw [this]
  exact List.mem_singleton.2 rfl

theorem mem_tookFrom {u : TaskId} {d : ClientId} {c : NormalMsg} (h : c ∈ tookFrom u d evs) :
    ∃ t, .took t d u c ∈ evs := by
  unfold tookFrom at h
  rw [List.mem_filterMap] at h
  obtain ⟨ev, hev, h⟩ := h
  cases ev <;> simp at h
  obtain ⟨⟨rfl, rfl⟩, rfl⟩ := h
  exact ⟨_, hev⟩

theorem later_part {α : Type} {T1 T2 Q1 Q2 : List α} (h : T1 ++ T2 = Q1 ++ Q2)
    (hl : T1.length ≤ Q1.length) {x : α} (hx : x ∈ Q2) : x ∈ T2 := by
  rcases List.append_eq_append_iff.1 h with ⟨A, rfl, h2⟩ | ⟨A, rfl, h2⟩
  · rw [h2]; exact List.mem_append_right _ hx
  · have : A = [] := by
      rw [List.length_append] at hl
      exact List.eq_nil_of_length_eq_zero (by omega)
    subst this
    rw [List.nil_append] at h2
    rw [← h2]; exact hx

theorem along_left {α β : Type} {R : α → β → Prop} {as : List α} {bs : List β} (h : Along R as bs)
    {a : α} (ha : a ∈ as) : ∃ b ∈ bs, R a b := by
  induction h with
  | nil => cases ha
  | cons h1 _ ih =>
    rcases List.mem_cons.1 ha with rfl | ha
    · exact ⟨_, List.mem_cons_self, h1⟩
    · obtain ⟨b, hb, h2⟩ := ih ha
      exact ⟨b, List.mem_cons_of_mem _ hb, h2⟩

/-- The step in which a message is taken, and what was granted before. -/
theorem took_step {pr : Proto} {p0 : Peer} {recs : List Rec} (h : IsRun cfg ext pr p0 recs)
    {c0 : ConnParams} (hstart : HeldBy (fun _ => none) p0.session.subs) {A B : List Obs}
    {m : NormalMsg} (hl : seenOf c0 recs = A ++ .took m :: B) :
    ∃ r ∈ recs, r.taken = some m ∧ HeldBy (grantedIn A) r.pre.session.subs := by
  unfold seenOf at hl
  cases A with
  | nil => cases hl
  | cons a A =>
    rw [List.cons_append, List.cons.injEq] at hl
    obtain ⟨rfl, hl⟩ := hl
    obtain ⟨l1, r, l2, A', B', rfl, rfl, h3⟩ := flatMap_split hl
    have ht : r.taken = some m := by
      have h4 : m ∈ takenIn r.obs := by
        rw [h3, takenIn_append]
        exact List.mem_append_right _ List.mem_cons_self
      rw [takenIn_rec] at h4
      simpa using h4
    refine ⟨r, by simp, ht, ?_⟩
    have hA : A' = [] := by
      have hr := taken_received ht
      have hobs : r.obs = .took m :: (r.res.routed.map Obs.routed ++ r.res.out.map Obs.sent) := by
        unfold Rec.obs
        rw [hr, ht]
        unfold Rec.taken at ht
        cases hev : r.ev <;> rw [hev] at ht <;> simp at ht ⊢
      rw [hobs] at h3
      cases A' with
      | nil => rfl
      | cons b A' =>
        rw [List.cons_append, List.cons.injEq] at h3
        have : Obs.took m ∈ r.res.routed.map Obs.routed ++ r.res.out.map Obs.sent := by
          rw [h3.2]; simp
        simp at this
    subst hA
    rw [isRun_append] at h
    obtain ⟨h5, h6, _⟩ := h
    rw [h6]
    unfold grantedIn
    rw [List.append_nil, List.foldl_cons]
    exact grants_run h5 (st := {}) hstart

end Akasa
