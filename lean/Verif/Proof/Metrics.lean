import Verif.Proof.WorldToken

import Verif.Spec.Metrics
/-! # The counter of online clients, exactly -/
namespace Akasa

variable {cfg : Config} {ext : Ext} {w w' : World} {e : List Event}

/-- The counter of online clients counts the connections that are not over and whose client is
registered; there is at most one for every client, and the clients marked online are those that have
one. -/
structure ExactInv (w : World) (toks : List (ClientId × TaskId)) : Prop where
  len : w.registry.online = toks.length
  nodup : (toks.map (·.1)).Nodup
  mem : ∀ id t, (id, t) ∈ toks ↔
    Tasks.active w.tasks t = some id ∧ w.registry.idMap.get id ≠ none
  mark : ∀ id name on, w.registry.idMap.get id = some (name, on) →
    (on = true ↔ ∃ t, (id, t) ∈ toks)
  name : ∀ id t name on, (id, t) ∈ toks → w.registry.idMap.get id = some (name, on) →
    Tasks.name w.tasks t = some name

theorem ExactInv.init : ExactInv {} [] :=
  ⟨rfl, List.nodup_nil, (fun id t => by simp [Tasks.active, FMap.get]),
    (fun id name on h => by cases h), (fun id t name on h => by cases h)⟩

theorem fst_unique {toks : List (ClientId × TaskId)} (h : (toks.map (·.1)).Nodup) {id : ClientId}
    {t u : TaskId} (ht : (id, t) ∈ toks) (hu : (id, u) ∈ toks) : t = u := by
  induction toks with
  | nil => cases ht
  | cons p toks ih =>
    simp only [List.map_cons, List.nodup_cons, List.mem_map, not_exists, not_and] at h
    rcases List.mem_cons.mp ht with ht | ht <;> rcases List.mem_cons.mp hu with hu | hu
    · rw [← ht] at hu; exact (congrArg Prod.snd hu).symm
    · exact absurd (by rw [← ht]) (h.1 _ hu)
    · exact absurd (by rw [← hu]) (h.1 _ ht)
    · exact ih h.2 ht hu

theorem filter_none {toks : List (ClientId × TaskId)} {id : ClientId}
    (h : ∀ t, (id, t) ∉ toks) : toks.filter (fun p => p.1 ≠ id) = toks := by
  refine List.filter_eq_self.mpr ?_
  rintro ⟨i, t⟩ hm
  simp only [ne_eq, decide_not, Bool.not_eq_eq_eq_not, Bool.not_true, decide_eq_false_iff_not]
  rintro rfl
  exact h t hm

theorem filter_one {toks : List (ClientId × TaskId)} (h : (toks.map (·.1)).Nodup) {id : ClientId}
    {t : TaskId} (ht : (id, t) ∈ toks) :
    (toks.filter (fun p => p.1 ≠ id)).length = toks.length - 1 := by
  induction toks with
  | nil => cases ht
  | cons p toks ih =>
    simp only [List.map_cons, List.nodup_cons, List.mem_map, not_exists, not_and] at h
    rcases List.mem_cons.mp ht with ht | ht
    · subst ht
      have hn : ∀ u, (id, u) ∉ toks := fun u hu => h.1 _ hu rfl
      rw [List.filter_cons]
      simp only [ne_eq, not_true_eq_false, decide_false, Bool.false_eq_true, if_false]
      have := filter_none hn
      simp only [ne_eq] at this
      rw [this]; rfl
    · have hp : p.1 ≠ id := fun he => h.1 _ ht he.symm
      have hi := ih h.2 ht
      simp only [ne_eq] at hi
      rw [List.filter_cons]
      simp only [ne_eq, hp, not_false_eq_true, decide_true, if_true, List.length_cons]
      rw [hi]
      have : toks ≠ [] := by rintro rfl; cases ht
      have : 0 < toks.length := List.length_pos_iff.mpr this
      omega

/-- Nothing the counter depends on changes. -/
theorem ExactInv.quiet {toks : List (ClientId × TaskId)} (h : ExactInv w toks)
    (hr : w'.registry = w.registry)
    (ha : ∀ t, Tasks.active w'.tasks t = Tasks.active w.tasks t)
    (hn : ∀ t id, Tasks.active w.tasks t = some id → Tasks.name w'.tasks t = Tasks.name w.tasks t) :
    ExactInv w' toks := by
  refine ⟨by rw [hr]; exact h.len, h.nodup, ?_, ?_, ?_⟩
  · intro id t; rw [hr, ha]; exact h.mem id t
  · intro id name on; rw [hr]; exact h.mark id name on
  · intro id t name on hm hg
    rw [hr] at hg
    rw [hn t id ((h.mem id t).mp hm).1]
    exact h.name id t name on hm hg

/-- One task changes. -/
theorem ExactInv.one {toks : List (ClientId × TaskId)} (h : ExactInv w toks)
    (hr : w'.registry = w.registry) {t : TaskId} {x x' : Task} (hx : w.tasks.get t = some x)
    (htasks : w'.tasks = w.tasks.insert t x') (hact : x'.stage.active? = x.stage.active?)
    (hreq : x'.req = x.req) : ExactInv w' toks := by
  refine h.quiet hr ?_ ?_
  · intro u
    rw [htasks, Tasks.active_insert]
    split
    · rename_i hu; subst hu; rw [Tasks.active_of hx, hact]
    · rfl
  · intro u id _
    unfold Tasks.name
    rw [htasks, FMap.get_insert]
    split
    · rename_i hu; subst hu; rw [hx]; simp [hreq]
    · rfl

/-- A connection is made. -/
theorem ExactInv.add {toks : List (ClientId × TaskId)} (h : ExactInv w toks) (ho : OInv w)
    {name : Str} {r : Registry} {a : Added} {id : ClientId}
    (hadd : w.registry.add name = some (r, a)) (hid : a = .new id ∨ a = .present id)
    (hr : w'.registry = r) {x' : Task} (htasks : w'.tasks = w.tasks.insert w.nextTask x')
    (hact : x'.stage.active? = some id) (hname : x'.req.identifier = name)
    (halone : ∀ t, Tasks.name w.tasks t = some name → Tasks.active w.tasks t = none) :
    ExactInv w' ((id, w.nextTask) :: toks) := by
  have hnew : Tasks.active w.tasks w.nextTask = none ∧ Tasks.name w.tasks w.nextTask = none := by
    have hn : Tasks.name w.tasks w.nextTask = none := by
      cases hc : Tasks.name w.tasks w.nextTask with
      | none => rfl
      | some n => exact absurd (ho.fresh w.nextTask (by rw [hc]; simp)) (Nat.lt_irrefl _)
    refine ⟨?_, hn⟩
    unfold Tasks.name at hn
    unfold Tasks.active
    cases hg : FMap.get w.tasks w.nextTask with
    | none => rfl
    | some x => rw [hg] at hn; cases hn
  have hnone : ∀ t, (id, t) ∉ toks := by
    intro t hm
    have hm' := (h.mem id t).mp hm
    cases ho.reg.add_cases hadd with
    | present old on h1 h2 =>
      rcases hid with hid | hid
      · cases hid
      · cases hid
        have := halone t (h.name _ _ _ _ hm h2)
        rw [hm'.1] at this; cases this
    | new hn =>
      rcases hid with hid | hid
      · cases hid; exact absurd (ho.active_below hm'.1) (Nat.lt_irrefl _)
      · cases hid
  have hact' : ∀ u, Tasks.active w'.tasks u =
      if w.nextTask = u then some id else Tasks.active w.tasks u := by
    intro u; rw [htasks, Tasks.active_insert, hact]
  have hname' : ∀ u, Tasks.name w'.tasks u =
      if w.nextTask = u then some name else Tasks.name w.tasks u := by
    intro u; unfold Tasks.name; rw [htasks, FMap.get_insert]
    split
    · simp [hname]
    · rfl
  have hget : w'.registry.idMap.get id = some (name, true) ∧
      (∀ id', id' ≠ id → w'.registry.idMap.get id' = w.registry.idMap.get id') ∧
      w'.registry.online = w.registry.online + 1 := by
    rw [hr]
    cases ho.reg.add_cases hadd with
    | present old on h1 h2 =>
      rcases hid with hid | hid
      · cases hid
      · cases hid
        refine ⟨?_, ?_, rfl⟩
        · show FMap.get (w.registry.mark id true) id = _
          rw [Registry.get_mark, if_pos rfl, h2]; rfl
        · intro id' hne
          show FMap.get (w.registry.mark id true) id' = _
          rw [Registry.get_mark, if_neg hne]
    | new hn =>
      rcases hid with hid | hid
      · cases hid
        exact ⟨FMap.get_insert_self .., (fun id' hne => FMap.get_insert_ne _ _ (Ne.symm hne)), rfl⟩
      · cases hid
  obtain ⟨hg1, hg2, hon⟩ := hget
  refine ⟨?_, ?_, ?_, ?_, ?_⟩
  · rw [hon, h.len]; rfl
  · simp only [List.map_cons, List.nodup_cons, List.mem_map, not_exists, not_and]
    refine ⟨?_, h.nodup⟩
    rintro ⟨i, t⟩ hm he
    simp only at he; subst he
    exact hnone t hm
  · intro id' t
    rw [hact', List.mem_cons]
    by_cases ht : w.nextTask = t
    · subst ht
      rw [if_pos rfl]
      constructor
      · rintro (he | hm)
        · have he := congrArg Prod.fst he
          simp only at he; subst he
          exact ⟨rfl, by rw [hg1]; simp⟩
        · have := ((h.mem id' w.nextTask).mp hm).1
          rw [hnew.1] at this; cases this
      · rintro ⟨he, -⟩
        cases he; exact .inl rfl
    · rw [if_neg ht]
      constructor
      · rintro (he | hm)
        · exact absurd (congrArg Prod.snd he).symm ht
        · have hm' := (h.mem id' t).mp hm
          have hne : id' ≠ id := by rintro rfl; exact hnone t hm
          exact ⟨hm'.1, by rw [hg2 id' hne]; exact hm'.2⟩
      · rintro ⟨ha, hreg⟩
        right
        by_cases hne : id' = id
        · subst hne
          -- an open connection of the same client
          cases ho.reg.add_cases hadd with
          | present old on h1 h2 =>
            rcases hid with hid | hid
            · cases hid
            · cases hid
              exact (h.mem _ t).mpr ⟨ha, by rw [h2]; simp⟩
          | new hn =>
            rcases hid with hid | hid
            · cases hid; exact absurd (ho.active_below ha) (Nat.lt_irrefl _)
            · cases hid
        · exact (h.mem id' t).mpr ⟨ha, by rw [← hg2 id' hne]; exact hreg⟩
  · intro id' name' on hg
    by_cases hne : id' = id
    · subst hne
      rw [hg1] at hg
      cases hg
      exact ⟨fun _ => ⟨w.nextTask, List.mem_cons_self⟩, fun _ => rfl⟩
    · rw [hg2 id' hne] at hg
      rw [h.mark id' name' on hg]
      constructor
      · rintro ⟨t, ht⟩; exact ⟨t, List.mem_cons_of_mem _ ht⟩
      · rintro ⟨t, ht⟩
        rcases List.mem_cons.mp ht with he | ht
        · exact absurd (congrArg Prod.fst he) hne
        · exact ⟨t, ht⟩
  · intro id' t name' on hm hg
    rw [hname']
    rcases List.mem_cons.mp hm with he | hm
    · cases he
      rw [hg1] at hg; cases hg
      rw [if_pos rfl]
    · rename_i hm
      have hne : id' ≠ id := by rintro rfl; exact hnone t (by assumption)
      rw [hg2 id' hne] at hg
      have hn := h.name id' t name' on hm hg
      split
      · rename_i ht; subst ht; rw [hnew.2] at hn; cases hn
      · exact hn

/-- A client has no open connection any more: it is removed or becomes offline. -/
theorem ExactInv.drop {toks : List (ClientId × TaskId)} (h : ExactInv w toks) {id : ClientId}
    {t : TaskId} {x x' : Task} (hx : w.tasks.get t = some x)
    (hwas : x.stage.active? = none ∨ x.stage.active? = some id)
    (htasks : w'.tasks = w.tasks.insert t x') (hact : x'.stage.active? = none)
    (hreq : x'.req = x.req)
    (hget : ∀ id', id' ≠ id → w'.registry.idMap.get id' = w.registry.idMap.get id')
    (hid : w'.registry.idMap.get id = none ∨
      ((∃ name, w'.registry.idMap.get id = some (name, false)) ∧ x.stage.active? = some id ∧
        w.registry.idMap.get id ≠ none))
    (hon : ((∃ u, (id, u) ∈ toks) ∧ w'.registry.online = w.registry.online - 1) ∨
      ((∀ u, (id, u) ∉ toks) ∧ w'.registry.online = w.registry.online)) :
    ExactInv w' (toks.filter (fun p => p.1 ≠ id)) := by
  have hmem : ∀ i u, (i, u) ∈ toks.filter (fun p => p.1 ≠ id) ↔ (i, u) ∈ toks ∧ i ≠ id := by
    intro i u; rw [List.mem_filter]; simp
  have hact' : ∀ u, Tasks.active w'.tasks u = if t = u then none else Tasks.active w.tasks u := by
    intro u; rw [htasks, Tasks.active_insert, hact]
  have hname' : ∀ u, Tasks.name w'.tasks u = Tasks.name w.tasks u := by
    intro u; unfold Tasks.name; rw [htasks, FMap.get_insert]
    split
    · rename_i hu; subst hu; rw [hx]; simp [hreq]
    · rfl
  refine ⟨?_, ?_, ?_, ?_, ?_⟩
  · rcases hon with ⟨⟨u, hu⟩, hon⟩ | ⟨hn, hon⟩
    · rw [hon, filter_one h.nodup hu, h.len]
    · rw [hon, filter_none hn, h.len]
  · exact (List.Sublist.map _ (List.filter_sublist)).nodup h.nodup
  · intro i u
    rw [hmem, hact', h.mem]
    constructor
    · rintro ⟨⟨ha, hreg⟩, hne⟩
      refine ⟨?_, by rw [hget i hne]; exact hreg⟩
      split
      · rename_i hu
        subst hu
        rw [Tasks.active_of hx] at ha
        rcases hwas with hw | hw <;> rw [hw] at ha
        · cases ha
        · cases ha; exact absurd rfl hne
      · exact ha
    · rintro ⟨ha, hreg⟩
      split at ha
      · cases ha
      · rename_i hu
        by_cases hne : i = id
        · subst hne
          rcases hid with hn | ⟨⟨name, hn⟩, hw, hreg'⟩
          · exact absurd hn hreg
          · exact absurd (fst_unique h.nodup
              ((h.mem i t).mpr ⟨by rw [Tasks.active_of hx, hw], hreg'⟩)
              ((h.mem i u).mpr ⟨ha, hreg'⟩)) hu
        · exact ⟨⟨ha, by rw [← hget i hne]; exact hreg⟩, hne⟩
  · intro i name on hg
    by_cases hne : i = id
    · subst hne
      rcases hid with hn | ⟨⟨name', hn⟩, -, -⟩
      · rw [hn] at hg; cases hg
      · rw [hn] at hg; cases hg
        constructor
        · intro hc; cases hc
        · rintro ⟨u, hu⟩; exact absurd rfl ((hmem i u).mp hu).2
    · rw [hget i hne] at hg
      rw [h.mark i name on hg]
      constructor
      · rintro ⟨u, hu⟩; exact ⟨u, (hmem i u).mpr ⟨hu, hne⟩⟩
      · rintro ⟨u, hu⟩; exact ⟨u, ((hmem i u).mp hu).1⟩
  · intro i u name on hm hg
    rw [hname']
    have hm' := (hmem i u).mp hm
    rw [hget i hm'.2] at hg
    exact h.name i u name on hm'.1 hg

/-- A client is removed. -/
theorem ExactInv.remove {toks : List (ClientId × TaskId)} (h : ExactInv w toks)
    (hi : w.registry.Inv) {id : ClientId} {r : Registry} (hrem : w.registry.remove id = some r)
    (hr : w'.registry = r) {t : TaskId} {x x' : Task} (hx : w.tasks.get t = some x)
    (hwas : x.stage.active? = none ∨ x.stage.active? = some id)
    (htasks : w'.tasks = w.tasks.insert t x') (hact : x'.stage.active? = none)
    (hreq : x'.req = x.req) : ∃ toks, ExactInv w' toks := by
  obtain ⟨-, h2, -, -⟩ := hi.remove_get hrem
  have hon := Registry.remove_online hrem
  refine ⟨_, h.drop hx hwas htasks hact hreq ?_ (.inl ?_) ?_⟩
  · intro id' hne; rw [hr, h2, FMap.get_erase_ne _ (Ne.symm hne)]
  · rw [hr, h2, FMap.get_erase_self]
  · rw [hr, hon]
    cases hg : w.registry.idMap.get id with
    | none =>
      exact .inr ⟨fun u hu => ((h.mem id u).mp hu).2 hg, rfl⟩
    | some en =>
      obtain ⟨name, on⟩ := en
      have hm := h.mark id name on hg
      cases on with
      | false => exact .inr ⟨(fun u hu => by have := hm.mpr ⟨u, hu⟩; cases this), rfl⟩
      | true => exact .inl ⟨hm.mp rfl, rfl⟩

/-- A session becomes offline. -/
theorem ExactInv.offline {toks : List (ClientId × TaskId)} (h : ExactInv w toks) {t : TaskId}
    {id : ClientId} {x x' : Task} (hx : w.tasks.get t = some x) (hwas : x.stage.active? = some id)
    (hreg : w.registry.idMap.get id ≠ none) {r : Registry} (hoff : w.registry.offline id = some r)
    (hr : w'.registry = r) (htasks : w'.tasks = w.tasks.insert t x')
    (hact : x'.stage.active? = none) (hreq : x'.req = x.req) : ∃ toks, ExactInv w' toks := by
  unfold Registry.offline at hoff
  split at hoff
  · cases hoff
  simp only [Option.some.injEq] at hoff
  have hget : ∀ id', w'.registry.idMap.get id' = FMap.get (w.registry.mark id false) id' := by
    intro id'; rw [hr, ← hoff]
  refine ⟨_, h.drop hx (.inr hwas) htasks hact hreq ?_ (.inr ⟨?_, hwas, hreg⟩) ?_⟩
  · intro id' hne; rw [hget, Registry.get_mark, if_neg hne]
  · cases hg : w.registry.idMap.get id with
    | none => exact absurd hg hreg
    | some en => exact ⟨en.1, by rw [hget, Registry.get_mark, if_pos rfl, hg]; rfl⟩
  · exact .inl ⟨⟨t, (h.mem id t).mpr ⟨by rw [Tasks.active_of hx, hwas], hreg⟩⟩, by rw [hr, ← hoff]⟩

theorem isOpen_iff {t : TaskId} : w.isOpen t ↔ ∃ id, Tasks.active w.tasks t = some id := by
  unfold World.isOpen Tasks.active
  cases hg : FMap.get w.tasks t with
  | none => simp
  | some x => cases hst : x.stage <;> simp [Stage.active?, hst]

theorem not_established {t : TaskId} {x : Task} (hx : w.tasks.get t = some x)
    (h : (∃ id, x.stage = .waiting id) ∨ ∃ s l, x.stage = .granted s l) : ¬ w.established t := by
  rintro ⟨y, hy, hst⟩
  rw [hx] at hy; cases hy
  rcases h with ⟨id, h⟩ | ⟨s, l, h⟩ <;> rw [h] at hst <;> exact hst

theorem stopped_insert {t : TaskId} {x' : Task} (htasks : w'.tasks = w.tasks.insert t x')
    (h : x'.stage = .gone) : w'.stopped t := ⟨x', by rw [htasks, FMap.get_insert_self], h⟩

/-- A step. -/
theorem ExactInv.case {a : Act} {toks : List (ClientId × TaskId)} (h : ExactInv w toks) (ho : OInv w)
    (halone : ∀ req env wr, a = .connect req env wr → ∀ t r, w.request t = some r →
      r.identifier = req.identifier → ¬ w.isOpen t)
    (hserved : ∀ t, ¬ w.stopped t → w'.stopped t → w.established t)
    (hc : WCase cfg ext w a w' e) : ∃ toks, ExactInv w' toks := by
  have hal : ∀ {req env wr}, a = .connect req env wr →
      ∀ t, Tasks.name w.tasks t = some req.identifier → Tasks.active w.tasks t = none := by
    intro req env wr ha t hn
    cases hact : Tasks.active w.tasks t with
    | none => rfl
    | some id =>
      unfold Tasks.name at hn
      cases hx : FMap.get w.tasks t with
      | none => rw [hx] at hn; cases hn
      | some x =>
        rw [hx] at hn
        exact absurd (isOpen_iff.mpr ⟨id, hact⟩) (halone req env wr ha t x.req
          (by unfold World.request; rw [hx]; rfl) (by simpa using hn))
  have hnew : ¬ w.stopped w.nextTask ∧ ¬ w.established w.nextTask := by
    have hg : w.tasks.get w.nextTask = none := by
      cases hg : FMap.get w.tasks w.nextTask with
      | none => rfl
      | some x =>
        exact absurd (ho.fresh w.nextTask (by rw [(Tasks.views hg).2.2.2.1]; simp)) (Nat.lt_irrefl _)
    refine ⟨?_, ?_⟩
    · rintro ⟨x, hx, -⟩; rw [hg] at hx; cases hx
    · rintro ⟨x, hx, -⟩; rw [hg] at hx; cases hx
  have waiting_of : ∀ {id q pr b y}, w.control.get id = some (.online pr b :: q) →
      w.tasks.get b = some y → y.stage = .waiting id := by
    intro id q pr b y hq hy
    have hb := (ho.queue _ _ _ _ hq List.mem_cons_self).1
    rw [(Tasks.views hy).2.2.1] at hb
    cases hys : y.stage <;> rw [hys] at hb <;> simp only [Stage.waiting?] at hb
    all_goals first | cases hb | skip
    rfl
  have not_stopped : ∀ {t x}, w.tasks.get t = some x → x.stage ≠ .gone → ¬ w.stopped t := by
    rintro t x hx hne ⟨y, hy, hst⟩
    rw [hx] at hy; cases hy; exact hne hst
  cases hc with
  | idle => exact ⟨toks, h⟩
  | fresh req env r id hadd hw s out hs =>
    refine ⟨_, h.add ho hadd (.inl rfl) rfl rfl ?_ rfl (hal rfl)⟩
    show some s.clientId = some id
    have := (sameId_pendings hs).client
    rw [this, (start_ids cfg req.level.proto req.identifier id req.params).1]
  | stillborn req env wr r id hadd =>
    exact absurd (hserved _ hnew.1 (stopped_insert rfl rfl)) hnew.2
  | wait req env wr r id q hadd hq =>
    exact ⟨_, h.add ho hadd (.inr rfl) rfl rfl rfl rfl (hal rfl)⟩
  | locked req env wr r id hadd hq =>
    exact absurd (hserved _ hnew.1 (stopped_insert rfl rfl)) hnew.2
  | accept t env x old level hx hst hw s0 present h0 s out hs =>
    refine ⟨toks, h.one rfl hx rfl ?_ rfl⟩
    rw [hst]
    show some s.clientId = some old.clientId
    rw [active_session cfg h0 hs]
  | refused t env wr x old level hx hst =>
    exact absurd (hserved t (not_stopped hx (by rw [hst]; simp)) (stopped_insert rfl rfl))
      (not_established hx (.inr ⟨_, _, hst⟩))
  | packet t env after size p x s hx hst hd r hr hroom =>
    refine ⟨toks, h.one rfl hx rfl ?_ rfl⟩
    have hid : r.session.clientId = s.clientId := (ends_onPacket hr).client
    rw [hst]
    show (if r.closed = true then Stage.closed r.session else Stage.online r.session).active? = _
    split <;> simp [Stage.active?, hid]
  | normalOn t env x s hx hst hd src m rest hi =>
    refine ⟨toks, h.one rfl hx rfl ?_ rfl⟩
    rw [hst]
    show some _ = some _
    rw [(sameEnd_onNormal (cfg := cfg) (pr := x.req.level.proto) (env := env) (g := w.global)
      (s := s) (m := m)).client]
  | normalOff t env x s hx hst hd src m rest hi =>
    exact ⟨toks, h.one rfl hx rfl (by rw [hst]; rfl) rfl⟩
  | handOn t env x s hx hst b y q hq hy =>
    have hreg := ho.registered hx (by rw [hst]; rfl)
    have hy' := waiting_of hq hy
    have hbt := fst_unique h.nodup
      ((h.mem s.clientId t).mpr ⟨by rw [Tasks.active_of hx, hst]; rfl, hreg⟩)
      ((h.mem s.clientId b).mpr ⟨by rw [Tasks.active_of hy, hy']; rfl, hreg⟩)
    subst hbt
    rw [hx] at hy; cases hy
    rw [hst] at hy'; cases hy'
  | handOff t env x s hx hst hd b y q hq hy msgs inbox hm =>
    have hy' := waiting_of hq hy
    have htb : t ≠ b := by
      rintro rfl
      rw [hx] at hy; cases hy
      rw [hst] at hy'; cases hy'
    have hdr : (drainInbox cfg x.req.level.proto env s msgs).clientId = s.clientId :=
      (SameEnd.of_core (core_drain s msgs)).client
    refine ⟨toks, h.quiet rfl ?_ ?_⟩
    · intro u
      simp only
      rw [Tasks.active_insert, Tasks.active_insert]
      split
      · rename_i hu; subst hu
        rw [Tasks.active_of hy, hy']
        simp [Stage.active?, hdr]
      · split
        · rename_i hu; subst hu
          rw [Tasks.active_of hx, hst]; rfl
        · rfl
    · intro u id _
      unfold Tasks.name
      simp only
      rw [FMap.get_insert, FMap.get_insert]
      split
      · rename_i hu; subst hu; rw [hy]; rfl
      · split
        · rename_i hu; subst hu; rw [hx]; rfl
        · rfl
  | deny t env x s hx hst pr b y q hq hpr hy =>
    have hy' := waiting_of hq hy
    exact absurd (hserved b (not_stopped hy (by rw [hy']; simp)) (stopped_insert rfl rfl))
      (not_established hy (.inl ⟨_, hy'⟩))
  | ignored t env x s hx hst c q hq hc => exact ⟨toks, h.quiet rfl (fun _ => rfl) (fun _ _ _ => rfl)⟩
  | kicked t env x s hx hst q hq => exact ⟨toks, h.one rfl hx rfl (by rw [hst]; rfl) rfl⟩
  | expire t env x s hx hst hd time q hq hpr ht s' g m hw r route hrem =>
    exact h.remove ho.reg (removeClient_run hrem).1 rfl hx (.inl (by rw [hst]; rfl)) rfl rfl rfl
  | lateWill t env x s hx hst hd time q hq hpr ht s' g m hw =>
    exact ⟨toks, h.one rfl hx rfl (by rw [hst]; rfl) rfl⟩
  | lose t x s hx hst => exact ⟨toks, h.one rfl hx rfl (by rw [hst]; rfl) rfl⟩
  | closeQuiet t env lost x s hx hst hd => exact ⟨toks, h.one rfl hx rfl (by rw [hst]; rfl) rfl⟩
  | closeWill t env lost x s hx hst hd hp s' g m hw =>
    refine ⟨toks, h.one rfl hx rfl ?_ rfl⟩
    rw [hst]
    show some s'.clientId = some s.clientId
    rw [hw.client]
  | closeDelayed t env lost x s hx hst hd hp =>
    exact ⟨toks, h.one rfl hx rfl (by rw [hst]; rfl) rfl⟩
  | push t d x s hx hst m rest hq hk =>
    exact ⟨toks, h.one rfl hx rfl (active_sending hst rfl) rfl⟩
  | flush t d x hx m q hk hi hl => exact ⟨toks, h.one rfl hx rfl rfl rfl⟩
  | giveUp t d x s hx hst hi => exact ⟨toks, h.one rfl hx rfl (active_sending hst rfl) rfl⟩
  | remove t x s hx hst hd r route hrem =>
    refine h.remove ho.reg (removeClient_run hrem).1 rfl hx ?_ rfl rfl rfl
    rcases hst with ⟨hst, -⟩ | hst <;> rw [hst]
    · exact .inr rfl
    · exact .inl rfl
  | rest t x s hx hst hd he r hr timers htm =>
    exact h.offline hx (id := s.clientId) (by rw [hst]; rfl)
      (ho.registered hx (by rw [hst]; rfl)) hr rfl rfl rfl rfl
  | fire i tm ht w' hw =>
    rcases hw with ⟨rfl, -⟩ | ⟨q, -, -, rfl⟩
    · exact ⟨toks, h.quiet rfl (fun _ => rfl) (fun _ _ _ => rfl)⟩
    · exact ⟨toks, h.quiet rfl (fun _ => rfl) (fun _ _ _ => rfl)⟩
  | kick id q hr hq => exact ⟨toks, h.quiet rfl (fun _ => rfl) (fun _ _ _ => rfl)⟩

theorem Undisturbed.prefix {acts acts' : List Act} (h : Undisturbed cfg ext (acts ++ acts')) :
    Undisturbed cfg ext acts :=
  ⟨fun A req env wr B he => h.alone A req env wr (B ++ acts') (by rw [he]; simp),
    fun A a B he => h.served A a (B ++ acts') (by rw [he]; simp)⟩

theorem exact_run {acts : List Act} (hrun : Reaches cfg ext acts w evs)
    (hu : Undisturbed cfg ext acts) : ∃ toks, ExactInv w toks := by
  have key := world_induction_acts
    (P := fun acts w evs => Reaches cfg ext acts w evs ∧
      (Undisturbed cfg ext acts → ∃ toks, ExactInv w toks)) (w0 := {})
    ⟨rfl, fun _ => ⟨[], ExactInv.init⟩⟩
    (fun acts w evs a w' e h hs => by
      refine ⟨run_snoc_world.mpr ⟨w, evs, e, h.1, hs, rfl⟩, fun hu => ?_⟩
      obtain ⟨toks, ht⟩ := h.2 hu.prefix
      exact ht.case (BrokerInv.run h.1).own
        (fun req env wr ha => hu.alone acts req env wr [] (by rw [ha]) w evs h.1)
        (hu.served acts a [] rfl w evs w' e h.1 hs) (step_cases hs)) hrun
  exact key.2 hu

/-- An open connection that does not wait belongs to a registered client. -/
theorem open_registered (ho : OInv w) {t : TaskId} {id : ClientId}
    (ha : Tasks.active w.tasks t = some id) (hw : ¬ w.waits t) : w.registry.idMap.get id ≠ none := by
  unfold Tasks.active at ha
  cases hx : FMap.get w.tasks t with
  | none => rw [hx] at ha; cases ha
  | some x =>
    rw [hx] at ha
    simp only [Option.bind_some] at ha
    cases hst : x.stage <;> rw [hst] at ha <;> simp only [Stage.active?, Option.some.injEq] at ha
    case waiting i => exact absurd ⟨x, i, hx, hst⟩ hw
    case gone => cases ha
    case offline => cases ha
    case expired => cases ha
    all_goals subst ha; exact ho.registered hx (by rw [hst]; rfl)

theorem nodup_le {l l' : List Nat} (h : l.Nodup) (hm : ∀ a ∈ l, a ∈ l') : l.length ≤ l'.length := by
  induction l generalizing l' with
  | nil => exact Nat.zero_le _
  | cons a l ih =>
    have ha := hm a List.mem_cons_self
    have hn := List.nodup_cons.mp h
    have hl := ih (l' := l'.erase a) hn.2 (fun b hb =>
      (List.mem_erase_of_ne (by rintro rfl; exact hn.1 hb)).mpr (hm b (List.mem_cons_of_mem _ hb)))
    rw [List.length_erase_of_mem ha] at hl
    have : 0 < l'.length := List.length_pos_of_mem ha
    simp only [List.length_cons]
    omega

theorem tasks_nodup {toks : List (ClientId × TaskId)} (h : ExactInv w toks) :
    (toks.map (·.2)).Nodup := by
  have hn := h.nodup
  have hm : ∀ p ∈ toks, Tasks.active w.tasks p.2 = some p.1 := fun p hp => ((h.mem p.1 p.2).mp hp).1
  clear h
  induction toks with
  | nil => exact List.nodup_nil
  | cons p toks ih =>
    simp only [List.map_cons, List.nodup_cons, List.mem_map, not_exists, not_and] at hn ⊢
    refine ⟨?_, ih hn.2 (fun q hq => hm q (List.mem_cons_of_mem _ hq))⟩
    intro q hq he
    have h1 := hm p List.mem_cons_self
    have h2 := hm q (List.mem_cons_of_mem _ hq)
    rw [he, h1] at h2
    exact hn.1 q hq (Option.some.inj h2).symm

/-- Whether the task is open, stopped, established, by computation. -/
def Stage.openNow : Stage → Bool
  | .waiting _ | .granted _ _ | .online _ | .closed _ | .ending _ => true
  | _ => false

def Stage.stoppedNow : Stage → Bool
  | .gone => true
  | _ => false

def Stage.establishedNow : Stage → Bool
  | .waiting _ | .granted _ _ | .gone => false
  | _ => true

/-- `Undisturbed`, by computation. -/
def calmly (cfg : Config) (ext : Ext) : World → List Act → Bool
  | _, [] => true
  | w, a :: as =>
    (match a with
      | .connect req _ _ => w.tasks.all fun p =>
          !(p.2.req.identifier == req.identifier && p.2.stage.openNow)
      | _ => true) &&
    (match w.step cfg ext a with
      | none => true
      | some (w', _) =>
        (w'.tasks.all fun p => !p.2.stage.stoppedNow ||
          ((w.tasks.get p.1).map fun x => x.stage.stoppedNow || x.stage.establishedNow) ==
            some true) &&
        calmly cfg ext w' as)

theorem calmly_split {A B : List Act} {a : Act} {w0 : World}
    (h : calmly cfg ext w0 (A ++ a :: B) = true) (hA : World.run cfg ext w0 A = some (w, evs)) :
    calmly cfg ext w (a :: B) = true := by
  induction A generalizing w0 evs with
  | nil => cases hA; exact h
  | cons b A ih =>
    rw [List.cons_append] at h
    unfold calmly at h
    unfold World.run at hA
    split at hA
    · cases hA
    · rename_i w1 e1 h1
      rw [h1] at h
      simp only [Bool.and_eq_true] at h
      cases hr : World.run cfg ext w1 A with
      | none => rw [hr] at hA; cases hA
      | some r =>
        rw [hr] at hA
        cases hA
        exact ih h.2.2 hr

theorem undisturbed_of {acts : List Act} (h : calmly cfg ext {} acts = true) :
    Undisturbed cfg ext acts := by
  constructor
  · rintro A req env wr B rfl w evs hA t r hr hid ⟨x, hx, ho⟩
    have hc := calmly_split h hA
    unfold calmly at hc
    simp only [Bool.and_eq_true, List.all_eq_true] at hc
    have := hc.1 (t, x) (FMap.mem_of_get hx)
    unfold World.request at hr
    rw [hx] at hr
    cases hr
    have hop : x.stage.openNow = true := by
      cases hst : x.stage <;> rw [hst] at ho <;> first | rfl | cases ho
    simp [hop, hid] at this
  · rintro A a B rfl w evs w' e hA hs t hn ⟨x', hx', hst'⟩
    have hc := calmly_split h hA
    unfold calmly at hc
    rw [hs] at hc
    simp only [Bool.and_eq_true, List.all_eq_true] at hc
    have := hc.2.1 (t, x') (FMap.mem_of_get hx')
    rw [show x'.stage.stoppedNow = true by rw [hst']; rfl] at this
    cases hx : FMap.get w.tasks t with
    | none => simp [hx] at this
    | some x =>
      simp only [hx, Option.map_some, Bool.not_true, Bool.false_or, beq_iff_eq,
        Option.some.injEq] at this
      refine ⟨x, hx, ?_⟩
      have hns : x.stage ≠ .gone := fun hg => hn ⟨x, hx, hg⟩
      cases hst : x.stage <;> rw [hst] at this hns <;>
        first | trivial | (exact absurd rfl hns) | cases this

end Akasa
