import Verif.Proof.WorldTime
import Verif.Proof.RoutePlain
import Verif.Spec.Panic
/-! # The assertions of the registry never fail, and nothing else panics without shared groups -/
namespace Akasa

variable {cfg : Config} {ext : Ext} {w w' : World} {e : List Event}

/-- The client a connection that is not over yet belongs to. -/
def Stage.active? : Stage → Option ClientId
  | .waiting id => some id
  | .granted s _ => some s.clientId
  | .online s => some s.clientId
  | .closed s => some s.clientId
  | .ending s => some s.clientId
  | _ => none

/-- The client a connection that is not over yet belongs to. -/
def Tasks.active (m : Tasks) (t : TaskId) : Option ClientId :=
  (m.get t).bind fun x => x.stage.active?

theorem Tasks.active_insert (m : Tasks) (t u : TaskId) (x : Task) :
    active (FMap.insert m t x) u = if t = u then x.stage.active? else active m u := by
  unfold active; rw [FMap.get_insert]; split <;> rfl

theorem Tasks.active_of {m : Tasks} {t : TaskId} {x : Task} (hx : FMap.get m t = some x) :
    active m t = x.stage.active? := by
  unfold active; rw [hx]; rfl

/-- The counter of online clients covers every connection that is not over (as long as its client is
registered) and every client marked online. -/
structure TokInv (w : World) (toks : List (ClientId × TaskId)) : Prop where
  few : toks.length ≤ w.registry.online
  task : ∀ t id, Tasks.active w.tasks t = some id → w.registry.idMap.get id ≠ none → (id, t) ∈ toks
  mark : ∀ id name, w.registry.idMap.get id = some (name, true) → ∃ t, (id, t) ∈ toks

theorem TokInv.init : TokInv {} [] :=
  ⟨Nat.le_refl _, (fun t id h => by cases h), (fun id name h => by cases h)⟩

theorem TokInv.quiet {toks : List (ClientId × TaskId)} (h : TokInv w toks)
    (hr : w'.registry = w.registry)
    (ht : ∀ t id, Tasks.active w'.tasks t = some id → Tasks.active w.tasks t = some id) :
    TokInv w' toks :=
  ⟨by rw [hr]; exact h.few, (fun t id h1 h2 => h.task t id (ht t id h1) (by rw [← hr]; exact h2)),
    (fun id name h1 => h.mark id name (by rw [← hr]; exact h1))⟩

/-- One task changes, and belongs to the same client or to none. -/
theorem TokInv.one {toks : List (ClientId × TaskId)} (h : TokInv w toks)
    (hr : w'.registry = w.registry) {t : TaskId} {x' : Task}
    (htasks : w'.tasks = w.tasks.insert t x')
    (hact : x'.stage.active? = none ∨ x'.stage.active? = Tasks.active w.tasks t) :
    TokInv w' toks := by
  refine h.quiet hr ?_
  intro u id hu
  rw [htasks, Tasks.active_insert] at hu
  split at hu
  · rename_i htu
    subst htu
    rcases hact with ha | ha
    · rw [ha] at hu; cases hu
    · rw [← ha]; exact hu
  · exact hu

/-- A connection is made. -/
theorem TokInv.add {toks : List (ClientId × TaskId)} (h : TokInv w toks) (hi : w.registry.Inv)
    {name : Str} {r : Registry} {a : Added} {id : ClientId}
    (hadd : w.registry.add name = some (r, a)) (hid : a = .new id ∨ a = .present id)
    (hr : w'.registry = r) {t : TaskId} {x' : Task} (htasks : w'.tasks = w.tasks.insert t x')
    (hact : x'.stage.active? = none ∨ x'.stage.active? = some id)
    (hfresh : ∀ u, Tasks.active w.tasks u = some w.registry.nextId → False) :
    TokInv w' ((id, t) :: toks) := by
  have ht : ∀ u id', Tasks.active w'.tasks u = some id' →
      (u = t ∧ id' = id) ∨ Tasks.active w.tasks u = some id' := by
    intro u id' hu
    rw [htasks, Tasks.active_insert] at hu
    split at hu
    · rename_i htu
      rcases hact with ha | ha
      · rw [ha] at hu; cases hu
      · rw [ha] at hu; exact .inl ⟨htu.symm, (Option.some.inj hu).symm⟩
    · exact .inr hu
  cases hi.add_cases hadd with
  | present old on h1 h2 =>
    have hold : old = id := by
      rcases hid with hid | hid
      · cases hid
      · cases hid; rfl
    subst hold
    refine ⟨?_, ?_, ?_⟩
    · rw [hr]; exact Nat.succ_le_succ h.few
    · intro u id' hu hreg
      rcases ht u id' hu with ⟨rfl, rfl⟩ | hu
      · exact List.mem_cons_self
      · refine List.mem_cons_of_mem _ (h.task u id' hu ?_)
        intro hn
        apply hreg
        rw [hr]
        show FMap.get (w.registry.mark old true) id' = none
        rw [Registry.get_mark]
        split
        · rename_i he; subst he; rw [hn]; rfl
        · exact hn
    · intro id' name' hm
      by_cases he : id' = old
      · subst he; exact ⟨t, List.mem_cons_self⟩
      · rw [hr] at hm
        have hm : FMap.get (w.registry.mark old true) id' = some (name', true) := hm
        rw [Registry.get_mark] at hm
        split at hm
        · rename_i he'; exact absurd he'.symm (by first | exact he | exact fun h => he h.symm)
        · obtain ⟨u, hu⟩ := h.mark id' name' hm
          exact ⟨u, List.mem_cons_of_mem _ hu⟩
  | new hn =>
    have hold : w.registry.nextId = id := by
      rcases hid with hid | hid
      · cases hid; rfl
      · cases hid
    subst hold
    refine ⟨?_, ?_, ?_⟩
    · rw [hr]; exact Nat.succ_le_succ h.few
    · intro u id' hu hreg
      rcases ht u id' hu with ⟨rfl, rfl⟩ | hu
      · exact List.mem_cons_self
      · refine List.mem_cons_of_mem _ (h.task u id' hu ?_)
        intro hn'
        by_cases he : id' = w.registry.nextId
        · subst he; exact hfresh u hu
        · apply hreg
          rw [hr]
          show FMap.get (w.registry.idMap.insert w.registry.nextId (name, true)) id' = none
          rw [FMap.get_insert_ne _ _ (Ne.symm he)]
          exact hn'
    · intro id' name' hm
      by_cases he : id' = w.registry.nextId
      · subst he; exact ⟨t, List.mem_cons_self⟩
      · rw [hr] at hm
        have hm : FMap.get (w.registry.idMap.insert w.registry.nextId (name, true)) id' =
          some (name', true) := hm
        rw [FMap.get_insert_ne _ _ (Ne.symm he)] at hm
        obtain ⟨u, hu⟩ := h.mark id' name' hm
        exact ⟨u, List.mem_cons_of_mem _ hu⟩

/-- `remove_client` cannot fail. -/
theorem TokInv.remove_some {toks : List (ClientId × TaskId)} (h : TokInv w toks) (id : ClientId) :
    ∃ r, w.registry.remove id = some r := by
  unfold Registry.remove
  split
  · rename_i name on hg
    split
    · rename_i hb
      simp only [Bool.and_eq_true, beq_iff_eq] at hb
      obtain ⟨rfl, hz⟩ := hb
      obtain ⟨t, ht⟩ := h.mark id name hg
      have := h.few
      rw [hz] at this
      have : toks = [] := List.length_eq_zero_iff.mp (Nat.le_zero.mp this)
      rw [this] at ht; cases ht
    · exact ⟨_, rfl⟩
  · exact ⟨_, rfl⟩

theorem Registry.remove_online {r r' : Registry} {id : ClientId} (h : r.remove id = some r') :
    r'.online = (match r.idMap.get id with
      | some (_, true) => r.online - 1
      | _ => r.online) := by
  unfold Registry.remove at h
  split at h
  · rename_i name on hg
    rw [hg]
    split at h
    · cases h
    · cases h
      cases on <;> rfl
  · rename_i hg
    rw [hg]
    cases h; rfl

/-- A client is removed. -/
theorem TokInv.remove {toks : List (ClientId × TaskId)} (h : TokInv w toks) (hi : w.registry.Inv)
    {id : ClientId} {r : Registry} (hrem : w.registry.remove id = some r)
    (hr : w'.registry = r) {t : TaskId} {x' : Task} (htasks : w'.tasks = w.tasks.insert t x')
    (hact : x'.stage.active? = none) : ∃ toks, TokInv w' toks := by
  obtain ⟨-, h2, -, -⟩ := hi.remove_get hrem
  have hon := Registry.remove_online hrem
  have ht : ∀ u id', Tasks.active w'.tasks u = some id' → Tasks.active w.tasks u = some id' := by
    intro u id' hu
    rw [htasks, Tasks.active_insert] at hu
    split at hu
    · rw [hact] at hu; cases hu
    · exact hu
  have hget : ∀ id', w'.registry.idMap.get id' = if id = id' then none else w.registry.idMap.get id' := by
    intro id'; rw [hr, h2, FMap.get_erase]
  have build : ∀ toks' : List (ClientId × TaskId), toks'.length ≤ r.online →
      (∀ id' u, id' ≠ id → (id', u) ∈ toks → (id', u) ∈ toks') → TokInv w' toks' := by
    intro toks' hl hk
    refine ⟨by rw [hr]; exact hl, ?_, ?_⟩
    · intro u id' hu hreg
      rw [hget] at hreg
      split at hreg
      · exact absurd rfl hreg
      · rename_i hne
        exact hk id' u (Ne.symm hne) (h.task u id' (ht u id' hu) hreg)
    · intro id' name' hm
      rw [hget] at hm
      split at hm
      · cases hm
      · rename_i hne
        obtain ⟨u, hu⟩ := h.mark id' name' hm
        exact ⟨u, hk id' u (Ne.symm hne) hu⟩
  cases hg : w.registry.idMap.get id with
  | none =>
    rw [hg] at hon
    exact ⟨toks, build toks (by rw [hon]; exact h.few) (fun _ _ _ hm => hm)⟩
  | some en =>
    obtain ⟨name, on⟩ := en
    rw [hg] at hon
    cases on with
    | false => exact ⟨toks, build toks (by rw [hon]; exact h.few) (fun _ _ _ hm => hm)⟩
    | true =>
      obtain ⟨u, hu⟩ := h.mark id name hg
      refine ⟨toks.erase (id, u), build _ ?_ ?_⟩
      · rw [List.length_erase_of_mem hu, hon]
        exact Nat.sub_le_sub_right h.few 1
      · intro id' u' hne hm
        exact (List.mem_erase_of_ne (by intro he; exact hne (congrArg Prod.fst he))).mpr hm

/-- `offline_client` cannot fail. -/
theorem TokInv.offline_some {toks : List (ClientId × TaskId)} (h : TokInv w toks) {t : TaskId}
    {id : ClientId} (hact : Tasks.active w.tasks t = some id)
    (hreg : w.registry.idMap.get id ≠ none) : ∃ r, w.registry.offline id = some r := by
  unfold Registry.offline
  split
  · rename_i hz
    have hm := h.task t id hact hreg
    have := h.few
    rw [hz] at this
    have : toks = [] := List.length_eq_zero_iff.mp (Nat.le_zero.mp this)
    rw [this] at hm; cases hm
  · exact ⟨_, rfl⟩

/-- A session becomes offline. -/
theorem TokInv.offline {toks : List (ClientId × TaskId)} (h : TokInv w toks) {t : TaskId}
    {id : ClientId} (hwas : Tasks.active w.tasks t = some id)
    (hreg : w.registry.idMap.get id ≠ none) {r : Registry} (hoff : w.registry.offline id = some r)
    (hr : w'.registry = r) {x' : Task} (htasks : w'.tasks = w.tasks.insert t x')
    (hact : x'.stage.active? = none) : ∃ toks, TokInv w' toks := by
  have hm := h.task t id hwas hreg
  unfold Registry.offline at hoff
  split at hoff
  · cases hoff
  simp only [Option.some.injEq] at hoff
  have hget : ∀ id', w'.registry.idMap.get id' =
      if id = id' then (w.registry.idMap.get id).map fun e => (e.1, false)
      else w.registry.idMap.get id' := by
    intro id'
    rw [hr, ← hoff]
    show FMap.get (w.registry.mark id false) id' = _
    rw [Registry.get_mark]
    by_cases he : id = id'
    · subst he; simp
    · simp [he, Ne.symm he]
  refine ⟨toks.erase (id, t), ?_, ?_, ?_⟩
  · rw [List.length_erase_of_mem hm, hr, ← hoff]
    exact Nat.sub_le_sub_right h.few 1
  · intro u id' hu hreg'
    rw [htasks, Tasks.active_insert] at hu
    split at hu
    · rw [hact] at hu; cases hu
    · rename_i hne
      refine (List.mem_erase_of_ne (by intro he; exact hne (congrArg Prod.snd he).symm)).mpr
        (h.task u id' hu ?_)
      intro hn
      apply hreg'
      rw [hget]
      split
      · rename_i he; subst he; rw [hn]; rfl
      · exact hn
  · intro id' name' hmk
    rw [hget] at hmk
    split at hmk
    · cases hc : w.registry.idMap.get id <;> rw [hc] at hmk <;> simp at hmk
    · rename_i hne
      obtain ⟨u, hu⟩ := h.mark id' name' hmk
      exact ⟨u, (List.mem_erase_of_ne (by intro he; exact hne (congrArg Prod.fst he).symm)).mpr hu⟩

/-- An owner is registered. -/
theorem OInv.registered (h : OInv w) {t : TaskId} {x : Task} {s : Session}
    (hx : w.tasks.get t = some x) (hs : x.stage.owner? = some s) :
    w.registry.idMap.get s.clientId ≠ none := by
  have hn := h.named t s.clientId x.req.identifier
    (by rw [(Tasks.views hx).2.1, hs]; rfl) (Tasks.views hx).2.2.2.1
  have := (h.reg.inverse s.clientId x.req.identifier).mpr hn
  intro hc
  rw [hc] at this; cases this

theorem OInv.active_below (h : OInv w) {t : TaskId} {id : ClientId}
    (ha : Tasks.active w.tasks t = some id) : id < w.registry.nextId := by
  unfold Tasks.active at ha
  cases hx : FMap.get w.tasks t with
  | none => rw [hx] at ha; cases ha
  | some x =>
    rw [hx] at ha
    simp only [Option.bind_some] at ha
    have hv := Tasks.views hx
    cases hst : x.stage <;> rw [hst] at ha hv <;> simp only [Stage.active?, Option.some.injEq] at ha
    case waiting i => subst ha; exact h.known t _ hv.2.2.1
    case gone => cases ha
    case offline => cases ha
    case expired => cases ha
    all_goals subst ha; exact h.below t _ hv.1

theorem active_session (cfg : Config) {req : Request} {old : Session} {level : Level} {s0 s : Session}
    {b : Bool} {clk : Clock} {out : List OutPkt} (h0 : req.session cfg old level = (s0, b))
    (hs : handlePendingsOf pr clk s0 = (s, out)) : s.clientId = old.clientId := by
  have h1 := (sameId_pendings hs).client
  have h2 := session_client cfg req old level
  rw [h0] at h2
  rw [h1, h2]

theorem active_sending {st : Stage} {s s' : Session} (h : st.sending? = some s)
    (hid : s'.clientId = s.clientId) : (st.setSession s').active? = st.active? := by
  cases st <;> simp [Stage.sending?] at h <;> subst h <;>
    simp [Stage.active?, Stage.setSession, hid]

theorem TokInv.case {a : Act} {toks : List (ClientId × TaskId)} (h : TokInv w toks) (ho : OInv w)
    (hc : WCase cfg ext w a w' e) : ∃ toks, TokInv w' toks := by
  have hfresh : ∀ u, Tasks.active w.tasks u = some w.registry.nextId → False :=
    fun u hu => absurd (ho.active_below hu) (Nat.lt_irrefl _)
  cases hc with
  | idle => exact ⟨toks, h⟩
  | fresh req env r id hadd hw s out hs =>
    refine ⟨_, h.add ho.reg hadd (.inl rfl) rfl rfl (.inr ?_) hfresh⟩
    show some s.clientId = some id
    have := (sameId_pendings hs).client
    rw [this, (start_ids cfg req.level.proto req.identifier id req.params).1]
  | stillborn req env wr r id hadd =>
    exact ⟨_, h.add ho.reg hadd (.inl rfl) rfl rfl (.inl rfl) hfresh⟩
  | wait req env wr r id q hadd hq =>
    exact ⟨_, h.add ho.reg hadd (.inr rfl) rfl rfl (.inr rfl) hfresh⟩
  | locked req env wr r id hadd hq =>
    exact ⟨_, h.add ho.reg hadd (.inr rfl) rfl rfl (.inl rfl) hfresh⟩
  | accept t env x old level hx hst hw s0 present h0 s out hs =>
    refine ⟨toks, h.one rfl rfl (.inr ?_)⟩
    rw [Tasks.active_of hx, hst]
    show some s.clientId = some old.clientId
    rw [active_session cfg h0 hs]
  | refused t env wr x old level hx hst => exact ⟨toks, h.one rfl rfl (.inl rfl)⟩
  | packet t env after size p x s hx hst hd r hr hroom =>
    refine ⟨toks, h.one rfl rfl (.inr ?_)⟩
    have hid : r.session.clientId = s.clientId := (ends_onPacket hr).client
    rw [Tasks.active_of hx, hst]
    show (if r.closed = true then Stage.closed r.session else Stage.online r.session).active? = _
    split <;> simp [Stage.active?, hid]
  | normalOn t env x s hx hst hd src m rest hi =>
    refine ⟨toks, h.one rfl rfl (.inr ?_)⟩
    rw [Tasks.active_of hx, hst]
    show some _ = some _
    rw [(sameEnd_onNormal (cfg := cfg) (pr := x.req.level.proto) (env := env) (g := w.global)
      (s := s) (m := m)).client]
  | normalOff t env x s hx hst hd src m rest hi => exact ⟨toks, h.one rfl rfl (.inl rfl)⟩
  | handOn t env x s hx hst b y q hq hy =>
    refine ⟨toks, h.quiet rfl ?_⟩
    intro u id hu
    simp only at hu
    rw [Tasks.active_insert, Tasks.active_insert] at hu
    have hb := (ho.queue _ _ _ _ hq List.mem_cons_self).1
    split at hu
    · rename_i hbu
      subst hbu
      rw [(Tasks.views hy).2.2.1] at hb
      rw [Tasks.active_of hy]
      cases hys : y.stage <;> rw [hys] at hb <;> simp only [Stage.waiting?] at hb
      all_goals first | cases hb | skip
      exact hu
    · split at hu
      · cases hu
      · exact hu
  | handOff t env x s hx hst hd b y q hq hy msgs inbox hm =>
    refine ⟨toks, h.quiet rfl ?_⟩
    intro u id hu
    simp only at hu
    rw [Tasks.active_insert, Tasks.active_insert] at hu
    have hb := (ho.queue _ _ _ _ hq List.mem_cons_self).1
    split at hu
    · rename_i hbu
      subst hbu
      rw [(Tasks.views hy).2.2.1] at hb
      rw [Tasks.active_of hy]
      have hdr : (drainInbox cfg x.req.level.proto env s msgs).clientId = s.clientId :=
        (SameEnd.of_core (core_drain s msgs)).client
      simp only [Stage.active?, hdr] at hu
      cases hys : y.stage <;> rw [hys] at hb <;> simp only [Stage.waiting?] at hb
      all_goals first | cases hb | skip
      exact hu
    · split at hu
      · cases hu
      · exact hu
  | deny t env x s hx hst pr b y q hq hpr hy => exact ⟨toks, h.one rfl rfl (.inl rfl)⟩
  | ignored t env x s hx hst c q hq hc => exact ⟨toks, h.quiet rfl (fun _ _ hu => hu)⟩
  | kicked t env x s hx hst q hq =>
    exact ⟨toks, h.one rfl rfl (.inr (by rw [Tasks.active_of hx, hst]; rfl))⟩
  | expire t env x s hx hst hd time q hq hpr ht s' g m hw r route hrem =>
    exact h.remove ho.reg (removeClient_run hrem).1 rfl rfl rfl
  | lateWill t env x s hx hst hd time q hq hpr ht s' g m hw => exact ⟨toks, h.one rfl rfl (.inl rfl)⟩
  | lose t x s hx hst =>
    exact ⟨toks, h.one rfl rfl (.inr (by rw [Tasks.active_of hx, hst]; rfl))⟩
  | closeQuiet t env lost x s hx hst hd =>
    exact ⟨toks, h.one rfl rfl (.inr (by rw [Tasks.active_of hx, hst]; rfl))⟩
  | closeWill t env lost x s hx hst hd hp s' g m hw =>
    refine ⟨toks, h.one rfl rfl (.inr ?_)⟩
    rw [Tasks.active_of hx, hst]
    show some s'.clientId = some s.clientId
    rw [hw.client]
  | closeDelayed t env lost x s hx hst hd hp =>
    exact ⟨toks, h.one rfl rfl (.inr (by rw [Tasks.active_of hx, hst]; rfl))⟩
  | push t d x s hx hst m rest hq hk =>
    exact ⟨toks, h.one rfl rfl (.inr (by rw [Tasks.active_of hx]; exact active_sending hst rfl))⟩
  | flush t d x hx m q hk hi hl =>
    exact ⟨toks, h.one rfl rfl (.inr (by rw [Tasks.active_of hx]))⟩
  | giveUp t d x s hx hst hi =>
    exact ⟨toks, h.one rfl rfl (.inr (by rw [Tasks.active_of hx]; exact active_sending hst rfl))⟩
  | remove t x s hx hst hd r route hrem =>
    exact h.remove ho.reg (removeClient_run hrem).1 rfl rfl rfl
  | rest t x s hx hst hd he r hr timers htm =>
    exact h.offline (t := t) (id := s.clientId) (by rw [Tasks.active_of hx, hst]; rfl)
      (ho.registered hx (by rw [hst]; rfl)) hr rfl rfl rfl
  | fire i tm ht w' hw =>
    rcases hw with ⟨rfl, -⟩ | ⟨q, -, -, rfl⟩
    · exact ⟨toks, h.quiet rfl (fun _ _ hu => hu)⟩
    · exact ⟨toks, h.quiet rfl (fun _ _ hu => hu)⟩
  | kick id q hr hq => exact ⟨toks, h.quiet rfl (fun _ _ hu => hu)⟩

theorem will_some {g : Global} (h : PlainRoute g.route) (pr : Proto) (env : Env) (s : Session) :
    ∃ s' g' m, sendWill ext pr env g s = some (s', g', m) ∧ g'.route = g.route := by
  unfold sendWill
  cases s.will with
  | none => exact ⟨_, _, _, rfl, rfl⟩
  | some wl =>
    cases pr with
    | v3 =>
      obtain ⟨s', g', h1, h2⟩ := h.sendV3 { s with will := none } (wl.message ext)
      simp only [h1, Option.map_some]
      exact ⟨_, _, _, rfl, h2⟩
    | v5 =>
      obtain ⟨s', g', n, h1, h2⟩ := h.sendV5 env { s with will := none } (wl.message ext)
      simp only [h1, Option.map_some]
      exact ⟨_, _, _, rfl, h2⟩

theorem TokInv.removeClient_some {toks : List (ClientId × TaskId)} (h : TokInv w toks)
    {route : RouteTable} (hp : PlainRoute route) (id : ClientId) (fs : List Str) :
    ∃ r t', removeClient w.registry route id fs = some (r, t') ∧ PlainRoute t' := by
  obtain ⟨r, hr⟩ := h.remove_some id
  obtain ⟨t', h1, h2⟩ := hp.unsubs id fs
  unfold removeClient
  simp only [hr, h1]
  exact ⟨_, _, rfl, h2⟩

/-- The act is handled without panic. -/
def Act.harmless (cfg : Config) : Act → Prop
  | .packet _ _ _ _ p => p.harmless cfg
  | _ => True

theorem some_pair {P : World → Prop} (p : World × List Event) (h : P p.1) :
    ∃ w' e, some p = some (w', e) ∧ P w' := ⟨p.1, p.2, rfl, h⟩

/-- A step from a state without shared subscriptions does not panic and leads to such a state. -/
theorem step_some {a : Act} {toks : List (ClientId × TaskId)} (ht : TokInv w toks) (hb : BrokerInv w)
    (hp : PlainRoute w.route) (ha : a.harmless cfg) :
    ∃ w' e, w.step cfg ext a = some (w', e) ∧ PlainRoute w'.route := by
  have ho := hb.own
  have hp' : PlainRoute w.global.route := hp
  have hremove : ∀ t x s, ∃ w' e, World.remove w t x s = some (w', e) ∧ PlainRoute w'.route := by
    intro t x s
    obtain ⟨r, t', h1, h2⟩ := ht.removeClient_some hp s.clientId s.subscribes.keys
    unfold World.remove
    simp only [h1]
    exact ⟨_, _, rfl, h2⟩
  cases a with
  | connect req env wr =>
    simp only [World.step, World.connect]
    cases hadd : w.registry.add req.identifier with
    | none => exact absurd hadd (ho.reg.add_ne_none _)
    | some r =>
      obtain ⟨r, a⟩ := r
      cases a with
      | new id =>
        refine some_pair (P := fun w => PlainRoute w.route) _ ?_
        unfold World.setUp
        split <;> exact hp
      | present id =>
        simp only
        split <;> exact ⟨_, _, rfl, hp⟩
  | accept t env wr =>
    refine some_pair (P := fun w => PlainRoute w.route) (w.accept cfg t env wr) ?_
    unfold World.accept
    split
    · exact hp
    · split
      · simp only
        unfold World.setUp
        split <;> exact hp
      · exact hp
  | packet t env after size p =>
    simp only [World.step, World.packet]
    split
    · exact ⟨_, _, rfl, hp⟩
    · rename_i x hx
      split
      · rename_i s hst
        split
        · exact ⟨_, _, rfl, hp⟩
        · obtain ⟨r, h1, h2⟩ := hp'.onPacket (cfg := cfg) (ext := ext) (env := env)
            x.req.level.proto s size after ha
          simp only [h1]
          exact ⟨_, _, rfl, h2⟩
      · exact ⟨_, _, rfl, hp⟩
  | normal t env =>
    refine some_pair (P := fun w => PlainRoute w.route) (w.normal cfg t env) ?_
    unfold World.normal
    split
    · exact hp
    · split
      · split
        · split <;> exact hp
        · exact hp
      · split
        · split <;> exact hp
        · exact hp
      · exact hp
  | control t env =>
    have hcontrol : ∀ x s off, w.tasks.get t = some x → x.stage.owner? = some s →
        ∃ w' e, w.onControl cfg ext t env x s off = some (w', e) ∧ PlainRoute w'.route := by
      intro x s off hx hs
      have hcl : Tasks.client w.tasks t = some s.clientId := by
        rw [(Tasks.views hx).1]
        cases hst : x.stage <;> rw [hst] at hs <;> simp [Stage.owner?] at hs <;> subst hs <;> rfl
      unfold World.onControl
      simp only
      split
      · rename_i c q hq
        have hv5 : ∀ τ, c.time? = some τ → x.req.level.proto = .v5 := by
          intro τ hc
          have := hb.time.v5 _ _ _ t (.inl ⟨_, hq, List.mem_cons_self⟩) hc hcl
          rw [(Tasks.views hx).2.2.2.2] at this
          exact Option.some.inj this
        split
        · split
          · split
            · exact ⟨_, _, rfl, hp⟩
            · exact ⟨_, _, rfl, hp⟩
          · exact ⟨_, _, rfl, hp⟩
        · split <;> exact ⟨_, _, rfl, hp⟩
        · rename_i time
          rw [hv5 time rfl]
          simp only
          split
          · obtain ⟨s', g', m, h1, h2⟩ := will_some (ext := ext) hp' .v5 env s
            obtain ⟨r, t', h3, h4⟩ := ht.removeClient_some (route := g'.route)
              (by rw [h2]; exact hp) s.clientId s.subscribes.keys
            have h1' : sendWill ext .v5 env
              (World.global { w with control := w.control.insert s.clientId q }) s =
                some (s', g', m) := h1
            simp only [h1', h3]
            exact ⟨_, _, rfl, h4⟩
          · exact ⟨_, _, rfl, hp⟩
        · rename_i time
          rw [hv5 time rfl]
          simp only
          split
          · obtain ⟨s', g', m, h1, h2⟩ := will_some (ext := ext) hp' .v5 env s
            have h1' : sendWill ext .v5 env
              (World.global { w with control := w.control.insert s.clientId q }) s =
                some (s', g', m) := h1
            simp only [h1']
            exact ⟨_, _, rfl, by show PlainRoute g'.route; rw [h2]; exact hp⟩
          · exact ⟨_, _, rfl, hp⟩
      · exact ⟨_, _, rfl, hp⟩
    simp only [World.step, World.handleControl]
    split
    · exact ⟨_, _, rfl, hp⟩
    · rename_i x hx
      split
      · rename_i s hst; exact hcontrol x s false hx (by rw [hst]; rfl)
      · rename_i s hst
        split
        · exact hcontrol x s true hx (by rw [hst]; rfl)
        · exact ⟨_, _, rfl, hp⟩
      · exact ⟨_, _, rfl, hp⟩
  | lose t =>
    refine some_pair (P := fun w => PlainRoute w.route) (w.lose t, []) ?_
    unfold World.lose
    split
    · exact hp
    · split <;> exact hp
  | close t env lost =>
    simp only [World.step, World.close]
    split
    · exact ⟨_, _, rfl, hp⟩
    · rename_i x hx
      split
      · rename_i s hst
        split
        · exact ⟨_, _, rfl, hp⟩
        · split
          · obtain ⟨s', g', m, h1, h2⟩ := will_some (ext := ext) hp' x.req.level.proto env s
            simp only [h1]
            exact ⟨_, _, rfl, by show PlainRoute g'.route; rw [h2]; exact hp⟩
          · exact ⟨_, _, rfl, hp⟩
          · exact ⟨_, _, rfl, hp⟩
      · exact ⟨_, _, rfl, hp⟩
  | push t d =>
    refine some_pair (P := fun w => PlainRoute w.route) (w.push t d, []) ?_
    unfold World.push
    split
    · exact hp
    · split
      · exact hp
      · split <;> exact hp
  | flush t d =>
    refine some_pair (P := fun w => PlainRoute w.route) (w.flush t d, []) ?_
    unfold World.flush
    split
    · exact hp
    · split
      · split <;> exact hp
      · exact hp
  | giveUp t d =>
    refine some_pair (P := fun w => PlainRoute w.route) (w.giveUp t d, []) ?_
    unfold World.giveUp
    split
    · exact hp
    · split
      · exact hp
      · split <;> exact hp
  | finish t =>
    simp only [World.step, World.finish]
    split
    · exact ⟨_, _, rfl, hp⟩
    · rename_i x hx
      split
      · rename_i s hst
        split
        · split
          · exact hremove t x s
          · obtain ⟨r, hr⟩ := ht.offline_some (t := t) (id := s.clientId)
              (by rw [Tasks.active_of hx, hst]; rfl) (ho.registered hx (by rw [hst]; rfl))
            simp only [hr]
            exact ⟨_, _, rfl, hp⟩
        · exact ⟨_, _, rfl, hp⟩
      · split
        · exact hremove t x _
        · exact ⟨_, _, rfl, hp⟩
      · exact ⟨_, _, rfl, hp⟩
  | fire i =>
    refine some_pair (P := fun w => PlainRoute w.route) (w.fire i, []) ?_
    unfold World.fire
    split
    · exact hp
    · unfold World.tell
      split
      · split <;> exact hp
      · exact hp
  | kick id =>
    refine some_pair (P := fun w => PlainRoute w.route) (w.tell id .kick, []) ?_
    unfold World.tell
    split
    · split <;> exact hp
    · exact hp

end Akasa
