import Verif.Proof.ConnHookGate
/-! # Further lemmas for C87–C90 -/
namespace Akasa

variable {cfg : Config} {ext : Ext} {w w' : World} {evs : List Event}
variable {flags : HookFlags} {c : ServerConfig} {x : ConnExt} {f f' f1 : Front}

/-! ## Who is shownToHook to the hook before a connection -/

theorem shownToHook_append (a b : List HookedEvent) : shownToHook (a ++ b) = shownToHook a ++ shownToHook b :=
  List.filterMap_append

theorem shownToHook_none {l : List HookedEvent} (h : ∀ k p a, .called (.beforeConnect k p a) ∉ l) :
    shownToHook l = [] := by
  unfold shownToHook
  rw [List.filterMap_eq_nil_iff]
  intro e he
  split
  · exact absurd he (h _ _ _)
  · rfl

theorem connects_snoc (ticks : List HookTick) (a : HookTick) :
    connects (ticks ++ [a]) = connects ticks ++ connects [a] := List.filterMap_append

theorem turnAway_shown (f : Front) (p : ConnectPkt) (uuid : Str) (a : Option HookConnectCode) :
    shownToHook (f.turnAway c p uuid a).2 = [] := by
  refine shownToHook_none fun k q b hm => ?_
  unfold Front.turnAway at hm
  simp only at hm
  split at hm
  · cases List.mem_singleton.1 hm
  · cases hm

theorem hook_shown {ticks : List HookTick} {log : List HookedEvent}
    (h : HookReaches flags c x ext ticks f log) :
    f.nextConn = (connects ticks).length ∧
      shownToHook log = if flags.beforeConnect then
        (connects ticks).zipIdx.map (fun a => (a.2, a.1)) else [] := by
  have key := hook_induction (f0 := {}) (P := fun ticks f log =>
    (BrokerInv f.world ∧ GateInv flags c f log) ∧ f.nextConn = (connects ticks).length ∧
      shownToHook log = if flags.beforeConnect then
        (connects ticks).zipIdx.map (fun a => (a.2, a.1)) else [])
    ⟨hook_gate (flags := flags) (c := c) (x := x) (ext := ext) (ticks := []) rfl, rfl, by
      split <;> rfl⟩ ?_ h
  · exact key.2
  rintro ticks f log a f' e ⟨⟨hb, hg⟩, hn, hsh⟩ hs
  refine ⟨⟨hook_broker hb hs, hg.step hb hs⟩, ?_⟩
  rw [connects_snoc, shownToHook_append, hsh]
  cases hcases hb hs with
  | away p uuid random env wr hact hf hno =>
    have hc : connects [a] = [p] := by simp [connects, hact]
    rw [hc, shownToHook_append, turnAway_shown]
    refine ⟨by simp [hn], ?_⟩
    simp [hf, asking, hact, shownToHook, List.zipIdx_append, hn]
  | goes f1 f' rs evs l hok hs0 hrs hw hm =>
    have hmove := conn_move hg.wf hg.fresh hs0
    have hl : shownToHook l = [] := shownToHook_none (hm.silent 0).2.2
    rw [shownToHook_append, hl, hm.adds.2.1]
    by_cases hh : ∃ p uuid random env wr, a.act = .hello p uuid random env wr
    · have h1 := hmove.hello hh
      obtain ⟨p, uuid, random, env, wr, hact⟩ := hh
      have hc : connects [a] = [p] := by simp [connects, hact]
      rw [hc]
      refine ⟨by simp [h1, hn], ?_⟩
      cases hf : flags.beforeConnect <;>
        simp [hf, asking, hact, shownToHook, List.zipIdx_append, hn]
    · have hno : ∀ p uuid random env wr, a.act ≠ .hello p uuid random env wr :=
        fun p u r e w h => hh ⟨p, u, r, e, w, h⟩
      have hc : connects [a] = [] := by
        unfold connects
        rw [List.filterMap_eq_nil_iff]
        intro b hm
        cases List.mem_singleton.1 hm
        split
        · rename_i h; exact absurd h (hno _ _ _ _ _)
        · rfl
      have ha : asking flags f a = [] := by
        unfold asking
        split
        · rename_i h; exact absurd h (hno _ _ _ _ _)
        · rfl
      rw [hc, ha]
      exact ⟨by simp [hmove.stay hno, hn], by simp [shownToHook]⟩

/-! ## The hook is asked before the connection is accepted -/

theorem mem_moves {tick : HookTick} {rs : List FrontEvent} {l : List HookedEvent}
    (hrs : ∀ e ∈ rs, ∃ k r, e = .reply k r) (hm : HookMove flags tick f f1 rs evs f' l) {v : Event}
    (h : .front (.event v) ∈ l) : v ∈ evs := by
  rcases hm.adds.2.2.2 _ h with ⟨v', hv, h⟩ | ⟨t, p, h⟩ | ⟨t, p, h⟩
  · cases h
    rcases List.mem_append.1 hv with hv | hv
    · obtain ⟨k, r, h⟩ := hrs _ hv; cases h
    · obtain ⟨u, hu, h⟩ := List.mem_map.1 hv
      cases h
      exact hu
  · cases h
  · cases h

theorem accepted_asking {tick : HookTick} {t : TaskId} {p : Bool} :
    .front (.event (.accepted t p)) ∉ asking flags f tick := by
  unfold asking
  split
  · split <;> simp
  · simp

theorem accepted_turned {p : ConnectPkt} {uuid : Str} {a : Option HookConnectCode} {e : FrontEvent} :
    .front e ∉ (f.turnAway c p uuid a).2 := by
  unfold Front.turnAway
  simp only
  split <;> simp

theorem request_life {t : TaskId} (h : (Tasks.life w.tasks t) ≠ .absent) :
    ∃ r, w.request t = some r := by
  unfold Tasks.life at h
  unfold World.request
  cases hx : FMap.get w.tasks t with
  | none => rw [hx] at h; exact absurd rfl h
  | some y => exact ⟨_, rfl⟩

theorem hook_served {ticks : List HookTick} {pre post : List HookedEvent} {t : TaskId} {p : Bool}
    (hf : flags.beforeConnect = true)
    (h : HookReaches flags c x ext ticks f
      (pre ++ .front (.event (.accepted t p)) :: post)) :
    ∃ k q, f.served k q t ∧ .called (.beforeConnect k q (some .success)) ∈ pre := by
  have key := hook_induction (f0 := {}) (P := fun ticks f log =>
    (BrokerInv f.world ∧ GateInv flags c f log) ∧ ∀ pre post t p,
      log = pre ++ HookedEvent.front (.event (.accepted t p)) :: post →
      ∃ k q o final, f.conns.get k = some ⟨q, o, .task t final⟩ ∧
        .called (.beforeConnect k q (some .success)) ∈ pre)
    ⟨hook_gate (flags := flags) (c := c) (x := x) (ext := ext) (ticks := []) rfl, by
      intro pre post t p h; cases pre <;> cases h⟩ ?_ h
  · obtain ⟨k, q, o, final, h1, h2⟩ := key.2 _ _ _ _ rfl
    exact ⟨k, q, ⟨o, final, h1⟩, h2⟩
  rintro ticks f log a f' e ⟨⟨hb, hg⟩, ih⟩ hs
  refine ⟨⟨hook_broker hb hs, hg.step hb hs⟩, ?_⟩
  have hg' := hg.step hb hs
  have hb' := hook_broker hb hs
  have keeps : ∀ k q o t final, f.conns.get k = some ⟨q, o, .task t final⟩ →
      f'.conns.get k = some ⟨q, o, .task t final⟩ := by
    intro k q o t final hk
    cases hcases hb hs with
    | away p uuid random env wr hact hf hno =>
      have := hg.fresh _ _ hk
      rw [FMap.get_insert, if_neg (Nat.ne_of_gt this)]
      exact hk
    | goes f1 f' rs evs l hok hs0 hrs hw hm =>
      rw [hm.adds.1]
      have hlt := hg.fresh _ _ hk
      have hno : ∀ {k' q o m n}, f.conns.get k' = some ⟨q, o, .authorizing m⟩ →
          (f.conns.insert k' n).get k = f.conns.get k := by
        intro k' q o m n hk'
        rw [FMap.get_insert, if_neg]
        rintro rfl; rw [hk] at hk'; cases hk'
      generalize rs ++ evs.map FrontEvent.event = fevs at hs0
      generalize a.act = b at hs0
      cases fcases hs0 with
      | idle => exact hk
      | helloOver => rw [FMap.get_insert, if_neg (Nat.ne_of_gt hlt)]; exact hk
      | helloChallenge => rw [FMap.get_insert, if_neg (Nat.ne_of_gt hlt)]; exact hk
      | helloGo => rw [FMap.get_insert, if_neg (Nat.ne_of_gt hlt)]; exact hk
      | authOver k' b env wr p o m hk' => rw [hno hk']; exact hk
      | authGo cfg hcfg k' b env wr p o m hk' => rw [hno hk']; exact hk
      | stray k' malformed p o m hk' => rw [hno hk']; exact hk
      | leave k' p o m hk' => rw [hno hk']; exact hk
      | act => exact hk
  intro pre post t p hlog
  rcases split_log hlog with ⟨post', h1, _⟩ | ⟨pre', h1, h2⟩
  · obtain ⟨k, q, o, final, h3, h4⟩ := ih _ _ _ _ h1
    exact ⟨k, q, o, final, keeps _ _ _ _ _ h3, h4⟩
  · have hgate := hg'.gate hf
    have hasked := hg'.asked
    cases hcases hb hs with
    | away q uuid random env wr hact hf hno =>
      rcases split_log h2 with ⟨_, h3, _⟩ | ⟨_, _, h3⟩
      · exact absurd (by rw [h3]; simp) (accepted_asking (flags := flags) (f := f) (tick := a) (t := t) (p := p))
      · exact absurd (by rw [h3]; simp)
          (accepted_turned (c := c) (f := f) (p := q) (uuid := uuid) (a := a.before)
            (e := .event (.accepted t p)))
    | goes f1 f' rs evs l hok hs0 hrs hw hm =>
      rcases split_log h2 with ⟨_, h3, _⟩ | ⟨pre2, h3, h4⟩
      · exact absurd (by rw [h3]; simp) (accepted_asking (flags := flags) (f := f) (tick := a) (t := t) (p := p))
      have hmem : Event.accepted t p ∈ evs := mem_moves hrs hm (by rw [h4]; simp)
      have hreq : ∃ r, f'.world.request t = some r := by
        rw [hm.adds.2.2.1 t]
        rcases hw with ⟨_, rfl⟩ | ⟨cfg, b, _, hstep, _⟩
        · cases hmem
        · cases online_move hb.own (step_cases hstep) with
          | up t' p' pre out req s he hpre hold hnew hoth =>
            have : t' = t := by
              rw [he] at hmem
              rcases hpre with rfl | ⟨old, rfl⟩ <;> simp at hmem <;> exact hmem.1.symm
            subst this
            exact ⟨req, by simp [World.request, hnew]⟩
          | calm he => exact absurd hmem (he t p)
      obtain ⟨r, hreq⟩ := hreq
      obtain ⟨k, n, final, g1, g2, g3⟩ := hasked t r hreq
      obtain ⟨q, o, st⟩ := n
      simp only at g2
      subst g2
      refine ⟨k, q, o, final, g1, ?_⟩
      have := hgate k _ g1 (by simp)
      rw [h1, h3]
      rcases List.mem_append.1 this with this | this
      · exact List.mem_append_left _ this
      · rcases List.mem_append.1 this with this | this
        · exact List.mem_append_right _ (List.mem_append_left _ this)
        · exact absurd this ((hm.silent k).2.2 _ _ _)

/-! ## Handed over -/

theorem left_handed {a : Act} (ho : OInv w) (hs : w.step cfg ext a = some (w', evs)) {t : TaskId}
    (h1 : (Tasks.life w.tasks t).on = true) (h2 : (Tasks.life w'.tasks t).on = false) :
    ((Tasks.life w'.tasks t).over = true → HandedOver w w' t) ∧
      ((Tasks.life w'.tasks t).over = false → w'.owned t ≠ none) := by
  have hsee := (seen_step ho (step_cases hs) t).step
  have hreq : ∃ r, w.request t = some r := by
    unfold World.request
    unfold Tasks.life at h1
    cases hx : FMap.get w.tasks t with
    | none => rw [hx] at h1; cases h1
    | some y => exact ⟨_, rfl⟩
  obtain ⟨r, hr⟩ := hreq
  have hr' := (seen_step ho (step_cases hs) t).keeps r hr
  constructor
  · intro h3
    have hact : a.task? = some t := by
      cases online_move ho (step_cases hs) with
      | calm he hon hoff => exact hoff t h1 h2
      | up t' p pre out req s he hpre hold hnew hoth =>
        exfalso
        by_cases ht : t = t'
        · subst ht; rcases hold with g | g <;> rw [g] at h1 <;> cases h1
        · unfold Tasks.life at h1 h2
          rw [hoth t ht] at h2
          rw [h1] at h2; cases h2
    have hx : ∃ y s, w.tasks.get t = some y ∧ y.stage = .online s := by
      unfold Tasks.life at h1
      cases hx : FMap.get w.tasks t with
      | none => rw [hx] at h1; cases h1
      | some y =>
        rw [hx] at h1
        cases hst : y.stage <;> simp [hst, Stage.life, Life.on] at h1
        exact ⟨y, _, rfl, hst⟩
    obtain ⟨y0, s0, hx0, hst0⟩ := hx
    cases step_cases hs with
    | handOn t' env x s hx hst b y q hq hy =>
      cases hact
      have hbt : b ≠ t := by
        rintro rfl
        have := waiting_off ho hq
        rw [h1] at this; cases this
      refine ⟨s, b, _, _, ?_, FMap.get_insert_self .., rfl, ?_⟩
      · simp [World.onlineSession, hx, hst]
      · unfold World.owned
        simp only [FMap.get_insert, if_neg hbt]
        simp
    | idle => rw [h1] at h2; cases h2
    | packet t' env after size p x s hx hst hd r hr =>
      cases hact
      simp only [Tasks.life_insert, if_true] at h2 h3
      cases hc : r.closed <;> simp [hc, Stage.life, Life.over, Life.on] at h2 h3
    | deny t' env x s hx hst pr b y q hq hpr hy =>
      simp only [Tasks.life_insert] at h2 h3
      split at h2
      · rename_i h; subst h; rw [waiting_off ho hq] at h1; cases h1
      · rw [h1] at h2; cases h2
    | push t' d x s hx hst m rest hq hk =>
      cases hact
      simp only [Tasks.life_insert, if_true] at h2
      rw [setSession_on hst, ← Tasks.life_eq hx, h1] at h2
      cases h2
    | giveUp t' d x s hx hst hi =>
      cases hact
      simp only [Tasks.life_insert, if_true] at h2
      rw [setSession_on hst, ← Tasks.life_eq hx, h1] at h2
      cases h2
    | _ =>
      exfalso
      first
      | (cases hact; done)
      | (cases hact
         simp_all [Tasks.life_insert, Stage.life, Life.over, Life.on]; done)
  · intro h3 h4
    have hl := hsee r hr'
    have hex : ∃ k e, Tasks.life w'.tasks t = .conn k e ∧ k ≠ .expired := by
      generalize Tasks.life w.tasks t = l at *
      generalize Tasks.life w'.tasks t = l' at *
      generalize willsOf t evs = ms at *
      generalize evs.any (fun e => e.removes t) = rm at *
      cases hl with
      | packet pkt hp e e' k hk he => exact ⟨k, e', rfl, by rcases hk with rfl | rfl <;> simp⟩
      | lost e => exact ⟨_, _, rfl, by simp⟩
      | taken => cases h3
      | same => rw [h1] at h2; cases h2
      | _ => cases h1
    obtain ⟨k, e, h5, h6⟩ := hex
    unfold Tasks.life at h5
    unfold World.owned at h4
    cases hx : FMap.get w'.tasks t with
    | none => rw [hx] at h5; cases h5
    | some y =>
      rw [hx] at h5 h4
      cases hst : y.stage <;> simp [hst, Stage.life] at h5 h4
      exact h6 h5.1.symm

/-! ## A client whose task ended with an error -/

theorem vanish_dead {name : Str} {id : ClientId} (h : w.dead name id) (t : TaskId) :
    (w.vanish t).dead name id := by
  have hv := vanish_cases w t
  generalize w.vanish t = w' at hv
  cases hv with
  | same => exact h
  | gone x s hx hst =>
    refine ⟨h.1, ?_⟩
    have h2 := h.2
    simp only [FMap.contains, FMap.get_erase] at h2 ⊢
    split
    · rfl
    · exact h2

theorem HookMove.dead {tick : HookTick} {rs : List FrontEvent} {l : List HookedEvent} {name : Str}
    {id : ClientId} (h : HookMove flags tick f f1 rs evs f' l) (hd : f1.world.dead name id) :
    f'.world.dead name id := by
  cases h with
  | up t =>
    split
    · exact vanish_dead hd t
    · exact hd
  | down t =>
    split
    · exact vanish_dead hd t
    · exact hd
  | plain => exact hd

theorem dead_hookLocked {name : Str} {id : ClientId} (hb : BrokerInv f.world)
    (hd : f.world.dead name id) : f.HookLockedOut flags c x ext name := by
  intro ticks f' log hrun
  have key := hook_induction (f0 := f) (P := fun _ f' log => BrokerInv f'.world ∧
    f'.world.dead name id ∧ ∀ t p, .front (.event (.accepted t p)) ∈ log →
      ∃ req, f'.world.request t = some req ∧ req.identifier ≠ name)
    ⟨hb, hd, by simp⟩ ?_ hrun
  · intro t p hm req hreq
    obtain ⟨req', h1, h2⟩ := key.2.2 t p hm
    rw [hreq] at h1
    cases h1
    exact h2
  rintro ticks f log a f' e ⟨hb, hd, ha⟩ hs
  refine ⟨hook_broker hb hs, ?_⟩
  cases hcases hb hs with
  | away p uuid random env wr hact hf hno =>
    refine ⟨hd, fun t q hm => ?_⟩
    rcases List.mem_append.1 hm with hm | hm
    · exact ha t q hm
    · rcases List.mem_append.1 hm with hm | hm
      · exact absurd hm accepted_asking
      · exact absurd hm accepted_turned
  | goes f1 f' rs evs l hok hs0 hrs hw hm =>
    have hkeep : ∀ t req, f.world.request t = some req → f'.world.request t = some req := by
      intro t req h
      rw [hm.adds.2.2.1]
      rcases hw with ⟨hw, _⟩ | ⟨cfg, b, _, hstep, _⟩
      · rw [hw]; exact h
      · exact request_kept hb.own hstep h
    have hd1 : f1.world.dead name id := by
      rcases hw with ⟨hw, _⟩ | ⟨cfg, b, _, hstep, _⟩
      · rw [hw]; exact hd
      · exact dead_step hb.own hd hstep
    refine ⟨hm.dead hd1, fun t q hmem => ?_⟩
    rcases List.mem_append.1 hmem with hmem | hmem
    · obtain ⟨req, h1, h2⟩ := ha t q hmem
      exact ⟨req, hkeep t req h1, h2⟩
    · rcases List.mem_append.1 hmem with hmem | hmem
      · exact absurd hmem accepted_asking
      · have hev := mem_moves hrs hm hmem
        rcases hw with ⟨_, rfl⟩ | ⟨cfg, b, _, hstep, _⟩
        · cases hev
        · have hl := dead_lockedOut (cfg := cfg) (ext := ext) hb hd [b] f1.world evs
            (by simp [World.run, hstep]) t q hev
          cases online_move hb.own (step_cases hstep) with
          | calm he => exact absurd hev (he t q)
          | up t' p' pre out req s he hpre hold hnew hoth =>
            have ht : t' = t := by
              rw [he] at hev
              rcases hpre with rfl | ⟨old, rfl⟩ <;> simp at hev <;> exact hev.1.symm
            subst ht
            have hreq : f1.world.request t' = some req := by simp [World.request, hnew]
            exact ⟨req, by rw [hm.adds.2.2.1]; exact hreq, hl req hreq⟩

/-- The task of a connection in its online loop, or just out of it, is ended by an error. -/
theorem vanish_makes_dead (hb : BrokerInv w) {t : TaskId} {y : Task} {s : Session}
    (hy : w.tasks.get t = some y) (hst : y.stage = .online s ∨ y.stage = .closed s) :
    (w.vanish t).dead y.req.identifier s.clientId ∧
      Tasks.life (w.vanish t).tasks t = .gone := by
  have hv := vanish_cases w t
  generalize w.vanish t = w' at hv
  cases hv with
  | same h =>
    exfalso
    rcases hst with g | g
    · exact (h y s hy).1 g
    · exact (h y s hy).2 g
  | gone y' s' hy' hst' =>
    rw [hy] at hy'
    cases hy'
    have : s' = s := by
      rcases hst with g | g <;> rcases hst' with g' | g' <;> rw [g] at g' <;> cases g' <;> rfl
    subst this
    have v := Tasks.views hy
    refine ⟨⟨?_, ?_⟩, ?_⟩
    · exact hb.own.named t s'.clientId y.req.identifier (by rw [v.2.1]; rcases hst with g | g <;> rw [g] <;> rfl)
        v.2.2.2.1
    · simp [FMap.contains]
    · simp only [Tasks.life_insert, if_true]; rfl

/-! ## No will -/

theorem hookedWills_append (t : TaskId) (a b : List HookedEvent) :
    hookedWills t (a ++ b) = hookedWills t a ++ hookedWills t b := by
  simp [hookedWills, willsOf, worldEvents, frontEvents]

theorem hookedWills_none {t : TaskId} {l : List HookedEvent}
    (h : ∀ m, .front (.event (.will t m)) ∉ l) : hookedWills t l = [] := by
  unfold hookedWills willsOf worldEvents frontEvents
  rw [List.filterMap_eq_nil_iff]
  intro e he
  rw [List.mem_filterMap] at he
  obtain ⟨v, hv, he⟩ := he
  rw [List.mem_filterMap] at hv
  obtain ⟨u, hu, hv⟩ := hv
  split at hv
  · cases hv
    split at he
    · cases he
      split
      · rename_i e
        split
        · rename_i h2; subst h2; exact absurd hu (h _)
        · rfl
      · rfl
    · cases he
  · cases hv

theorem mem_willsOf {t : TaskId} {m : SendPub} (h : .will t m ∈ evs) : m ∈ willsOf t evs := by
  unfold willsOf
  rw [List.mem_filterMap]
  exact ⟨_, h, by simp⟩

theorem HookMove.stays_gone {tick : HookTick} {rs : List FrontEvent} {l : List HookedEvent}
    {t : TaskId} (h : HookMove flags tick f f1 rs evs f' l)
    (hg : Tasks.life f1.world.tasks t = .gone) : Tasks.life f'.world.tasks t = .gone := by
  cases h with
  | up u =>
    split
    · rcases vanish_life f1.world u t with h | h
      · exact h.trans hg
      · exact h.2
    · exact hg
  | down u =>
    split
    · rcases vanish_life f1.world u t with h | h
      · exact h.trans hg
      · exact h.2
    · exact hg
  | plain => exact hg

theorem gone_no_will {t : TaskId} (hb : BrokerInv f.world) (hg : Tasks.life f.world.tasks t = .gone)
    {ticks : List HookTick} {log : List HookedEvent}
    (hrun : Front.hookRun flags c x ext f ticks = some (f', log)) : hookedWills t log = [] := by
  refine (hook_induction (f0 := f) (P := fun _ f' log => BrokerInv f'.world ∧
    Tasks.life f'.world.tasks t = .gone ∧ hookedWills t log = []) ⟨hb, hg, rfl⟩ ?_ hrun).2.2
  rintro ticks f log a f' e ⟨hb, hg, hl⟩ hs
  refine ⟨hook_broker hb hs, ?_⟩
  rw [hookedWills_append, hl, List.nil_append]
  cases hcases hb hs with
  | away p uuid random env wr hact hf hno =>
    refine ⟨hg, hookedWills_none fun m hm => ?_⟩
    rcases List.mem_append.1 hm with hm | hm
    · unfold asking at hm
      split at hm
      · split at hm <;> simp at hm
      · cases hm
    · exact accepted_turned hm
  | goes f1 f' rs evs l hok hs0 hrs hw hm =>
    have hstep : Tasks.life f1.world.tasks t = .gone ∧ willsOf t evs = [] := by
      rcases hw with ⟨hw, rfl⟩ | ⟨cfg, b, _, hstep, _⟩
      · rw [hw]; exact ⟨hg, rfl⟩
      · have hsee := seen_step hb.own (step_cases hstep) t
        obtain ⟨r, hr⟩ := request_life (w := f.world) (t := t) (by rw [hg]; simp)
        have := hsee.step r (hsee.keeps r hr)
        rw [hg] at this
        generalize Tasks.life f1.world.tasks t = l' at *
        generalize willsOf t evs = ms at *
        generalize evs.any (fun e => e.removes t) = rm at *
        cases this
        exact ⟨rfl, rfl⟩
    refine ⟨hm.stays_gone hstep.1, hookedWills_none fun m hmem => ?_⟩
    rcases List.mem_append.1 hmem with hmem | hmem
    · unfold asking at hmem
      split at hmem
      · split at hmem <;> simp at hmem
      · cases hmem
    · have := mem_willsOf (mem_moves hrs hm hmem)
      rw [hstep.2] at this
      cases this

/-! ## Hooks that agree -/

theorem frontEvents_append (a b : List HookedEvent) :
    frontEvents (a ++ b) = frontEvents a ++ frontEvents b := List.filterMap_append

theorem frontEvents_front (l : List FrontEvent) : frontEvents (l.map .front) = l := by
  unfold frontEvents
  rw [List.filterMap_map]
  induction l with
  | nil => rfl
  | cons a l ih => simp [ih]

theorem frontEvents_called (l : List HookCall) : frontEvents (l.map .called) = [] := by
  unfold frontEvents
  rw [List.filterMap_eq_nil_iff]
  intro e he
  obtain ⟨v, _, rfl⟩ := List.mem_map.1 he
  rfl

theorem frontEvents_asking (flags : HookFlags) (f : Front) (tick : HookTick) :
    frontEvents (asking flags f tick) = [] := by
  unfold asking
  split
  · split <;> rfl
  · rfl

theorem agreed_step {tick : HookTick} {log : List HookedEvent} (hb : BrokerInv f.world)
    (ha : tick.Agrees) (h : f.hookStep flags c x ext tick = some (f', log)) :
    f.step c x ext tick.act = some (f', frontEvents log) := by
  obtain ⟨a1, a2, a3, a4⟩ := ha
  cases hcases hb h with
  | away p uuid random env wr hact hf hno => exact absurd a1 hno
  | goes f1 f' rs evs l hok hs0 hrs hw hm =>
    rw [frontEvents_append, frontEvents_asking, List.nil_append, hs0]
    have hno : tick.fails flags = false := by simp [HookTick.fails, a2, a3]
    cases hm with
    | up t p pre out req s time he hpre hold hnew hoth =>
      rw [hno]
      simp only [Bool.false_eq_true, if_false, frontEvents_append, frontEvents_front,
        frontEvents_called, he]
      simp [frontEvents]
    | down t b hact he h1 h2 hon =>
      rw [a4]
      rw [frontEvents_append, frontEvents_called, frontEvents_front]
      simp
    | plain he hon => rw [frontEvents_front]

theorem agreed_panics {tick : HookTick} (ha : tick.Agrees)
    (h : f.hookStep flags c x ext tick = none) : f.step c x ext tick.act = none := by
  have hk : f.hooked flags c x ext tick = none → f.step c x ext tick.act = none := by
    intro h
    unfold Front.hooked at h
    split at h
    · assumption
    · split at h
      · cases h
      · split at h <;> cases h
  unfold Front.hookStep at h
  split at h
  · split at h
    · rw [if_pos ha.1, Option.map_eq_none_iff] at h
      exact hk h
    · exact hk h
  · exact hk h

theorem agreed_run {ticks : List HookTick} (ha : ∀ a ∈ ticks, HookTick.Agrees a)
    (hb : BrokerInv f.world) :
    (Front.hookRun flags c x ext f ticks).map (fun r => (r.1, frontEvents r.2)) =
      Front.run c x ext f (ticks.map (·.act)) := by
  induction ticks generalizing f with
  | nil => rfl
  | cons a as ih =>
    simp only [Front.hookRun, List.map_cons, Front.run]
    cases hs : f.hookStep flags c x ext a with
    | none => rw [agreed_panics (ha a (by simp)) hs]; rfl
    | some r =>
      obtain ⟨f1, e⟩ := r
      rw [agreed_step hb (ha a (by simp)) hs]
      simp only
      rw [← ih (fun b hb => ha b (by simp [hb])) (hook_broker hb hs)]
      cases Front.hookRun flags c x ext f1 as with
      | none => rfl
      | some r => simp [frontEvents_append]

/-! ## What a failing hook leaves alone -/

theorem vanish_loses (w : World) {t : TaskId} {y : Task} {s : Session}
    (hy : w.tasks.get t = some y) (hst : y.stage = .online s ∨ y.stage = .closed s) :
    w.LosesOnly (w.vanish t) t s.clientId := by
  have hv := vanish_cases w t
  generalize w.vanish t = w' at hv
  cases hv with
  | same h =>
    exfalso
    rcases hst with g | g
    · exact (h y s hy).1 g
    · exact (h y s hy).2 g
  | gone y' s' hy' hst' =>
    rw [hy] at hy'
    cases hy'
    have : s' = s := by
      rcases hst with g | g <;> rcases hst' with g' | g' <;> rw [g] at g' <;> cases g' <;> rfl
    subst this
    constructor <;> try rfl
    · intro u hu; simp [FMap.get_insert, Ne.symm hu]
    · intro d hd
      exact ⟨by simp [FMap.get_erase, Ne.symm hd], by simp [FMap.get_erase, Ne.symm hd]⟩

/-- The stage of a connection that left its loop without handing the session over. -/
theorem left_closed {a : Act} (ho : OInv w) (hs : w.step cfg ext a = some (w', evs)) {t : TaskId}
    (h1 : (Tasks.life w.tasks t).on = true) (h2 : (Tasks.life w'.tasks t).on = false)
    (h3 : (Tasks.life w'.tasks t).over = false) :
    ∃ y s, w'.tasks.get t = some y ∧ y.stage = .closed s := by
  obtain ⟨r, hr⟩ := request_life (w := w) (t := t) (by intro h; rw [h] at h1; cases h1)
  have hsee := seen_step ho (step_cases hs) t
  have hl := hsee.step r (hsee.keeps r hr)
  have hex : ∃ e, Tasks.life w'.tasks t = .conn .closed e := by
    generalize Tasks.life w.tasks t = l at *
    generalize Tasks.life w'.tasks t = l' at *
    generalize willsOf t evs = ms at *
    generalize evs.any (fun e => e.removes t) = rm at *
    cases hl with
    | packet pkt hp e e' k hk he =>
      rcases hk with rfl | rfl
      · cases h2
      · exact ⟨e', rfl⟩
    | lost e => exact ⟨_, rfl⟩
    | taken => cases h3
    | same => rw [h1] at h2; cases h2
    | _ => cases h1
  obtain ⟨e, h5⟩ := hex
  unfold Tasks.life at h5
  cases hx : FMap.get w'.tasks t with
  | none => rw [hx] at h5; cases h5
  | some y =>
    rw [hx] at h5
    cases hst : y.stage <;> simp [hst, Stage.life] at h5
    exact ⟨y, _, rfl, hst⟩

end Akasa
