import Verif.Proof.Origin
import Verif.Proof.WorldSubs
import Verif.Proof.RoutePlain
/-! # No subscription is granted more than the highest QoS allowed -/
namespace Akasa
open RouteNode

theorem QoS.max_le_of {a b c : QoS} (h : a ≤ c) (h' : b ≤ c) : max a b ≤ c := by
  show (if a ≤ b then b else a) ≤ c
  split
  · exact h'
  · exact h

theorem FMap.mem_of_mem_erase {κ α : Type} [DecidableEq κ] {m : FMap κ α} {k : κ} {x : κ × α}
    (h : x ∈ m.erase k) : x ∈ m := (List.mem_filter.1 h).1

theorem FMap.mem_of_mem_insert {κ α : Type} [DecidableEq κ] {m : FMap κ α} {k : κ} {v : α}
    {x : κ × α} (h : x ∈ m.insert k v) : x = (k, v) ∨ x ∈ m := by
  rcases List.mem_cons.1 h with h | h
  · exact .inl h
  · exact .inr (FMap.mem_of_mem_erase h)

variable {cfg : Config} {ext : Ext} {pr : Proto} {w w' : World} {evs e : List Event} {top : QoS}

/-- Nothing here is granted more than `top`. -/
def RouteContent.Below (top : QoS) (c : RouteContent) : Prop :=
  (∀ x ∈ c.clients, x.2 ≤ top) ∧ ∀ g ∈ c.groups, ∀ x ∈ g.2.items, x.2 ≤ top

/-- A call that grants no more than `top`. -/
def RouteOp.Below (top : QoS) : RouteOp → Prop
  | .sub _ _ q => q ≤ top
  | .unsub _ _ => True

theorem SharedClients.insert_below {s s' : SharedClients} {x : ClientId × QoS}
    (h : ∀ y ∈ s.items, y.2 ≤ top) (hx : x.2 ≤ top) (hi : s.insert x = some s') :
    ∀ y ∈ s'.items, y.2 ≤ top := by
  unfold SharedClients.insert at hi
  split at hi
  · split at hi
    · cases hi
      intro y hy
      rcases List.mem_or_eq_of_mem_set hy with h1 | rfl
      · exact h y h1
      · exact hx
    · cases hi
  · cases hi
    intro y hy
    rcases List.mem_append.1 hy with h1 | h1
    · exact h y h1
    · rw [List.mem_singleton.1 h1]; exact hx

theorem SharedClients.remove_below {s s' : SharedClients} {k : ClientId}
    (h : ∀ y ∈ s.items, y.2 ≤ top) (hi : s.remove k = some s') : ∀ y ∈ s'.items, y.2 ≤ top := by
  unfold SharedClients.remove at hi
  split at hi
  · cases hi; exact h
  · simp only at hi
    split at hi
    · cases hi; intro y hy; cases hy
    · split at hi
      · cases hi
      · split at hi
        · cases hi
        · rename_i items hit
          cases hi
          intro y hy
          unfold SharedClients.swapRemove at hit
          split at hit
          · cases hit
            rcases List.mem_or_eq_of_mem_set (List.dropLast_subset _ hy) with h1 | rfl
            · exact h y h1
            · exact h _ (List.getLast_mem _)
          · cases hit

theorem RouteContent.Below.add {c c' : RouteContent} {f : Str} {id : ClientId} {q : QoS}
    {g : Option Str} (h : c.Below top) (hq : q ≤ top) (ha : c.add f id q g = some c') :
    c'.Below top := by
  unfold RouteContent.add at ha
  simp only at ha
  split at ha
  · split at ha
    · cases ha
    · rename_i sc hsc
      cases ha
      refine ⟨h.1, fun g' hg => ?_⟩
      rcases FMap.mem_of_mem_insert hg with rfl | hg
      · refine SharedClients.insert_below ?_ hq hsc
        cases hget : c.groups.get _ with
        | none => intro y hy; cases hy
        | some sc0 => exact h.2 _ (FMap.mem_of_get hget)
      · exact h.2 g' hg
  · cases ha
    refine ⟨fun x hx => ?_, h.2⟩
    rcases FMap.mem_of_mem_insert hx with rfl | hx
    · exact hq
    · exact h.1 x hx

theorem RouteContent.Below.del {c c' : RouteContent} {id : ClientId} {g : Option Str}
    (h : c.Below top) (ha : c.del id g = some c') : c'.Below top := by
  unfold RouteContent.del at ha
  simp only [Option.map_eq_some_iff] at ha
  obtain ⟨d, h1, h2⟩ := ha
  have hd : d.Below top := by
    split at h1
    · split at h1
      · cases h1; exact h
      · rename_i sc hget
        split at h1
        · cases h1
        · rename_i sc' hsc
          split at h1
          · cases h1
            exact ⟨h.1, fun g' hg => h.2 g' (FMap.mem_of_mem_erase hg)⟩
          · cases h1
            refine ⟨h.1, fun g' hg => ?_⟩
            rcases FMap.mem_of_mem_insert hg with rfl | hg
            · exact SharedClients.remove_below (h.2 _ (FMap.mem_of_get hget)) hsc
            · exact h.2 g' hg
    · cases h1
      exact ⟨fun x hx => h.1 x (FMap.mem_of_mem_erase hx), h.2⟩
  subst h2
  split
  · exact hd
  · exact hd

/-- The whole table. -/
def RouteTable.Below (top : QoS) (t : RouteTable) : Prop := ∀ p, (t.root.contentAt p).Below top

theorem below_step {t t' : RouteTable} {op : RouteOp} (hc : t.root.Clean) (h : t.Below top)
    (ho : op.Below top) (hs : t.step op = some t') : t'.Below top := by
  cases op with
  | sub F id q =>
    rw [step_sub_eq] at hs
    generalize RouteOp.target F = tg at hs
    obtain ⟨f, g⟩ := tg
    simp only at hs
    cases ha : (t.root.contentAt (levels f)).add f id q g with
    | none => rw [RouteTable.subscribeShared_none ha] at hs; cases hs
    | some c' =>
      obtain ⟨t1, h1, h2⟩ := RouteTable.subscribeShared_some ha
      rw [hs] at h1; cases h1
      intro p
      rw [h2]
      split
      · exact (h _).add ho ha
      · exact h p
  | unsub F id =>
    rw [step_unsub_eq] at hs
    generalize RouteOp.target F = tg at hs
    obtain ⟨f, g⟩ := tg
    simp only at hs
    cases ha : (t.root.contentAt (levels f)).del id g with
    | none => rw [RouteTable.unsubscribeShared_none ha] at hs; cases hs
    | some c' =>
      obtain ⟨t1, h1, h2⟩ := RouteTable.unsubscribeShared_some hc ha
      rw [hs] at h1; cases h1
      intro p
      rw [h2]
      split
      · exact (h _).del ha
      · exact h p

theorem below_run {ops : List RouteOp} {t : RouteTable} (h : RouteTable.empty.run ops = some t)
    (ho : ∀ op ∈ ops, op.Below top) : t.Below top := by
  suffices ∀ (ops : List RouteOp) (t0 t : RouteTable) (σ : SubState), RInv σ t0 → t0.Below top →
      t0.run ops = some t → (∀ op ∈ ops, op.Below top) → t.Below top by
    refine this ops _ t _ RInv.empty (fun p => ?_) h ho
    have h0 : RouteTable.empty.root.contentAt p = RouteContent.empty := contentAt_new p
    rw [h0]
    exact ⟨(fun x hx => by cases hx), (fun x hx => by cases hx)⟩
  intro ops
  induction ops with
  | nil => intro t0 t σ _ h1 h2 _; cases h2; exact h1
  | cons op ops ih =>
    intro t0 t σ h0 h1 h2 h3
    simp only [RouteTable.run] at h2
    cases hst : t0.step op with
    | none => rw [hst] at h2; cases h2
    | some t1 =>
      rw [hst] at h2
      exact ih t1 t _ (h0.step hst) (below_step h0.clean h1 (h3 _ List.mem_cons_self) hst) h2
        fun o ho => h3 o (List.mem_cons_of_mem _ ho)

/-! ## The table of the broker -/

theorem changes_below {p : InPkt} {id : ClientId} :
    ∀ op ∈ (p.changes cfg pr).map (·.op id), op.Below cfg.maxAllowedQos := by
  intro op hop
  rw [List.mem_map] at hop
  obtain ⟨c, hc, rfl⟩ := hop
  cases p with
  | subscribe pid topics sid =>
    simp only [InPkt.changes, List.mem_map] at hc
    obtain ⟨t, ht, rfl⟩ := hc
    unfold acceptedSubs at ht
    split at ht
    · rw [List.mem_map] at ht
      obtain ⟨x, _, rfl⟩ := ht
      exact Std.min_le_right
    · split at ht
      · cases ht
      · rw [List.mem_map] at ht
        obtain ⟨x, _, rfl⟩ := ht
        exact Std.min_le_right
  | unsubscribe pid topics =>
    simp only [InPkt.changes, List.mem_map] at hc
    obtain ⟨F, _, rfl⟩ := hc
    trivial
  | _ => cases hc

/-- The table is the result of calls that grant no more than allowed. -/
def World.RouteBelow (top : QoS) (w : World) : Prop :=
  ∃ ops, RouteTable.empty.run ops = some w.route ∧ ∀ op ∈ ops, op.Below top

theorem routeBelow_case {a : Act} (h : w.RouteBelow cfg.maxAllowedQos)
    (hc : WCase cfg ext w a w' e) : w'.RouteBelow cfg.maxAllowedQos := by
  obtain ⟨ops, h1, h2⟩ := h
  have more : ∀ (l : List RouteOp) (rt : RouteTable), w.route.run l = some rt →
      (∀ op ∈ l, op.Below cfg.maxAllowedQos) → w'.route = rt → w'.RouteBelow cfg.maxAllowedQos := by
    intro l rt h3 h4 h5
    refine ⟨ops ++ l, by rw [run_append, h1, h5]; exact h3, fun op hop => ?_⟩
    rcases List.mem_append.1 hop with h | h
    · exact h2 op h
    · exact h4 op h
  have same : w'.route = w.route → w'.RouteBelow cfg.maxAllowedQos :=
    fun h => ⟨ops, by rw [h]; exact h1, h2⟩
  have leave : ∀ {r : Registry} {route : RouteTable} {id : ClientId} {fs : List Str},
      removeClient w.registry w.route id fs = some (r, route) → w'.route = route →
      w'.RouteBelow cfg.maxAllowedQos := by
    intro r route id fs hrem h3
    refine more _ _ (removeClient_run hrem).2 (fun op hop => ?_) h3
    obtain ⟨f, _, rfl⟩ := List.mem_map.1 hop
    trivial
  cases hc with
  | packet t env after size p x s hx hst hd r hr =>
    obtain ⟨r0, h0, hcore, _, hg, _, hcl⟩ := onPacket_handled hr
    have hm := moves_packet h0
    rw [← hg] at hm
    refine more _ _ hm.route ?_ rfl
    split
    · exact changes_below
    · intro op hop; cases hop
  | expire t env x s hx hst hd time q hq hpr ht s' g m hw r route hrem =>
    rw [hw.route] at hrem
    exact leave hrem rfl
  | remove t x s hx hst hd r route hrem => exact leave hrem rfl
  | lateWill t env x s hx hst hd time q hq hpr ht s' g m hw => exact same hw.route
  | closeWill t env lost x s hx hst hd hp s' g m hw => exact same hw.route
  | fire i tm ht _ hw =>
    rcases hw with ⟨rfl, _⟩ | ⟨q, _, _, rfl⟩ <;> exact same rfl
  | _ => exact same rfl

/-! ## The copies -/

theorem addReceiver_below {id : ClientId} {f : Str} {q : QoS} {r : Receivers} (hq : q ≤ top)
    (h : ∀ x ∈ r, x.2.2 ≤ top) : ∀ x ∈ addReceiver id f q r, x.2.2 ≤ top := by
  induction r with
  | nil => intro x hx; rw [addReceiver, List.mem_singleton] at hx; subst hx; exact hq
  | cons y r ih =>
    intro x hx
    rw [addReceiver] at hx
    split at hx
    · rcases List.mem_cons.1 hx with rfl | hx
      · exact QoS.max_le_of (h y List.mem_cons_self) hq
      · exact h x (List.mem_cons_of_mem _ hx)
    · rcases List.mem_cons.1 hx with rfl | hx
      · exact h _ List.mem_cons_self
      · exact ih (fun z hz => h z (List.mem_cons_of_mem _ hz)) x hx

theorem addClients_below {s : Session} {f : Str} {cs : List (ClientId × QoS)} {r : Receivers}
    (hc : ∀ x ∈ cs, x.2 ≤ top) (h : ∀ x ∈ r, x.2.2 ≤ top) :
    ∀ x ∈ addClients s f cs r, x.2.2 ≤ top := by
  induction cs generalizing r with
  | nil => exact h
  | cons c cs ih =>
    obtain ⟨id, q⟩ := c
    rw [addClients]
    refine ih (fun x hx => hc x (List.mem_cons_of_mem _ hx)) ?_
    split
    · exact h
    · exact addReceiver_below (hc _ List.mem_cons_self) h

theorem addGroups_below {pick : Str → Str → Nat} {f : Str} {gs : List (Str × SharedClients)}
    {r r' : Receivers} (hc : ∀ g ∈ gs, ∀ x ∈ g.2.items, x.2 ≤ top) (h : ∀ x ∈ r, x.2.2 ≤ top)
    (ha : addGroups pick f gs r = some r') : ∀ x ∈ r', x.2.2 ≤ top := by
  induction gs generalizing r with
  | nil => cases ha; exact h
  | cons g gs ih =>
    obtain ⟨g, sc⟩ := g
    rw [addGroups] at ha
    split at ha
    · cases ha
    · rename_i id q hget
      refine ih (fun x hx => hc x (List.mem_cons_of_mem _ hx)) (addReceiver_below ?_ h) ha
      exact hc _ List.mem_cons_self _ (List.mem_of_getElem? hget)

theorem collectV5_below {s : Session} {pick : Str → Str → Nat} {cs : List RouteContent}
    {r r' : Receivers} (hc : ∀ c ∈ cs, c.Below top) (h : ∀ x ∈ r, x.2.2 ≤ top)
    (ha : collectV5 s pick cs r = some r') : ∀ x ∈ r', x.2.2 ≤ top := by
  induction cs generalizing r with
  | nil => cases ha; exact h
  | cons c cs ih =>
    rw [collectV5] at ha
    split at ha
    · cases ha
    · split at ha
      · cases ha
      · rename_i r1 hr1
        refine ih (fun x hx => hc x (List.mem_cons_of_mem _ hx)) ?_ ha
        have := hc c List.mem_cons_self
        exact addGroups_below this.2 (addClients_below this.1 h) hr1

theorem collectV3_below {cs : List RouteContent} {r : List (ClientId × Str × QoS)}
    (hc : ∀ c ∈ cs, c.Below top) (ha : collectV3 cs = some r) : ∀ x ∈ r, x.2.2 ≤ top := by
  induction cs generalizing r with
  | nil => cases ha; intro x hx; cases hx
  | cons c cs ih =>
    rw [collectV3] at ha
    split at ha
    · cases ha
    · rw [Option.map_eq_some_iff] at ha
      obtain ⟨r1, h1, rfl⟩ := ha
      intro x hx
      rcases List.mem_append.1 hx with hx | hx
      · rw [List.mem_map] at hx
        obtain ⟨y, hy, rfl⟩ := hx
        exact (hc c List.mem_cons_self).1 y hy
      · exact ih (fun x hx => hc x (List.mem_cons_of_mem _ hx)) h1 x hx

theorem sendOf_below {env : Env} {g g' : Global} {s s' : Session} {m : SendPub} {n : Nat}
    (h : sendOf pr env g s m = some (s', g', n)) (hb : g.route.Below top) :
    ∃ cs, s' = s.pushCopies g.registered cs ∧ ∀ c ∈ cs, c.2.granted ≤ top := by
  have hf : ∀ topic, ∀ c ∈ g.route.getMatches topic, c.Below top :=
    fun topic c hc => (table_getMatches_all topic hb c hc).1
  cases pr
  · simp only [sendOf, Option.map_eq_some_iff] at h
    obtain ⟨⟨a, b⟩, h1, h2⟩ := h
    cases h2
    unfold sendPublishV3 at h1
    simp only at h1
    split at h1
    · cases h1
    · rename_i rs hrs
      cases h1
      refine ⟨_, rfl, fun c hc => ?_⟩
      rw [List.mem_map] at hc
      obtain ⟨e, he, rfl⟩ := hc
      exact collectV3_below (hf _) hrs e he
  · simp only [sendOf, sendPublishV5] at h
    split at h
    · cases h
    · rename_i rs hrs
      cases h
      refine ⟨_, rfl, fun c hc => ?_⟩
      rw [List.mem_map] at hc
      obtain ⟨e, he, rfl⟩ := hc
      exact collectV5_below (hf _) (fun x hx => by cases hx) hrs e he

/-- All copies that any session makes of a message with this state of the broker are such. -/
def CopiesAre (P : NormalMsg → Prop) (g : Global) : Prop :=
  ∀ {pr : Proto} {env : Env} {g' : Global} {s s' : Session} {m : SendPub} {n : Nat},
    sendOf pr env g s m = some (s', g', n) →
    ∃ cs, s' = s.pushCopies g.registered cs ∧ ∀ c ∈ cs, P c.2

theorem newCopies_all {P : NormalMsg → Prop} {env : Env} {g g' : Global} {s s2 s' s3 : Session}
    {m : SendPub} {n : Nat} (h : sendOf pr env g s2 m = some (s', g', n)) (hP : CopiesAre P g)
    (h2 : s2.bcast = s.bcast) (h3 : s3.bcast = s'.bcast) (d : ClientId) :
    ∀ c ∈ newCopies s s3 d, P c := by
  obtain ⟨cs, rfl, hcs⟩ := hP h
  intro c hc
  unfold newCopies at hc
  rw [queue_congr h3, ← queue_congr h2] at hc
  by_cases hr : Reachable g.registered s2 d
  · have h4 : (s2.pushCopies g.registered cs).queue d =
        s2.queue d ++ (cs.filter fun c => decide (c.1 = d)).map (·.2) :=
      (queued_pushCopies s2 g.registered cs d).1 hr
    rw [h4, List.drop_left, List.mem_map] at hc
    obtain ⟨x, hx, rfl⟩ := hc
    exact hcs x (List.mem_filter.1 hx).1
  · have h4 : (s2.pushCopies g.registered cs).queue d = s2.queue d := by
      unfold Session.queue
      rw [(queued_pushCopies s2 g.registered cs d).2 hr]
    rw [h4] at hc
    simp at hc

/-- In one step. -/
theorem queued_all {P : NormalMsg → Prop} {a : Act} (hb : CopiesAre P w.global)
    (hc : WCase cfg ext w a w' e) {t : TaskId} {d : ClientId} {c : NormalMsg}
    (hq : c ∈ queuedFor t d e) : P c := by
  have will : ∀ {u : TaskId} {x : Task} {s s' : Session} {g : Global} {env : Env}
      {m' : Option SendPub}, w.tasks.get u = some x →
      WillSent ext x.req.level.proto env w.global s s' g m' →
      c ∈ queuedFor t d (willEvents u s s' m') → P c := by
    intro u x s s' g env m' hx hw hev
    rw [(queuedFor_will hw u t d).1] at hev
    split at hev
    · rename_i hut
      subst hut
      cases hsw : s.will with
      | none =>
        rw [(hw.kept hsw).1] at hev
        simp [newCopies] at hev
      | some wl =>
        obtain ⟨n, h5⟩ := hw.sent wl hsw
        exact newCopies_all h5 hb rfl rfl d c hev
    · cases hev
  have quiet : (∀ ev ∈ e, match ev with
      | .queued _ _ => False
      | .took _ _ _ _ => False
      | _ => True) → False := by
    intro h
    rw [(quiet_of t d h).1] at hq
    cases hq
  cases hc with
  | packet u env after size p x s hx hst hd r hr =>
    have : queuedFor t d [.received u p, .routed u r.routed, .queued u (newCopies s r.session),
        .sent u r.out] = if u = t then newCopies s r.session d else [] := by
      simp [queuedFor]
    rw [this] at hq
    split at hq
    · rename_i hut
      subst hut
      cases hro : r.routed with
      | nil =>
        obtain ⟨r0, h0, _, hcp, _, hr0, _⟩ := onPacket_handled hr
        rw [hro] at hr0
        have h1 := copies_handlePacket h0 hr0.symm
        have h2 : r.session.bcast = s.bcast :=
          (congrArg Prod.fst hcp).trans (congrArg Prod.fst h1)
        rw [newCopies, queue_congr h2] at hq
        simp at hq
      | cons m ms =>
        obtain ⟨s2, s', g', k, h1, h2, _, _, h3⟩ := packet_send hr (m := m) (by rw [hro]; simp)
        exact newCopies_all h1 hb h2 h3 d c hq
    · cases hq
  | expire u env x s hx hst hd time q hqq hpr ht s' g m hw r route hrem =>
    rw [queuedFor_append, List.mem_append] at hq
    rcases hq with hq | hq
    · exact will hx hw hq
    · simp [queuedFor] at hq
  | lateWill u env x s hx hst hd time q hqq hpr ht s' g m hw => exact will hx hw hq
  | closeWill u env lost x s hx hst hd hp s' g m hw =>
    rw [← List.singleton_append, queuedFor_append, List.mem_append] at hq
    rcases hq with hq | hq
    · simp [queuedFor] at hq
    · exact will hx hw hq
  | accept t' env x old level hx hst hw s0 present h0 s out hs =>
    refine (quiet fun ev hev => ?_).elim
    rw [List.mem_append] at hev
    rcases hev with hev | hev
    · split at hev
      · cases hev
      · rw [List.mem_singleton] at hev; subst hev; trivial
    · simp only [List.mem_cons, List.not_mem_nil, or_false] at hev
      rcases hev with rfl | rfl <;> trivial
  | handOff t' env x s hx hst hd b y q hqq hy msgs inbox hm =>
    rw [queuedFor_append, List.mem_append] at hq
    rcases hq with hq | hq
    · unfold queuedFor at hq
      rw [List.mem_flatMap] at hq
      obtain ⟨ev, h1, h2⟩ := hq
      rw [List.mem_map] at h1
      obtain ⟨z, _, rfl⟩ := h1
      cases h2
    · simp [queuedFor] at hq
  | fire i tm ht w' hw => cases hq
  | _ => simp [queuedFor] at hq

/-- In one step. -/
theorem below_queued {a : Act} (hb : w.RouteBelow cfg.maxAllowedQos) (hc : WCase cfg ext w a w' e)
    {t : TaskId} {d : ClientId} {c : NormalMsg} (hq : c ∈ queuedFor t d e) :
    c.granted ≤ cfg.maxAllowedQos := by
  obtain ⟨ops, hrun, hops⟩ := hb
  have hb : w.global.route.Below cfg.maxAllowedQos := below_run hrun hops
  exact queued_all (P := fun c => c.granted ≤ cfg.maxAllowedQos) (fun h => sendOf_below h hb) hc hq

theorem below_world {acts : List Act} (h : Reaches cfg ext acts w evs) :
    w.RouteBelow cfg.maxAllowedQos ∧
    ∀ t d c, c ∈ queuedFor t d evs → c.granted ≤ cfg.maxAllowedQos := by
  refine world_induction (P := fun w evs => w.RouteBelow cfg.maxAllowedQos ∧
    ∀ t d c, c ∈ queuedFor t d evs → c.granted ≤ cfg.maxAllowedQos)
    ⟨⟨[], rfl, fun op hop => by cases hop⟩, fun t d c hc => by cases hc⟩ ?_ h
  rintro w evs a w' e ⟨h1, h2⟩ hs
  have hc := step_cases hs
  refine ⟨routeBelow_case h1 hc, fun t d c hq => ?_⟩
  rw [queuedFor_append, List.mem_append] at hq
  rcases hq with hq | hq
  · exact h2 t d c hq
  · exact below_queued h1 hc hq

/-! ## Answers to SUBSCRIBE -/

theorem acceptV5_quiet {env : Env} {i : Nat} {g g' : Global} {s s' : Session} {F : Str} {o : SubOpts}
    {id : Option Nat} {out : List OutPkt} (hr : cfg.retainAvailable = false)
    (h : acceptV5 cfg env i g s F o id = some (s', g', out)) : out = [] ∧ s'.sender = s.sender := by
  unfold acceptV5 at h
  simp only at h
  split at h
  · cases h
  · simp only [sendsRetained, hr, Bool.false_and] at h
    cases h
    exact ⟨rfl, rfl⟩

theorem subscribeLoopV5_quiet {env : Env} {id : Option Nat} (hr : cfg.retainAvailable = false)
    {ts : List (Str × SubOpts)} {i : Nat} {g g' : Global} {s s' : Session} {out : List OutPkt}
    {codes : List Reason} (h : subscribeLoopV5 cfg env id i g s ts = some (s', g', out, codes)) :
    out = [] ∧ s'.sender = s.sender := by
  induction ts generalizing i g s s' g' out codes with
  | nil => cases h; exact ⟨rfl, rfl⟩
  | cons t ts ih =>
    obtain ⟨F, o⟩ := t
    rw [subscribeLoopV5] at h
    split at h
    · split at h
      · cases h
      · rename_i s1 g1 out1 hacc
        obtain ⟨rfl, h2⟩ := acceptV5_quiet hr hacc
        rw [Option.map_eq_some_iff] at h
        obtain ⟨⟨a, b, c, d⟩, h3, h4⟩ := h
        cases h4
        obtain ⟨rfl, h5⟩ := ih h3
        exact ⟨rfl, h5.trans h2⟩
    · rw [Option.map_eq_some_iff] at h
      obtain ⟨⟨a, b, c, d⟩, h3, h4⟩ := h
      cases h4
      exact ih h3

/-! ## What a session sends -/

/-- The copies that reach a session carry no more than was granted. -/
def Good.below (top : QoS) : Good where
  retain _ := True
  msg c := c.granted ≤ top
  env _ := True
  after _ := True
  empty := trivial

theorem below_life {acts : List Act} (h : Reaches cfg ext acts w evs) :
    LifeIn (Good.below cfg.maxAllowedQos) cfg ext w evs := by
  refine LifeIn.run h fun acts1 a acts2 w1 evs1 ha h1 => ?_
  refine ⟨trivial, fun d q hq e he => ?_, ?_⟩
  · have h2 : e.2 ∈ w1.inboxFrom e.1 d := by
      unfold World.inboxFrom
      rw [hq, List.mem_map]
      exact ⟨e, List.mem_filter.2 ⟨he, by simp⟩, rfl⟩
    exact (below_world h1).2 e.1 d e.2 ((C56_order h1 e.1 d).subset
      (List.mem_append.2 (.inl (List.mem_append.2 (.inr h2)))))
  · cases a <;> first | trivial | exact ⟨trivial, trivial⟩

/-- A message within what was announced. -/
def PubPacket.Within (cfg : Config) (pr : Proto) (p : PubPacket) : Prop :=
  p.qos ≤ cfg.maxAllowedQos ∧ (pr = .v5 → cfg.retainAvailable = false → p.retain = false)

theorem due_within {s : Session} {m : NormalMsg} {p : PubPacket} (hd : dueOf cfg pr s m = some p)
    (hm : m.granted ≤ cfg.maxAllowedQos) : p.Within cfg pr := by
  cases pr with
  | v3 =>
    simp only [dueOf, dueV3] at hd
    split at hd
    · cases hd
    · split at hd
      · cases hd
      · cases hd
        exact ⟨Fin.le_trans Std.min_le_right hm, fun h => by cases h⟩
  | v5 =>
    simp only [dueOf, dueV5] at hd
    split at hd
    · cases hd
    · split at hd
      · cases hd
      · cases hd
        refine ⟨Fin.le_trans Std.min_le_right hm, fun _ h => ?_⟩
        simp [h]

theorem messages_within {r : Rec}
    (hr : (Good.below cfg.maxAllowedQos).ev (r.env, r.before, r.ev))
    {p : PubPacket} (hp : p ∈ r.messages cfg pr) : p.Within cfg pr := by
  obtain ⟨ev, env, before, pre, post, res⟩ := r
  unfold Rec.messages Rec.inputs at hp
  rw [List.mem_filterMap] at hp
  obtain ⟨inp, hin, hmsg⟩ := hp
  cases inp with
  | message p' =>
    cases hmsg
    obtain ⟨hg, hr⟩ := hr
    simp only at hg
    cases ev with
    | packet after n pkt =>
      simp only at hin
      split at hin
      · cases pkt with
        | subscribe sid topics sub =>
          cases pr with
          | v3 =>
            simp only [InPkt.inputs] at hin
            rw [List.mem_map] at hin
            obtain ⟨p', hin, hpp⟩ := hin
            cases hpp
            clear hr
            induction topics with
            | nil => cases hin
            | cons t ts ih =>
              obtain ⟨F, o⟩ := t
              rw [retainedDueV3] at hin
              split at hin
              · rw [List.mem_append] at hin
                rcases hin with hin | hin
                · rw [List.mem_filterMap] at hin
                  obtain ⟨rc, h1, h2⟩ := hin
                  unfold retainedCopyV3 at h2
                  split at h2
                  · cases h2
                  · rename_i hq
                    cases h2
                    exact ⟨Fin.le_trans (Fin.not_lt.1 hq) Std.min_le_right, fun h => by cases h⟩
                · exact ih hin
              · cases hin
          | v5 =>
            simp only [InPkt.inputs] at hin
            split at hin
            · cases hin
            · rw [List.mem_map] at hin
              obtain ⟨p', hin, hpp⟩ := hin
              cases hpp
              suffices ∀ ts earlier, p ∈ retainedDueV5 cfg before pre.session sub earlier ts →
                  p.Within cfg .v5 from this _ _ hin
              intro ts
              induction ts with
              | nil => intro earlier h; cases h
              | cons t ts ih =>
                obtain ⟨F, o⟩ := t
                intro earlier h
                rw [retainedDueV5, List.mem_append] at h
                rcases h with h | h
                · unfold retainedV5 at h
                  split at h
                  · rename_i hw
                    rw [List.mem_filterMap] at h
                    obtain ⟨rc, h1, h2⟩ := h
                    unfold retainedCopyV5 at h2
                    split at h2
                    · cases h2
                    · split at h2
                      · cases h2
                      · cases h2
                        refine ⟨Fin.le_trans Std.min_le_right Std.min_le_right, fun _ hf => ?_⟩
                        have := hw.2.1
                        rw [hf] at this
                        cases this
                  · cases h
                · exact ih _ h
        | _ => simp [InPkt.inputs] at hin
      · cases hin
    | normal m =>
      simp only at hin
      split at hin
      · rw [Option.mem_toList, Option.map_eq_some_iff] at hin
        obtain ⟨p', hd, hpp⟩ := hin
        cases hpp
        exact due_within hd hr.2
      · cases hin
    | offline m =>
      simp only at hin
      split at hin
      · cases hin
      · rw [Option.mem_toList, Option.map_eq_some_iff] at hin
        obtain ⟨p', hd, hpp⟩ := hin
        cases hpp
        rw [Option.filter_eq_some_iff] at hd
        exact due_within hd.1 hr.2
    | resume c' =>
      cases pr <;> simp at hin
    | _ => cases hin
  | _ => cases hmsg

theorem sent_within {i : Str} {id : ClientId} {c : ConnParams} {sevs : List (Env × Global × SessEv)}
    {recs : List Rec}
    (h : ({ session := Session.start cfg pr i id c } : Peer).run cfg ext pr sevs = some recs)
    (hG : ∀ e ∈ sevs, (Good.below cfg.maxAllowedQos).ev e) {r : Rec} (hr : r ∈ recs) {o : Publish}
    (ho : .publish o ∈ r.res.out) :
    o.qosPid.qos ≤ cfg.maxAllowedQos ∧
      (pr = .v5 → cfg.retainAvailable = false → o.retain = false) := by
  obtain ⟨A, B, hsplit⟩ := List.append_of_mem hr
  obtain ⟨r', h1, p, h2, pid, dup, expiry, h3, _, h4⟩ := C57_origin h hsplit ho
  have hr' : r' ∈ recs := by
    rw [hsplit]
    simp only [List.mem_append, List.mem_cons, List.not_mem_nil, or_false] at h1 ⊢
    grind
  have hev : (Good.below cfg.maxAllowedQos).ev (r'.env, r'.before, r'.ev) := by
    refine hG _ ?_
    rw [← rec_event h]
    exact List.mem_map.2 ⟨r', hr', rfl⟩
  obtain ⟨k1, k2⟩ := messages_within hev h2
  obtain ⟨-, hq, hret, -⟩ := h3
  refine ⟨by rw [hq, qosPid_of]; exact k1, fun hv hf => ?_⟩
  rw [hret]
  exact k2 hv hf

end Akasa
