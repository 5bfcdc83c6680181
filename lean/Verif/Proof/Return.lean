import Verif.Spec.Return
import Verif.Props.Resume
import Verif.Proof.Connect
/-!
# Lemmas of C81
-/
namespace Akasa

variable {cfg : Config} {ext : Ext} {w w' : World} {evs e : List Event}

/-! ## Registered without receivers -/

/-- The identifier is registered, but nobody has the session. -/
def World.dead (w : World) (name : Str) (id : ClientId) : Prop :=
  w.registry.identMap.get name = some id ∧ w.inbox.contains id = false

theorem dead_step {name : Str} {id : ClientId} (hi : OInv w) (h : w.dead name id) {a : Act}
    (hs : w.step cfg ext a = some (w', e)) : w'.dead name id := by
  obtain ⟨h1, h2⟩ := h
  have hcl : ∀ {u : TaskId} {y : Task} {s : Session}, w.tasks.get u = some y →
      y.stage.session? = some s → s.clientId ≠ id := by
    intro u y s hy hst hid
    have := hi.held u s.clientId (by rw [(Tasks.views hy).1, hst]; rfl)
    rw [hid, h2] at this; cases this
  have hlt : id < w.registry.nextId := by
    have := (hi.reg.inverse id name).2 h1
    cases hg : w.registry.idMap.get id with
    | none => rw [hg] at this; cases this
    | some e => exact hi.reg.below _ _ hg
  have hin : ∀ {d : ClientId} {q q' : List (TaskId × NormalMsg)}, w.inbox.get d = some q →
      (w.inbox.insert d q').contains id = false := by
    intro d q q' hd
    rw [contains_rest hd]; exact h2
  cases step_cases hs with
  | idle => exact ⟨h1, h2⟩
  | fresh req env r id' hadd hw s out hs =>
    cases hi.reg.add_cases hadd with
    | new hnone => constructor <;> grind
  | stillborn req env wr r id' hadd =>
    cases hi.reg.add_cases hadd with
    | new hnone => constructor <;> grind
  | wait req env wr r id' q hadd hq =>
    cases hi.reg.add_cases hadd with
    | present id on g1 g2 => exact ⟨h1, h2⟩
  | locked req env wr r id' hadd hq =>
    cases hi.reg.add_cases hadd with
    | present id on g1 g2 => exact ⟨h1, h2⟩
  | accept u env y old level hy hst' hw s0 present h0 s out hs => exact ⟨h1, h2⟩
  | refused u env wr y old level hy hst' => constructor <;> grind
  | packet u env after size p y s hy hst' hd r hr => exact ⟨h1, h2⟩
  | normalOn u env y s hy hst' hd src m rest hi => exact ⟨h1, hin hi⟩
  | normalOff u env y s hy hst' hd src m rest hi => exact ⟨h1, hin hi⟩
  | handOn u env y s hy hst' b z q hq hz => exact ⟨h1, h2⟩
  | handOff u env y s hy hst' hd b z q hq hz msgs inbox hm =>
    refine ⟨h1, ?_⟩
    rcases hm with ⟨_, _, rfl⟩ | ⟨_, _, rfl⟩
    · have := hcl hy (s := s) (by rw [hst']; rfl)
      simp only
      rw [Registry.contains_insert, h2]
      simp [Ne.symm this]
    · exact h2
  | deny u env y s hy hst' pr b z q hq hpr hz => exact ⟨h1, h2⟩
  | ignored u env y s hy hst' c q hq hc => exact ⟨h1, h2⟩
  | kicked u env y s hy hst' q hq => exact ⟨h1, h2⟩
  | expire u env y s hy hst' hd time q hq hpr ht s' g m hw r route hrem =>
    have := hcl hy (s := s) (by rw [hst']; rfl)
    exact ⟨((hi.reg.removed hrem).2.2.2 name id (Ne.symm this)).2 h1, h2⟩
  | lateWill u env y s hy hst' hd time q hq hpr ht s' g m hw => exact ⟨h1, h2⟩
  | lose u y s hy hst' => exact ⟨h1, h2⟩
  | closeQuiet u env lost y s hy hst' hd => exact ⟨h1, h2⟩
  | closeWill u env lost y s hy hst' hd hp s' g m hw => exact ⟨h1, h2⟩
  | closeDelayed u env lost y s hy hst' hd hp => exact ⟨h1, h2⟩
  | push u d y s hy hst' m rest hq hk => exact ⟨h1, h2⟩
  | flush u d y hy m q hk hi hl => exact ⟨h1, hin hi⟩
  | giveUp u d y s hy hst' hi => exact ⟨h1, h2⟩
  | remove u y s hy hst' hd r route hrem =>
    have := hcl hy (s := s) (by rcases hst' with ⟨g, _⟩ | g <;> rw [g] <;> rfl)
    refine ⟨((hi.reg.removed hrem).2.2.2 name id (Ne.symm this)).2 h1, ?_⟩
    grind
  | rest u y s hy hst' hd he r hr timers htm =>
    exact ⟨by rw [(Registry.Inv.offline_get hr).1]; exact h1, h2⟩
  | fire i tm ht _ hw => rcases hw with ⟨rfl, _⟩ | ⟨q, _, _, rfl⟩ <;> exact ⟨h1, h2⟩
  | kick id q hr hq => exact ⟨h1, h2⟩

/-- A connection keeps the CONNECT it began with. -/
theorem request_kept (hi : OInv w) {a : Act} (hs : w.step cfg ext a = some (w', e)) {t : TaskId}
    {req : Request} (h : w.request t = some req) : w'.request t = some req := by
  by_cases ha : ∃ req env wr, a = .connect req env wr
  · obtain ⟨req', env, wr, rfl⟩ := ha
    rw [(request_connect hs).2 t]
    split
    · rename_i ht
      subst ht
      unfold World.request at h
      cases hn : w.tasks.get w.nextTask with
      | none => rw [hn] at h; cases h
      | some x => exact absurd (hi.fresh w.nextTask (by simp [Tasks.name, hn])) (Nat.lt_irrefl _)
    · exact h
  · rw [(request_other (step_cases hs) fun req env wr he => ha ⟨req, env, wr, he⟩).2 t]
    exact h

/-- An invariant that excludes that the next step accepts the identifier locks it out. -/
theorem lockedOut_of {P : World → Prop} {name : Str} (hb : BrokerInv w) (h0 : P w)
    (hstep : ∀ w a w' e, BrokerInv w → P w → w.step cfg ext a = some (w', e) → P w' ∧
      ∀ t p, .accepted t p ∈ e → ∀ req, w'.request t = some req → req.identifier ≠ name) :
    w.LockedOut cfg ext name := by
  intro acts w' evs hrun
  have key : (BrokerInv w' ∧ P w') ∧
      ∀ t p, .accepted t p ∈ evs → ∃ req, w'.request t = some req ∧ req.identifier ≠ name := by
    refine world_induction (cfg := cfg) (ext := ext)
      (P := fun w' evs => (BrokerInv w' ∧ P w') ∧ ∀ t p, .accepted t p ∈ evs →
        ∃ req, w'.request t = some req ∧ req.identifier ≠ name)
      ⟨⟨hb, h0⟩, fun _ _ h => by cases h⟩ ?_ hrun
    rintro w1 evs1 a w2 e2 ⟨⟨g1, g2⟩, g3⟩ hs
    obtain ⟨g4, g5⟩ := hstep w1 a w2 e2 g1 g2 hs
    refine ⟨⟨g1.step hs, g4⟩, fun t p hm => ?_⟩
    rcases List.mem_append.1 hm with hm | hm
    · obtain ⟨req, r1, r2⟩ := g3 t p hm
      exact ⟨req, request_kept g1.own hs r1, r2⟩
    · obtain ⟨req, hreq⟩ : ∃ req, w2.request t = some req := by
        cases accept_cases g1.own (step_cases hs) hm with
        | fresh req env wr id s ha hn hss ht hm he => exact ⟨req, by unfold World.request; rw [ht]; rfl⟩
        | next env x old s0 s level p out ha hx hst h0 hs' ht he =>
          exact ⟨x.req, by unfold World.request; rw [ht]; rfl⟩
      exact ⟨req, hreq, g5 t p hm req hreq⟩
  intro t p hm req hreq
  obtain ⟨req', h1, h2⟩ := key.2 t p hm
  rw [hreq, Option.some.injEq] at h1
  subst h1; exact h2

theorem dead_lockedOut {name : Str} {id : ClientId} (hb : BrokerInv w) (h : w.dead name id) :
    w.LockedOut cfg ext name := by
  refine lockedOut_of hb h fun w a w' e hb hd hs => ⟨dead_step hb.own hd hs, ?_⟩
  intro t p hm req hreq hname
  obtain ⟨h1, h2⟩ := hd
  cases accept_cases hb.own (step_cases hs) hm with
  | fresh req' env wr id' s ha hn hss ht hm he =>
    unfold World.request at hreq
    rw [ht] at hreq
    cases hreq
    subst ha
    cases step_cases hs with
    | idle => cases he
    | fresh req env r id hadd hw s out hs =>
      cases hb.own.reg.add_cases hadd with
      | new hnone => rw [hname, h1] at hnone; cases hnone
    | stillborn req env wr r id hadd => cases he
    | wait req env wr r id q hadd hq => cases he
    | locked req env wr r id hadd hq => cases he
  | next env x old s0 s level p out ha hx hst h0 hs' ht he =>
    unfold World.request at hreq
    rw [ht] at hreq
    cases hreq
    have v := Tasks.views hx
    rw [hst] at v
    have hn := hb.own.named t old.clientId x.req.identifier v.2.1 v.2.2.2.1
    have hheld := hb.own.held t old.clientId v.1
    rw [hname, h1, Option.some.injEq] at hn
    rw [← hn, h2] at hheld
    cases hheld

/-! ## Connections that wait for each other -/

theorem over_set {st : Stage} {s : Session} (h : st = .ending s ∨ st = .offline s) (s' : Session) :
    st.setSession s' = .ending s' ∨ st.setSession s' = .offline s' := by
  rcases h with g | g <;> rw [g]
  · exact .inl rfl
  · exact .inr rfl

theorem jammed_step {ids : List ClientId} (hi : OInv w) (h : w.Jammed ids) {a : Act}
    (hs : w.step cfg ext a = some (w', e)) : w'.Jammed ids := by
  intro id hid
  obtain ⟨t, x, s, d, q, hx, hst, hc, hd, hk, hq, hl⟩ := h id hid
  obtain ⟨_, _, _, _, qd, _, _, _, _, _, hqd, hld⟩ := h d hd
  have hses : x.stage.session? = some s := by rcases hst with g | g <;> rw [g] <;> rfl
  have hown : ∀ {u : TaskId} {y : Task} {s' : Session}, w.tasks.get u = some y →
      y.stage.session? = some s' → s'.clientId = id → u = t := by
    intro u y s' hy hst' hid
    refine hi.uniq u t id ?_ ?_
    · rw [(Tasks.views hy).1, hst', ← hid]; rfl
    · rw [(Tasks.views hx).1, hses, ← hc]; rfl
  have hbusy : ∀ s', x.idle s' = false := by
    intro s'
    unfold Task.idle
    cases hsk : x.sinks with
    | nil => rw [hsk] at hk; exact absurd rfl hk
    | cons _ _ => simp
  have hnew : t ≠ w.nextTask := by
    rintro rfl
    exact absurd (hi.fresh w.nextTask (by simp [Tasks.name, hx])) (Nat.lt_irrefl _)
  have hidn : id ≠ w.registry.nextId := by
    intro hh
    have := hi.below t id (by rw [(Tasks.views hx).1, hses, ← hc]; rfl)
    rw [hh] at this
    exact absurd this (Nat.lt_irrefl _)
  have hwait : ∀ {b : TaskId} {id' : ClientId} {pr : Proto} {q' : List Control},
      w.control.get id' = some (.online pr b :: q') → b ≠ t := by
    rintro b id' pr q' hq' rfl
    have := (hi.queue id' _ pr b hq' (List.mem_cons_self ..)).1
    unfold Tasks.waiting at this
    rw [hx] at this
    rcases hst with g | g <;> simp [g, Stage.waiting?] at this
  have keep : ∀ {w' : World}, w'.tasks.get t = some x → w'.inbox.get id = some q →
      ∃ t x s d q, w'.tasks.get t = some x ∧ (x.stage = .ending s ∨ x.stage = .offline s) ∧
        s.clientId = id ∧ d ∈ ids ∧ x.sinks.get d ≠ none ∧
        w'.inbox.get id = some q ∧ inboxSize ≤ q.length :=
    fun h1 h2 => ⟨t, x, s, d, q, h1, hst, hc, hd, hk, h2, hl⟩
  have other : ∀ {u : TaskId} {y : Task}, u ≠ t → (w.tasks.insert u y).get t = some x := by
    intro u y hu; rw [FMap.get_insert, if_neg hu]; exact hx
  cases step_cases hs with
  | idle => exact keep hx hq
  | fresh req env r id' hadd hw s out hs =>
    cases hi.reg.add_cases hadd with
    | new hnone => exact keep (other (Ne.symm hnew)) (by grind)
  | stillborn req env wr r id' hadd =>
    cases hi.reg.add_cases hadd with
    | new hnone => exact keep (other (Ne.symm hnew)) (by grind)
  | wait req env wr r id' q hadd hq' => exact keep (other (Ne.symm hnew)) hq
  | locked req env wr r id' hadd hq' => exact keep (other (Ne.symm hnew)) hq
  | accept u env y old level hy hst' hw s0 present h0 s out hs =>
    exact keep (other (by rintro rfl; grind)) hq
  | refused u env wr y old level hy hst' =>
    have : u ≠ t := by rintro rfl; grind
    have : old.clientId ≠ id := fun hh => this (hown hy (by rw [hst']; rfl) hh)
    exact keep (other (by assumption)) (by grind)
  | packet u env after size p y s hy hst' hd r hr => exact keep (other (by rintro rfl; grind)) hq
  | normalOn u env y s' hy hst' hd src m rest hi =>
    have hu : u ≠ t := by rintro rfl; grind
    have : s'.clientId ≠ id := fun hh => hu (hown hy (by rw [hst']; rfl) hh)
    exact keep (other hu) (by grind)
  | normalOff u env y s' hy hst' hd src m rest hi =>
    have hu : u ≠ t := by rintro rfl; grind
    have : s'.clientId ≠ id := fun hh => hu (hown hy (by rw [hst']; rfl) hh)
    exact keep (other hu) (by grind)
  | handOn u env y s' hy hst' b z q' hq' hz =>
    have hu : u ≠ t := by rintro rfl; grind
    have hb := hwait hq'
    exact keep (by grind) hq
  | handOff u env y s' hy hst' hd b z q' hq' hz msgs inbox hm =>
    have hu : u ≠ t := by rintro rfl; grind
    have hb := hwait hq'
    have : s'.clientId ≠ id := fun hh => hu (hown hy (by rw [hst']; rfl) hh)
    refine keep (by grind) ?_
    rcases hm with ⟨_, _, rfl⟩ | ⟨_, _, rfl⟩
    · grind
    · exact hq
  | deny u env y s hy hst' pr b z q' hq' hpr hz => exact keep (other (hwait hq')) hq
  | ignored u env y s hy hst' c q hq' hc => exact keep hx hq
  | kicked u env y s hy hst' q' hq' => exact keep (other (by rintro rfl; grind)) hq
  | expire u env y s hy hst' hd time q hq' hpr ht s' g m hw r route hrem =>
    exact keep (other (by rintro rfl; grind)) hq
  | lateWill u env y s hy hst' hd time q hq' hpr ht s' g m hw =>
    exact keep (other (by rintro rfl; grind)) hq
  | lose u y s hy hst' => exact keep (other (by rintro rfl; grind)) hq
  | closeQuiet u env lost y s hy hst' hd => exact keep (other (by rintro rfl; grind)) hq
  | closeWill u env lost y s hy hst' hd hp s' g m hw =>
    exact keep (other (by rintro rfl; grind)) hq
  | closeDelayed u env lost y s hy hst' hd hp => exact keep (other (by rintro rfl; grind)) hq
  | push u d' y s' hy hst' m rest hq' hk' =>
    by_cases hu : u = t
    · subst hu
      rw [hx] at hy
      cases hy
      have hs' : s' = s := by rcases hst with g | g <;> simp [g, Stage.sending?] at hst' <;> exact hst'.symm
      subst hs'
      refine ⟨u, _, _, d, q, FMap.get_insert_self .., over_set hst _, hc, hd, ?_, hq, hl⟩
      simp only [FMap.get_insert]
      split <;> simp [hk]
    · exact keep (other hu) hq
  | flush u d' y hy m q' hk' hi' hl' =>
    have h1 : d' ≠ d := by
      rintro rfl
      rw [hi'] at hqd; cases hqd
      exact absurd hl' (Nat.not_lt.2 hld)
    have h2 : d' ≠ id := by
      rintro rfl
      rw [hi'] at hq; cases hq
      exact absurd hl' (Nat.not_lt.2 hl)
    have hq2 : (w.inbox.insert d' (q' ++ [(u, m)])).get id = some q := by
      rw [FMap.get_insert, if_neg h2]; exact hq
    by_cases hu : u = t
    · subst hu
      rw [hx] at hy
      cases hy
      refine ⟨u, _, s, d, q, FMap.get_insert_self .., hst, hc, hd, ?_, hq2, hl⟩
      simp only [FMap.get_erase, if_neg h1]
      exact hk
    · exact keep (other hu) hq2
  | giveUp u d' y s' hy hst' hi' =>
    have h1 : d' ≠ d := by
      rintro rfl
      rw [FMap.contains, hqd] at hi'; cases hi'
    by_cases hu : u = t
    · subst hu
      rw [hx] at hy
      cases hy
      have hs' : s' = s := by rcases hst with g | g <;> simp [g, Stage.sending?] at hst' <;> exact hst'.symm
      subst hs'
      refine ⟨u, _, _, d, q, FMap.get_insert_self .., over_set hst _, hc, hd, ?_, hq, hl⟩
      simp only [FMap.get_erase, if_neg h1]
      exact hk
    · exact keep (other hu) hq
  | remove u y s' hy hst' hd' r route hrem =>
    have hu : u ≠ t := by rintro rfl; grind
    have : s'.clientId ≠ id := fun hh => hu (hown hy (by
      rcases hst' with ⟨g, _⟩ | g <;> rw [g] <;> rfl) hh)
    exact keep (other hu) (by grind)
  | rest u y s' hy hst' hd' he r hr timers htm =>
    exact keep (other (by rintro rfl; grind)) hq
  | fire i tm ht _ hw => rcases hw with ⟨rfl, _⟩ | ⟨q, _, _, rfl⟩ <;> exact keep hx hq
  | kick id q hr hq' => exact keep hx hq

/-- An identifier keeps its number until the client is removed. -/
theorem ident_step {name : Str} {id : ClientId} (hi : OInv w)
    (h : w.registry.identMap.get name = some id) {a : Act}
    (hs : w.step cfg ext a = some (w', e)) :
    w'.registry.identMap.get name = some id ∨ ∀ n, w'.registry.identMap.get n ≠ some id := by
  cases step_cases hs with
  | fresh req env r id' hadd hw s out hs =>
    cases hi.reg.add_cases hadd with
    | new hnone => left; grind
  | stillborn req env wr r id' hadd =>
    cases hi.reg.add_cases hadd with
    | new hnone => left; grind
  | wait req env wr r id' q hadd hq =>
    cases hi.reg.add_cases hadd with
    | present id on g1 g2 => exact .inl h
  | locked req env wr r id' hadd hq =>
    cases hi.reg.add_cases hadd with
    | present id on g1 g2 => exact .inl h
  | expire u env y s hy hst' hd time q hq hpr ht s' g m hw r route hrem =>
    have := (hi.reg.removed hrem).2.2
    by_cases hid : id = s.clientId
    · exact .inr fun n => hid ▸ this.1 n
    · exact .inl ((this.2 name id hid).2 h)
  | remove u y s hy hst' hd r route hrem =>
    have := (hi.reg.removed hrem).2.2
    by_cases hid : id = s.clientId
    · exact .inr fun n => hid ▸ this.1 n
    · exact .inl ((this.2 name id hid).2 h)
  | rest u y s hy hst' hd he r hr timers htm =>
    exact .inl (by rw [(Registry.Inv.offline_get hr).1]; exact h)
  | fire i tm ht _ hw => rcases hw with ⟨rfl, _⟩ | ⟨q, _, _, rfl⟩ <;> exact .inl h
  | _ => exact .inl h

theorem jammed_lockedOut {ids : List ClientId} {t : TaskId} {s : Session} (hb : BrokerInv w)
    (h : w.Jammed ids) (ht : w.owned t = some s) (hid : s.clientId ∈ ids) :
    w.LockedOut cfg ext s.identifier := by
  have hreg : w.registry.identMap.get s.identifier = some s.clientId := by
    obtain ⟨x, hx, hs⟩ := owned_stage ht
    have v := Tasks.views hx
    rw [hb.own.session t x s hx hs]
    exact hb.own.named t s.clientId x.req.identifier (by rw [v.2.1, hs]; rfl) v.2.2.2.1
  refine lockedOut_of (P := fun w => w.Jammed ids ∧
    w.registry.identMap.get s.identifier = some s.clientId) hb ⟨h, hreg⟩ ?_
  rintro w a w' e hb ⟨hj, hreg⟩ hs
  have hb' := hb.step hs
  have hj' := jammed_step hb.own hj hs
  obtain ⟨v, y, r, _, _, hy, hyst, hyc, _⟩ := hj' _ hid
  have hyo : y.stage.owner? = some r := by rcases hyst with g | g <;> rw [g] <;> rfl
  have vy := Tasks.views hy
  have hreg' : w'.registry.identMap.get s.identifier = some s.clientId := by
    rcases ident_step hb.own hreg hs with g | g
    · exact g
    · exact absurd (hb'.own.named v s.clientId y.req.identifier (by rw [vy.2.1, hyo, ← hyc]; rfl)
        vy.2.2.2.1) (g _)
  refine ⟨⟨hj', hreg'⟩, ?_⟩
  intro u p hm req hreq hname
  have honl : ∃ x r, w'.tasks.get u = some x ∧ x.stage = .online r := by
    cases accept_cases hb.own (step_cases hs) hm with
    | fresh req env wr id s ha hn hss ht hm he => exact ⟨_, _, ht, rfl⟩
    | next env x old s0 s level p out ha hx hst h0 hs' ht he => exact ⟨_, _, ht, rfl⟩
  obtain ⟨x, r', hx, hst⟩ := honl
  have vx := Tasks.views hx
  unfold World.request at hreq
  rw [hx] at hreq
  cases hreq
  have h1 := hb'.own.named u r'.clientId x.req.identifier (by rw [vx.2.1, hst]; rfl) vx.2.2.2.1
  rw [hname, hreg', Option.some.injEq] at h1
  have h2 : u = v := hb'.own.uniq u v s.clientId (by rw [vx.1, hst, h1]; rfl)
    (by rw [vy.1, ← hyc]; rcases hyst with g | g <;> rw [g] <;> rfl)
  subst h2
  rw [hx] at hy
  cases hy
  rcases hyst with g | g <;> rw [hst] at g <;> cases g

/-! ## Waiting for the session -/

/-- The state after steps none of which failed between registration and CONNACK. -/
structure Steady (cfg : Config) (w : World) : Prop where
  will : ∀ t req, w.request t = some req → req.willRefused cfg = false
  live : ∀ name id, w.registry.identMap.get name = some id → w.inbox.contains id = true

theorem Steady.init : Steady cfg {} where
  will := by intro t req h; cases h
  live := by intro t req h; cases h

theorem Steady.step (h : Steady cfg w) (hi : OInv w) {a : Act} (ha : NoneFailed cfg [a])
    (hs : w.step cfg ext a = some (w', e)) : Steady cfg w' where
  will := by
    intro t req hreq
    by_cases hc : ∃ req env wr, a = .connect req env wr
    · obtain ⟨req', env, wr, rfl⟩ := hc
      rw [(request_connect hs).2 t] at hreq
      split at hreq
      · cases hreq; exact (ha.1 req env wr (List.mem_singleton.2 rfl)).2
      · exact h.will t req hreq
    · rw [(request_other (step_cases hs) fun req env wr he => hc ⟨req, env, wr, he⟩).2 t] at hreq
      exact h.will t req hreq
  live := by
    intro name id hn
    have hlive := h.live name id
    cases step_cases hs with
    | idle => exact hlive hn
    | fresh req env r id' hadd hw s out hs =>
      cases hi.reg.add_cases hadd with
      | new hnone => grind
    | stillborn req env wr r id' hadd =>
      have := ha.1 req env wr (List.mem_singleton.2 rfl)
      rw [this.1] at hs
      simp only [World.step, World.connect, hadd, World.setUp, this.2] at hs
      simp at hs
    | wait req env wr r id' q hadd hq =>
      cases hi.reg.add_cases hadd with
      | present id on g1 g2 => exact hlive hn
    | locked req env wr r id' hadd hq =>
      cases hi.reg.add_cases hadd with
      | present id on g1 g2 => exact hlive hn
    | accept u env y old level hy hst' hw s0 present h0 s out hs => exact hlive hn
    | refused u env wr y old level hy hst' =>
      have hwr := ha.2 u env wr (List.mem_singleton.2 rfl)
      have hwill := h.will u y.req (by unfold World.request; rw [hy]; rfl)
      subst hwr
      simp only [World.step, World.accept, hy, hst', World.setUp, hwill] at hs
      simp at hs
    | packet u env after size p y s hy hst' hd r hr => exact hlive hn
    | normalOn u env y s hy hst' hd src m rest hi =>
      simp only at hn ⊢; rw [contains_rest hi]; exact hlive hn
    | normalOff u env y s hy hst' hd src m rest hi =>
      simp only at hn ⊢; rw [contains_rest hi]; exact hlive hn
    | handOn u env y s hy hst' b z q hq hz => exact hlive hn
    | handOff u env y s hy hst' hd b z q hq hz msgs inbox hm =>
      rcases hm with ⟨_, _, rfl⟩ | ⟨_, _, rfl⟩
      · grind
      · exact hlive hn
    | deny u env y s hy hst' pr b z q hq hpr hz => exact hlive hn
    | ignored u env y s hy hst' c q hq hc => exact hlive hn
    | kicked u env y s hy hst' q hq => exact hlive hn
    | expire u env y s hy hst' hd time q hq hpr ht s' g m hw r route hrem =>
      have := hi.reg.removed hrem
      by_cases hid : id = s.clientId
      · subst hid; exact absurd hn (this.2.2.1 name)
      · exact hlive ((this.2.2.2 name id hid).1 hn)
    | lateWill u env y s hy hst' hd time q hq hpr ht s' g m hw => exact hlive hn
    | lose u y s hy hst' => exact hlive hn
    | closeQuiet u env lost y s hy hst' hd => exact hlive hn
    | closeWill u env lost y s hy hst' hd hp s' g m hw => exact hlive hn
    | closeDelayed u env lost y s hy hst' hd hp => exact hlive hn
    | push u d y s hy hst' m rest hq hk => exact hlive hn
    | flush u d y hy m q hk hi hl =>
      simp only at hn ⊢; rw [contains_rest hi]; exact hlive hn
    | giveUp u d y s hy hst' hi => exact hlive hn
    | remove u y s hy hst' hd r route hrem =>
      have := hi.reg.removed hrem
      by_cases hid : id = s.clientId
      · subst hid; exact absurd hn (this.2.2.1 name)
      · have := hlive ((this.2.2.2 name id hid).1 hn)
        grind
    | rest u y s hy hst' hd he r hr timers htm =>
      simp only at hn; rw [(Registry.Inv.offline_get hr).1] at hn; exact hlive hn
    | fire i tm ht _ hw => rcases hw with ⟨rfl, _⟩ | ⟨q, _, _, rfl⟩ <;> exact hlive hn
    | kick id q hr hq => exact hlive hn

theorem Steady.run {acts : List Act} (ha : NoneFailed cfg acts)
    (h : World.run cfg ext {} acts = some (w, evs)) : Steady cfg w := by
  have key := world_induction_acts (cfg := cfg) (ext := ext)
    (P := fun acts w _ => BrokerInv w ∧ (NoneFailed cfg acts → Steady cfg w))
    ⟨.init, fun _ => .init⟩ (fun acts w evs a w' e g hs => ⟨g.1.step hs, fun hn => by
      refine (g.2 ⟨?_, ?_⟩).step g.1.own ⟨?_, ?_⟩ hs
      · exact fun r e' wr hm => hn.1 r e' wr (List.mem_append_left _ hm)
      · exact fun r e' wr hm => hn.2 r e' wr (List.mem_append_left _ hm)
      · exact fun r e' wr hm => hn.1 r e' wr (List.mem_append_right _ hm)
      · exact fun r e' wr hm => hn.2 r e' wr (List.mem_append_right _ hm)⟩) h
  exact key.2 ha

theorem sending_waiting {st : Stage} {s : Session} (h : st.sending? = some s) :
    st.waiting? = none := by
  cases st <;> simp [Stage.sending?] at h <;> rfl

/-- Once the receivers are gone, nobody hears the requests. -/
theorem waits_step {b : TaskId} {id : ClientId} (hi : OInv w) (hb : Tasks.waiting w.tasks b = some id)
    (hc : w.inbox.contains id = false ∨ ∀ n, w.registry.identMap.get n ≠ some id) {a : Act} (hs : w.step cfg ext a = some (w', e)) :
    Tasks.waiting w'.tasks b = some id ∧
      (w'.inbox.contains id = false ∨ ∀ n, w'.registry.identMap.get n ≠ some id) := by
  have hlt := hi.known b id hb
  have hnew : b ≠ w.nextTask := by
    rintro rfl
    refine absurd (hi.fresh w.nextTask ?_) (Nat.lt_irrefl _)
    unfold Tasks.waiting at hb
    unfold Tasks.name
    cases hn : w.tasks.get w.nextTask with
    | none => rw [hn] at hb; cases hb
    | some x => simp
  have act : ∀ {u : TaskId} {y : Task}, w.tasks.get u = some y → y.stage.waiting? = none → u ≠ b := by
    rintro u y hy hn rfl
    unfold Tasks.waiting at hb
    rw [hy] at hb
    exact absurd (hb.symm.trans hn) (by simp)
  have hcl : ∀ {u : TaskId} {y : Task} {s : Session}, w.tasks.get u = some y →
      y.stage.owner? = some s → s.clientId ≠ id := by
    intro u y s hy hst hid
    have v := Tasks.views hy
    rcases hc with hc | hc
    · have := hi.held u s.clientId (by
        rw [v.1]; cases hs : y.stage <;> rw [hs] at hst <;> cases hst <;> rfl)
      rw [hid, hc] at this; cases this
    · refine hc y.req.identifier (hi.named u id _ ?_ v.2.2.2.1)
      rw [v.2.1, hst, ← hid]; rfl
  have hasked : ∀ {d : ClientId} {pr : Proto} {b' : TaskId} {q : List Control},
      w.control.get d = some (.online pr b' :: q) → d ≠ id → b' ≠ b := by
    rintro d pr b' q hq hd rfl
    have := (hi.queue d _ pr b' hq (List.mem_cons_self ..)).1
    rw [hb, Option.some.injEq] at this
    exact hd this.symm
  have hin : ∀ {d : ClientId} {q q' : List (TaskId × NormalMsg)}, w.inbox.get d = some q →
      (w.inbox.insert d q').contains id = false ∨ ∀ n, w.registry.identMap.get n ≠ some id := by
    intro d q q' hd
    rw [contains_rest hd]; exact hc
  have other : ∀ {u : TaskId} {y : Task}, u ≠ b → Tasks.waiting (w.tasks.insert u y) b = some id := by
    intro u y hu; rw [Tasks.waiting_insert, if_neg hu]; exact hb
  have other2 : ∀ {u v : TaskId} {y z : Task}, u ≠ b → v ≠ b →
      Tasks.waiting ((w.tasks.insert u y).insert v z) b = some id := by
    intro u v y z hu hv
    rw [Tasks.waiting_insert, if_neg hv, Tasks.waiting_insert, if_neg hu]; exact hb
  cases step_cases hs with
  | idle => exact ⟨hb, hc⟩
  | fresh req env r id' hadd hw s out hs =>
    cases hi.reg.add_cases hadd with
    | new hnone => exact ⟨other (Ne.symm hnew), by grind⟩
  | stillborn req env wr r id' hadd =>
    cases hi.reg.add_cases hadd with
    | new hnone => exact ⟨other (Ne.symm hnew), by grind⟩
  | wait req env wr r id' q hadd hq =>
    cases hi.reg.add_cases hadd with
    | present id on g1 g2 => exact ⟨other (Ne.symm hnew), hc⟩
  | locked req env wr r id' hadd hq =>
    cases hi.reg.add_cases hadd with
    | present id on g1 g2 => exact ⟨other (Ne.symm hnew), hc⟩
  | accept u env y old level hy hst' hw s0 present h0 s out hs =>
    exact ⟨other (act hy (by rw [hst']; rfl)), hc⟩
  | refused u env wr y old level hy hst' =>
    exact ⟨other (act hy (by rw [hst']; rfl)), by grind⟩
  | packet u env after size p y s hy hst' hd r hr =>
    exact ⟨other (act hy (by rw [hst']; rfl)), hc⟩
  | normalOn u env y s hy hst' hd src m rest hi => exact ⟨other (act hy (by rw [hst']; rfl)), hin hi⟩
  | normalOff u env y s hy hst' hd src m rest hi => exact ⟨other (act hy (by rw [hst']; rfl)), hin hi⟩
  | handOn u env y s hy hst' b' z q hq hz =>
    exact ⟨other2 (act hy (by rw [hst']; rfl)) (hasked hq (hcl hy (by rw [hst']; rfl))), hc⟩
  | handOff u env y s hy hst' hd b' z q hq hz msgs inbox hm =>
    have hne := hcl hy (s := s) (by rw [hst']; rfl)
    refine ⟨other2 (act hy (by rw [hst']; rfl)) (hasked hq hne), ?_⟩
    rcases hm with ⟨_, _, rfl⟩ | ⟨_, _, rfl⟩
    · grind
    · exact hc
  | deny u env y s hy hst' pr b' z q hq hpr hz =>
    exact ⟨other (hasked hq (hcl hy (by rcases hst' with g | ⟨g, _⟩ <;> rw [g] <;> rfl))), hc⟩
  | ignored u env y s hy hst' c q hq hc' => exact ⟨hb, hc⟩
  | kicked u env y s hy hst' q hq => exact ⟨other (act hy (by rw [hst']; rfl)), hc⟩
  | expire u env y s hy hst' hd time q hq hpr ht s' g m hw r route hrem =>
    refine ⟨other (act hy (by rw [hst']; rfl)), hc.imp_right fun hc n hn => ?_⟩
    have := hi.reg.removed hrem
    by_cases hid : id = s.clientId
    · exact this.2.2.1 n (hid ▸ hn)
    · exact hc n ((this.2.2.2 n id hid).1 hn)
  | lateWill u env y s hy hst' hd time q hq hpr ht s' g m hw =>
    exact ⟨other (act hy (by rw [hst']; rfl)), hc⟩
  | lose u y s hy hst' => exact ⟨other (act hy (by rw [hst']; rfl)), hc⟩
  | closeQuiet u env lost y s hy hst' hd => exact ⟨other (act hy (by rw [hst']; rfl)), hc⟩
  | closeWill u env lost y s hy hst' hd hp s' g m hw =>
    exact ⟨other (act hy (by rw [hst']; rfl)), hc⟩
  | closeDelayed u env lost y s hy hst' hd hp => exact ⟨other (act hy (by rw [hst']; rfl)), hc⟩
  | push u d y s hy hst' m rest hq hk =>
    exact ⟨other (act hy (sending_waiting hst')), hc⟩
  | flush u d y hy m q hk hi' hl =>
    refine ⟨?_, hin hi'⟩
    rw [Tasks.waiting_insert]
    split
    · rename_i hu; subst hu
      unfold Tasks.waiting at hb; rw [hy] at hb; exact hb
    · exact hb
  | giveUp u d y s hy hst' hi => exact ⟨other (act hy (sending_waiting hst')), hc⟩
  | remove u y s hy hst' hd r route hrem =>
    refine ⟨other (act hy (by rcases hst' with ⟨g, _⟩ | g <;> rw [g] <;> rfl)), ?_⟩
    refine hc.imp (fun hc => by grind) fun hc n hn => ?_
    have := hi.reg.removed hrem
    by_cases hid : id = s.clientId
    · exact this.2.2.1 n (hid ▸ hn)
    · exact hc n ((this.2.2.2 n id hid).1 hn)
  | rest u y s hy hst' hd he r hr timers htm =>
    exact ⟨other (act hy (by rw [hst']; rfl)), by rw [(Registry.Inv.offline_get hr).1]; exact hc⟩
  | fire i tm ht _ hw => rcases hw with ⟨rfl, _⟩ | ⟨q, _, _, rfl⟩ <;> exact ⟨hb, hc⟩
  | kick id q hr hq => exact ⟨hb, hc⟩

/-- The request of a connection that waits is in the queue of the session. -/
def Queued (w : World) : Prop :=
  ∀ b id q, Tasks.waiting w.tasks b = some id → w.control.get id = some q →
    ∃ pr, .online pr b ∈ q

theorem asked_step (hq : Queued w) (hi : OInv w) {a : Act}
    (hs : w.step cfg ext a = some (w', e)) : Queued w' := by
  intro b id q hb hcq
  have hq0 := hq b id
  have hfresh : ∀ id, Tasks.waiting w.tasks b = some id → id < w.registry.nextId := hi.known b
  have hnew : Tasks.waiting w.tasks w.nextTask = none := by
    have := hi.fresh w.nextTask
    unfold Tasks.waiting
    unfold Tasks.name at this
    cases hn : w.tasks.get w.nextTask with
    | none => rfl
    | some x => rw [hn] at this; exact absurd (this (by simp)) (Nat.lt_irrefl _)
  have wview : ∀ {u : TaskId} {y : Task}, w.tasks.get u = some y →
      Tasks.waiting w.tasks u = y.stage.waiting? := by
    intro u y hy; unfold Tasks.waiting; rw [hy]; rfl
  cases step_cases hs with
  | idle => exact hq0 q hb hcq
  | fresh req env r id' hadd hw s out hs =>
    cases hi.reg.add_cases hadd with
    | new hnone => grind
  | stillborn req env wr r id' hadd =>
    cases hi.reg.add_cases hadd with
    | new hnone => grind
  | wait req env wr r id' q' hadd hq' =>
    simp only [Tasks.waiting_insert] at hb
    simp only [FMap.get_insert] at hcq
    split at hb
    · rename_i hu
      cases hb
      rw [if_pos rfl] at hcq
      cases hcq
      exact ⟨req.level.proto, by rw [hu]; simp⟩
    · split at hcq
      · rename_i hid
        subst hid
        cases hcq
        obtain ⟨pr, hm⟩ := hq0 q' hb hq'
        exact ⟨pr, List.mem_append_left _ hm⟩
      · exact hq0 q hb hcq
  | locked req env wr r id' hadd hq' => grind
  | accept u env y old level hy hst' hw s0 present h0 s out hs => grind
  | refused u env wr y old level hy hst' => grind
  | packet u env after size p y s hy hst' hd r hr =>
    simp only [Tasks.waiting_insert] at hb
    split at hb
    · split at hb <;> cases hb
    · exact hq0 q hb hcq
  | normalOn u env y s hy hst' hd src m rest hi' => grind
  | normalOff u env y s hy hst' hd src m rest hi' => grind
  | handOn u env y s hy hst' b' z q' hq' hz =>
    simp only [Tasks.waiting_insert] at hb
    split at hb
    · cases hb
    · split at hb
      · cases hb
      · simp only [FMap.get_insert] at hcq
        split at hcq
        · rename_i hid
          subst hid
          cases hcq
          obtain ⟨pr, hm⟩ := hq0 _ hb hq'
          rcases List.mem_cons.1 hm with hm | hm
          · cases hm; contradiction
          · exact ⟨pr, hm⟩
        · exact hq0 q hb hcq
  | handOff u env y s hy hst' hd b' z q' hq' hz msgs inbox hm =>
    simp only [Tasks.waiting_insert] at hb
    split at hb
    · cases hb
    · split at hb
      · cases hb
      · simp only [FMap.get_insert] at hcq
        split at hcq
        · rename_i hid
          subst hid
          cases hcq
          obtain ⟨pr, hm⟩ := hq0 _ hb hq'
          rcases List.mem_cons.1 hm with hm | hm
          · cases hm; contradiction
          · exact ⟨pr, hm⟩
        · exact hq0 q hb hcq
  | deny u env y s hy hst' pr b' z q' hq' hpr hz =>
    simp only [Tasks.waiting_insert] at hb
    split at hb
    · cases hb
    · simp only [FMap.get_insert] at hcq
      split at hcq
      · rename_i hid
        subst hid
        cases hcq
        obtain ⟨pr, hm⟩ := hq0 _ hb hq'
        rcases List.mem_cons.1 hm with hm | hm
        · cases hm; contradiction
        · exact ⟨pr, hm⟩
      · exact hq0 q hb hcq
  | ignored u env y s hy hst' c q' hq' hc =>
    simp only [FMap.get_insert] at hcq
    split at hcq
    · rename_i hid
      subst hid
      cases hcq
      obtain ⟨pr, hm⟩ := hq0 _ hb hq'
      rcases List.mem_cons.1 hm with hm | hm
      · subst hm
        rcases hc with ⟨pr', b', h1, h2⟩ | ⟨h1, _⟩ | ⟨time, h1 | h1, _⟩
        · cases h1
          unfold Tasks.waiting at hb
          simp only [h2] at hb
          cases hb
        · cases h1
        · cases h1
        · cases h1
      · exact ⟨pr, hm⟩
    · exact hq0 q hb hcq
  | kicked u env y s hy hst' q' hq' => grind
  | expire u env y s hy hst' hd time q' hq' hpr ht s' g m hw r route hrem => grind
  | lateWill u env y s hy hst' hd time q' hq' hpr ht s' g m hw => grind
  | lose u y s hy hst' => grind
  | closeQuiet u env lost y s hy hst' hd => grind
  | closeWill u env lost y s hy hst' hd hp s' g m hw => grind
  | closeDelayed u env lost y s hy hst' hd hp => grind
  | push u d y s hy hst' m rest hq' hk =>
    simp only [Tasks.waiting_insert] at hb
    split at hb
    · cases hst : y.stage <;> simp [hst, Stage.sending?, Stage.setSession, Stage.waiting?] at hst' hb
    · exact hq0 q hb hcq
  | flush u d y hy m q' hk hi' hl =>
    simp only [Tasks.waiting_insert] at hb
    split at hb
    · rename_i hu; subst hu
      exact hq0 q ((wview hy).trans hb) hcq
    · exact hq0 q hb hcq
  | giveUp u d y s hy hst' hi' =>
    simp only [Tasks.waiting_insert] at hb
    split at hb
    · cases hst : y.stage <;> simp [hst, Stage.sending?, Stage.setSession, Stage.waiting?] at hst' hb
    · exact hq0 q hb hcq
  | remove u y s hy hst' hd r route hrem => grind
  | rest u y s hy hst' hd he r hr timers htm => grind
  | fire i tm ht _ hw =>
    rcases hw with ⟨rfl, _⟩ | ⟨q', _, hq', rfl⟩
    · exact hq0 q hb hcq
    · simp only [FMap.get_insert] at hcq
      split at hcq
      · rename_i hid
        subst hid
        cases hcq
        obtain ⟨pr, hm⟩ := hq0 _ hb hq'
        exact ⟨pr, List.mem_append_left _ hm⟩
      · exact hq0 q hb hcq
  | kick id' q' hr hq' =>
    simp only [FMap.get_insert] at hcq
    split at hcq
    · rename_i hid
      subst hid
      cases hcq
      obtain ⟨pr, hm⟩ := hq0 _ hb hq'
      exact ⟨pr, List.mem_append_left _ hm⟩
    · exact hq0 q hb hcq

theorem asked_run {acts : List Act} (h : World.run cfg ext {} acts = some (w, evs)) : Queued w :=
  (world_induction (cfg := cfg) (ext := ext) (P := fun w _ => BrokerInv w ∧ Queued w)
    ⟨.init, fun b id q hb _ => by cases hb⟩
    (fun _ _ _ _ _ g hs => ⟨g.1.step hs, asked_step g.2 g.1.own hs⟩) h).2

/-- The stage of a task that attends to its session. -/
def Task.attending (x : Task) (s : Session) : Prop :=
  x.stage = .online s ∨ (x.stage = .offline s ∧ x.idle s = true)

/-- A request of another protocol family is turned down. -/
theorem turned_down {t b : TaskId} {x y : Task} {s : Session} {pr : Proto} {q : List Control}
    (env : Env) (hx : w.tasks.get t = some x) (ha : x.attending s)
    (hq : w.control.get s.clientId = some (.online pr b :: q)) (hy : w.tasks.get b = some y)
    (hp : pr ≠ x.req.level.proto) :
    w.step cfg ext (.control t env) = some
      ({ w with control := w.control.insert s.clientId q
                tasks := w.tasks.insert b { y with stage := .gone } }, []) := by
  rcases ha with h | ⟨h, hi⟩
  · simp only [World.step, World.handleControl, hx, h, World.onControl, hq, hy, if_neg hp,
      World.setTask]
  · simp only [World.step, World.handleControl, hx, h, World.onControl, hq, hy, if_neg hp,
      World.setTask, hi, if_true]

/-- A request is met: the session is handed over. -/
theorem handed {t b : TaskId} {x y : Task} {s : Session} {q : List Control}
    (env : Env) (hx : w.tasks.get t = some x) (ha : x.attending s)
    (hq : w.control.get s.clientId = some (.online x.req.level.proto b :: q))
    (hy : w.tasks.get b = some y) :
    ∃ w' e old, w.step cfg ext (.control t env) = some (w', e) ∧ old.clientId = s.clientId ∧
      w'.control.get s.clientId = some q ∧
      w'.tasks.get b = some { y with stage := .granted old x.req.level } := by
  rcases ha with h | ⟨h, hi⟩
  · cases hst : w.step cfg ext (.control t env) with
    | none =>
      simp [World.step, World.handleControl, hx, h, World.onControl, hq, hy] at hst
    | some r =>
      simp only [World.step, World.handleControl, hx, h, World.onControl, hq, hy, if_true,
        Bool.false_and, Option.some.injEq] at hst
      subst hst
      exact ⟨_, _, _, rfl, (SameEnd.of_core (core_drain ..)).1.client, FMap.get_insert_self ..,
        FMap.get_insert_self ..⟩
  · cases hst : w.step cfg ext (.control t env) with
    | none =>
      simp [World.step, World.handleControl, hx, h, World.onControl, hq, hy, hi] at hst
    | some r =>
      simp only [World.step, World.handleControl, hx, h, World.onControl, hq, hy, if_true, hi,
        Bool.true_and, Option.some.injEq] at hst
      subst hst
      exact ⟨_, _, _, rfl, (SameEnd.of_core (core_drain ..)).1.client, FMap.get_insert_self ..,
        FMap.get_insert_self ..⟩

/-- A connection that was given the session is accepted. -/
theorem accepted_now {b : TaskId} {y : Task} {old : Session} {level : Level} (env : Env)
    (hy : w.tasks.get b = some y) (hst : y.stage = .granted old level)
    (hw : y.req.willRefused cfg = false) :
    ∃ w' e s p x, w.step cfg ext (.accept b env true) = some (w', e) ∧ .accepted b p ∈ e ∧
      w'.tasks.get b = some x ∧ x.stage = .online s ∧ x.req = y.req ∧
      s.clientId = old.clientId ∧ w'.control = w.control := by
  cases hr : handlePendingsOf y.req.level.proto (env.clk 0) (y.req.session cfg old level).1 with
  | mk s out =>
    have hc : s.clientId = old.clientId := by
      rw [(sameId_pendings hr).client, session_client]
    simp only [World.step, World.accept, hy, hst, World.setUp, hw, hr, Option.some.injEq]
    refine ⟨_, _, s, (y.req.session cfg old level).2, _, rfl, ?_, FMap.get_insert_self .., rfl, rfl,
      hc, rfl⟩
    simp
    split <;> simp

/-- Requests are met one after the other. -/
theorem serve {id : ClientId} {pr : Proto} {b : TaskId} (env : Env) (q : List Control) :
    ∀ {w : World} {t : TaskId} {x : Task} {s : Session}, BrokerInv w →
      (∀ t req, w.request t = some req → req.willRefused cfg = false) →
      w.tasks.get t = some x → x.attending s → s.clientId = id → x.req.level.proto = pr →
      w.control.get id = some q → (∀ c ∈ q, ∃ pr b, c = .online pr b) → .online pr b ∈ q →
      ∃ acts w' evs p, World.run cfg ext w acts = some (w', evs) ∧ .accepted b p ∈ evs ∧
        ∀ a ∈ acts, a.serves = true := by
  induction q with
  | nil => intro w t x s _ _ _ _ _ _ _ _ hm; cases hm
  | cons c q ih =>
    rintro w t x s hb hw hx ha rfl rfl hq hall hm
    obtain ⟨pr', b', rfl⟩ := hall c (List.mem_cons_self ..)
    obtain ⟨g1, g2⟩ := hb.own.queue _ _ pr' b' hq (List.mem_cons_self ..)
    obtain ⟨y, hy⟩ : ∃ y, w.tasks.get b' = some y := by
      unfold Tasks.waiting at g1
      cases hy : w.tasks.get b' with
      | none => rw [hy] at g1; cases g1
      | some y => exact ⟨y, rfl⟩
    have hyp : y.req.level.proto = pr' := by
      unfold Tasks.proto at g2; rw [hy] at g2; exact Option.some.inj g2
    have hne : b' ≠ t := by
      rintro rfl
      unfold Tasks.waiting at g1
      rw [hx] at g1
      rcases ha with g | ⟨g, _⟩ <;> simp [g, Stage.waiting?] at g1
    have hall' : ∀ c ∈ q, ∃ pr b, c = Control.online pr b := fun c hc =>
      hall c (List.mem_cons_of_mem _ hc)
    by_cases hp : pr' = x.req.level.proto
    · subst hp
      obtain ⟨w1, e1, old, h1, h2, h3, h4⟩ := handed (cfg := cfg) (ext := ext) env hx ha hq hy
      have hb1 := hb.step h1
      have hw1 := (request_other (step_cases h1) (fun _ _ _ h => by cases h)).2
      obtain ⟨w2, e2, s2, p, x2, k1, k2, k3, k4, k5, k6, k7⟩ :=
        accepted_now (cfg := cfg) (ext := ext) env h4 rfl
          (hw b' y.req (by unfold World.request; rw [hy]; rfl))
      have hb2 := hb1.step k1
      have hw2 := (request_other (step_cases k1) (fun _ _ _ h => by cases h)).2
      have hrun : World.run cfg ext w [.control t env, .accept b' env true] =
          some (w2, e1 ++ (e2 ++ [])) := by
        simp only [World.run, h1, k1, Option.map]
      by_cases hbb : b = b'
      · subst hbb
        exact ⟨_, _, _, p, hrun, by simp [k2], by simp [Act.serves]⟩
      · have hm' : Control.online x.req.level.proto b ∈ q := by
          rcases List.mem_cons.1 hm with h | h
          · cases h; exact absurd rfl hbb
          · exact h
        obtain ⟨acts, w3, evs, p', r1, r2, r3⟩ := ih (w := w2) (t := b') (x := x2) (s := s2) hb2
          (fun u req hu => hw u req (by rw [← hw1, ← hw2]; exact hu)) k3 (.inl k4)
          (by rw [k6, h2]) (by rw [k5]; exact hyp) (by rw [k7]; exact h3) hall' hm'
        refine ⟨_, _, _, p', run_append_world hrun r1, List.mem_append_right _ r2, ?_⟩
        intro a ha
        rcases List.mem_append.1 ha with ha | ha
        · simp at ha; rcases ha with rfl | rfl <;> rfl
        · exact r3 a ha
    · have h1 := turned_down (cfg := cfg) (ext := ext) env hx ha hq hy hp
      have hb1 := hb.step h1
      have hw1 := (request_other (step_cases h1) (fun _ _ _ h => by cases h)).2
      have hm' : Control.online x.req.level.proto b ∈ q := by
        rcases List.mem_cons.1 hm with h | h
        · cases h; exact absurd rfl hp
        · exact h
      obtain ⟨acts, w3, evs, p', r1, r2, r3⟩ := ih hb1
        (fun u req hu => hw u req (by rw [← hw1]; exact hu)) (t := t) (x := x) (s := s)
        (by simp only [FMap.get_insert, if_neg hne]; exact hx) ha rfl rfl
        (FMap.get_insert_self ..) hall' hm'
      exact ⟨.control t env :: acts, w3, evs, p', by
        simp only [World.run, h1, r1, Option.map, List.nil_append], r2, fun a ha => by
        rcases List.mem_cons.1 ha with rfl | ha
        · rfl
        · exact r3 a ha⟩

end Akasa
