import Verif.Spec.Leftover
import Verif.Proof.GrantedFlow
import Verif.Props.Agree
import Verif.Props.Panic
/-! # Lemmas of C104 -/
namespace Akasa

variable {cfg : Config} {ext : Ext} {w w' : World} {evs e : List Event}

theorem serves_iff {id : ClientId} : w.serves id ↔ ∃ t, Tasks.client w.tasks t = some id := by
  constructor
  · rintro ⟨t, x, s, hx, rfl, h⟩
    refine ⟨t, ?_⟩
    rw [(Tasks.views hx).1]
    rcases h with h | h | h | h | h | ⟨l, h⟩ <;> rw [h] <;> rfl
  · rintro ⟨t, ht⟩
    unfold Tasks.client at ht
    cases hx : w.tasks.get t with
    | none => rw [hx] at ht; cases ht
    | some x =>
      rw [hx] at ht
      simp only [Option.bind_some, Option.map_eq_some_iff] at ht
      obtain ⟨s, h1, h2⟩ := ht
      refine ⟨t, x, s, hx, h2, ?_⟩
      cases hst : x.stage <;> rw [hst] at h1 <;> cases h1 <;> simp

theorem fmap_nil {κ α : Type} [DecidableEq κ] {m : FMap κ α} (h : ∀ k, FMap.get m k = none) : m = [] := by
  cases m with
  | nil => rfl
  | cons a m =>
    have := h a.1
    rw [FMap.get_cons] at this
    simp at this

/-- A table that nobody is subscribed in and that has no groups is empty. -/
theorem bare_route {ops : List RouteOp} {t : RouteTable} (hrun : RouteTable.empty.run ops = some t)
    (hp : PlainRoute t) (hn : ∀ f id, subscribed ops f id = none) : t = RouteTable.empty := by
  have hr : RInv (subscribed ops) t := RInv.empty.run hrun
  have hempty : ∀ p, (t.root.contentAt p).isEmpty = true := by
    intro p
    cases he : (t.root.contentAt p).isEmpty with
    | true => rfl
    | false =>
      obtain ⟨f, _, rfl⟩ := hr.tf p he
      have hc : (t.root.contentAt (levels f)).clients = [] := fmap_nil fun id => by
        rw [hr.clients]; unfold plainPart; rw [hn]; simp
      rw [← he]
      simp [RouteContent.isEmpty, hc, hp.groups]
  cases ht : t.nodes with
  | nil => cases t; simp only at ht; subst ht; rfl
  | cons a b =>
    have hg : FMap.get (a :: b) a.1 = some a.2 := by rw [FMap.get_cons, if_pos rfl]
    obtain ⟨p, hl⟩ := hr.pruned [a.1] a.2 (by simp) (by
      simp [RouteNode.find, RouteTable.root, RouteNode.nodes, ht, hg])
    have := hempty (a.1 :: p)
    rw [RouteNode.contentAt_cons] at this
    simp [RouteTable.root, RouteNode.nodes, ht, hg, hl] at this

/-- The calls of a step on the routing table are made for clients that have a session. -/
theorem route_step {a : Act} (hs : w.step cfg ext a = some (w', e)) :
    ∃ l, w.route.run l = some w'.route ∧ ∀ op ∈ l, w.serves op.client := by
  have leave : ∀ {t : TaskId} {x : Task} {s : Session} {r : Registry} {route : RouteTable},
      w.tasks.get t = some x → x.stage.session? = some s →
      removeClient w.registry w.route s.clientId s.subscribes.keys = some (r, route) →
      ∃ l, w.route.run l = some route ∧ ∀ op ∈ l, w.serves op.client := by
    intro t x s r route hx hst hrem
    refine ⟨_, (removeClient_run hrem).2, fun op hop => serves_iff.2 ⟨t, ?_⟩⟩
    obtain ⟨f, _, rfl⟩ := List.mem_map.1 hop
    rw [(Tasks.views hx).1, hst]; rfl
  cases step_cases hs with
  | packet t env after size p x s hx hst hd r hr =>
    obtain ⟨r0, h0, hcore, _, hg, _, hcl⟩ := onPacket_handled hr
    have hm := (moves_packet h0).of_core hcore
    rw [← hg] at hm
    refine ⟨_, hm.route, fun op hop => serves_iff.2 ⟨t, ?_⟩⟩
    obtain ⟨c, _, rfl⟩ := List.mem_map.1 hop
    rw [(Tasks.views hx).1, hst]
    cases c <;> rfl
  | expire t env x s hx hst hd time q hq hpr ht s' g m hw r route hrem =>
    rw [hw.route] at hrem
    exact leave hx (by rw [hst]; rfl) hrem
  | remove t x s hx hst hd r route hrem =>
    exact leave hx (by rcases hst with ⟨hst, _⟩ | hst <;> rw [hst] <;> rfl) hrem
  | lateWill t env x s hx hst hd time q hq hpr ht s' g m hw =>
    exact ⟨[], by rw [show g.route = w.route from hw.route]; rfl, (fun op h => by cases h)⟩
  | closeWill t env lost x s hx hst hd hp s' g m hw =>
    exact ⟨[], by rw [show g.route = w.route from hw.route]; rfl, (fun op h => by cases h)⟩
  | fire i tm ht _ hw =>
    rcases hw with ⟨rfl, _⟩ | ⟨q, _, _, rfl⟩ <;> exact ⟨[], rfl, (fun op h => by cases h)⟩
  | _ => exact ⟨[], rfl, (fun op h => by cases h)⟩

/-- A client that is gone does not come back under the same id. -/
theorem gone_step {id : ClientId} (hi : OInv w) (hi' : OInv w') (hg : w.gaveOut id)
    (hn : ¬ w.serves id) {a : Act} (hs : w.step cfg ext a = some (w', e)) :
    w'.gaveOut id ∧ ¬ w'.serves id := by
  have h2 : w.inbox.contains id = false := by
    cases h : w.inbox.contains id with
    | false => rfl
    | true => exact absurd (serves_iff.2 (hi.inbox id h)) hn
  suffices h : w'.gaveOut id ∧ w'.inbox.contains id = false by
    refine ⟨h.1, fun hs => ?_⟩
    obtain ⟨t, ht⟩ := serves_iff.1 hs
    have := hi'.held t id ht
    rw [h.2] at this; cases this
  have hcl : ∀ {u : TaskId} {y : Task} {s : Session}, w.tasks.get u = some y →
      y.stage.session? = some s → s.clientId ≠ id := by
    intro u y s hy hst hid
    have := hi.held u s.clientId (by rw [(Tasks.views hy).1, hst]; rfl)
    rw [hid, h2] at this; cases this
  have hin : ∀ {d : ClientId} {q q' : List (TaskId × NormalMsg)}, w.inbox.get d = some q →
      (w.inbox.insert d q').contains id = false := by
    intro d q q' hd
    rw [contains_rest hd]; exact h2
  have h1 : w'.gaveOut id := by
    unfold World.gaveOut at hg ⊢
    cases reg_step hi hs with
    | same _ h => rw [h]; exact hg
    | new _ _ _ h => rw [h]; exact Nat.lt_succ_of_lt hg
    | removed _ h => rw [h]; exact hg
  refine ⟨h1, ?_⟩
  unfold World.gaveOut at hg
  clear h1 hi'
  cases step_cases hs with
  | fresh req env r id' hadd hw s out hs =>
    cases hi.reg.add_cases hadd with
    | new hnone => grind
  | stillborn req env wr r id' hadd => grind
  | refused u env wr y old level hy hst' => grind
  | normalOn u env y s hy hst' hd src m rest hi => exact hin hi
  | normalOff u env y s hy hst' hd src m rest hi => exact hin hi
  | handOff u env y s hy hst' hd b z q hq hz msgs inbox hm =>
    rcases hm with ⟨_, _, rfl⟩ | ⟨_, _, rfl⟩
    · have := hcl hy (s := s) (by rw [hst']; rfl)
      simp only
      rw [Registry.contains_insert, h2]
      simp [Ne.symm this]
    · exact h2
  | flush u d y hy m q hk hi hl => exact hin hi
  | remove u y s hy hst' hd r route hrem => grind
  | fire i tm ht _ hw => rcases hw with ⟨rfl, _⟩ | ⟨q, _, _, rfl⟩ <;> exact h2
  | _ => exact h2

/-- Nobody can touch the subscriptions of a client that is gone. -/
theorem gone_run {id : ClientId} {acts acts' : List Act} (hrun : Reaches cfg ext acts w evs)
    (hg : w.gaveOut id) (hn : ¬ w.serves id) (hrun' : World.run cfg ext w acts' = some (w', e)) :
    ¬ w'.serves id ∧ ∃ l, w.route.run l = some w'.route ∧ ∀ op ∈ l, op.client ≠ id := by
  suffices h : BrokerInv w' ∧ w'.gaveOut id ∧ ¬ w'.serves id ∧
      ∃ l, w.route.run l = some w'.route ∧ ∀ op ∈ l, op.client ≠ id from h.2.2
  induction acts' using snoc_induction generalizing w' e with
  | nil =>
    cases hrun'
    exact ⟨BrokerInv.run hrun, hg, hn, [], rfl, (fun op h => by cases h)⟩
  | snoc acts' a ih =>
    obtain ⟨w1, e1, e2, h1, h2, rfl⟩ := run_snoc_world.mp hrun'
    obtain ⟨hb, hg1, hn1, l, hl, ho⟩ := ih h1
    have hb' := hb.step h2
    obtain ⟨hg2, hn2⟩ := gone_step hb.own hb'.own hg1 hn1 h2
    obtain ⟨l', hl', ho'⟩ := route_step h2
    refine ⟨hb', hg2, hn2, l ++ l', ?_, ?_⟩
    · rw [run_append, hl]; exact hl'
    · intro op hop
      rcases List.mem_append.1 hop with hop | hop
      · exact ho op hop
      · intro he
        exact hn1 (he ▸ ho' op hop)

end Akasa
