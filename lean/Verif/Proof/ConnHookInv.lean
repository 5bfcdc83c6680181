import Verif.Proof.ConnHook
/-! # Invariants for C87–C90 -/
namespace Akasa

variable {cfg : Config} {ext : Ext} {w w' : World} {evs : List Event}
variable {flags : HookFlags} {c : ServerConfig} {x : ConnExt} {f f' f1 : Front}

/-! ## What the hooks are told of a connection -/

inductive Cls where
  | before
  | on
  | past
  | gone
deriving DecidableEq

def Life.cls : Life → Cls
  | .absent => .before
  | .early => .before
  | .conn .online _ => .on
  | .conn _ _ => .past
  | .gone => .gone

/-- The calls for a connection; `acc` are the CONNACK packets. -/
def HeardOf (flags : HookFlags) (smooth : Prop) (t : TaskId) (acc : List Bool)
    (calls : List HookCall) : Cls → Prop
  | .before => acc = [] ∧ calls = []
  | .on => ∃ p, acc = [p] ∧ calls = saysConnect flags t p
  | .past => ∃ p, acc = [p] ∧ calls = saysConnect flags t p ++ saysBye flags t false
  | .gone => (acc = [] ∧ calls = []) ∨
      (∃ p, acc = [p] ∧ calls = saysConnect flags t p ∧ ¬ smooth) ∨
      ∃ p b, acc = [p] ∧ calls = saysConnect flags t p ++ saysBye flags t b

theorem HeardOf.weaken {s s' : Prop} {t : TaskId} {acc : List Bool} {calls : List HookCall} {k : Cls}
    (h : HeardOf flags s t acc calls k) (hs : s' → s) : HeardOf flags s' t acc calls k := by
  cases k with
  | gone =>
    rcases h with h | ⟨p, h1, h2, h3⟩ | h
    · exact .inl h
    · exact .inr (.inl ⟨p, h1, h2, fun h => h3 (hs h)⟩)
    · exact .inr (.inr h)
  | _ => exact h

theorem HeardOf.over {s : Prop} {t : TaskId} {acc : List Bool} {calls : List HookCall} {k : Cls}
    (h : HeardOf flags s t acc calls k) (hk : k ≠ .on) : HeardOf flags s t acc calls .gone := by
  cases k with
  | before => exact .inl h
  | on => exact absurd rfl hk
  | past => obtain ⟨p, h⟩ := h; exact .inr (.inr ⟨p, false, h⟩)
  | gone => exact h

theorem life_same {req : Request} {p : Option InPkt} {l l' : Life} {ms : List SendPub} {r : Bool}
    (h : LifeStep ext req p l l' ms r) (hon : l'.on = l.on) :
    l'.cls = l.cls ∨ (l'.cls = .gone ∧ l.cls ≠ .on) := by
  cases h with
  | taken k hk e =>
    rcases hk with rfl | rfl
    · cases hon
    · exact .inr ⟨rfl, by simp [Life.cls]⟩
  | packet pkt hp e e' k hk he =>
    rcases hk with rfl | rfl
    · exact .inl rfl
    · cases hon
  | same | asks | rests | quiet | now | late | expires => exact .inl rfl
  | starts | granted | lost => cases hon
  | fails | refused | ends | vanishes => exact .inr ⟨rfl, by simp [Life.cls]⟩

theorem life_leaves {req : Request} {p : Option InPkt} {l l' : Life} {ms : List SendPub} {r : Bool}
    (h : LifeStep ext req p l l' ms r) (h1 : l.on = true) (h2 : l'.on = false) :
    (l'.cls = .past ∧ l'.over = false) ∨ (l'.cls = .gone ∧ l'.over = true) := by
  cases h with
  | taken k hk e => exact .inr ⟨rfl, rfl⟩
  | packet pkt hp e e' k hk he =>
    rcases hk with rfl | rfl
    · cases h2
    · exact .inl ⟨rfl, rfl⟩
  | lost => exact .inl ⟨rfl, rfl⟩
  | same => rw [h1] at h2; cases h2
  | _ => cases h1

theorem on_cls {l : Life} (h : l.on = true) : l.cls = .on := by
  cases l with
  | conn k e => cases k <;> first | rfl | cases h
  | _ => cases h

/-- One step seen from one connection. -/
theorem seen_life {a : Act} (ho : OInv w) (hs : w.step cfg ext a = some (w', evs)) (u : TaskId) :
    Tasks.life w'.tasks u = Tasks.life w.tasks u ∨ ∃ req p ms r,
      LifeStep ext req p (Tasks.life w.tasks u) (Tasks.life w'.tasks u) ms r := by
  have hse := seen_step ho (step_cases hs) u
  cases hr : w'.request u with
  | some req => exact .inr ⟨_, _, _, _, hse.step req hr⟩
  | none =>
    left
    have h1 : w'.tasks.get u = none := by
      unfold World.request at hr
      cases h : w'.tasks.get u with
      | none => rfl
      | some y => rw [h] at hr; cases hr
    have h2 : w.tasks.get u = none := by
      cases h : w.tasks.get u with
      | none => rfl
      | some y =>
        have := hse.keeps y.req (by unfold World.request; rw [h]; rfl)
        rw [hr] at this; cases this
    unfold Tasks.life
    rw [h1, h2]

theorem callsOf_append (t : TaskId) (a b : List HookedEvent) :
    callsOf t (a ++ b) = callsOf t a ++ callsOf t b := List.filterMap_append

theorem acceptedAs_append (t : TaskId) (a b : List HookedEvent) :
    acceptedAs t (a ++ b) = acceptedAs t a ++ acceptedAs t b := List.filterMap_append

theorem callsOf_front (t : TaskId) (l : List FrontEvent) : callsOf t (l.map .front) = [] := by
  unfold callsOf; rw [List.filterMap_eq_nil_iff]
  intro e he; obtain ⟨v, _, rfl⟩ := List.mem_map.1 he; rfl

theorem acceptedAs_called (t : TaskId) (l : List HookCall) : acceptedAs t (l.map .called) = [] := by
  unfold acceptedAs; rw [List.filterMap_eq_nil_iff]
  intro e he; obtain ⟨v, _, rfl⟩ := List.mem_map.1 he; rfl

theorem acceptedAs_none (t : TaskId) {rs : List FrontEvent} {evs : List Event}
    (hrs : ∀ e ∈ rs, ∃ k r, e = .reply k r) (he : ∀ t p, .accepted t p ∉ evs) :
    acceptedAs t ((rs ++ evs.map FrontEvent.event).map .front) = [] := by
  unfold acceptedAs
  rw [List.filterMap_eq_nil_iff]
  intro e h
  obtain ⟨v, hv, rfl⟩ := List.mem_map.1 h
  rcases List.mem_append.1 hv with hv | hv
  · obtain ⟨k, r, rfl⟩ := hrs v hv; rfl
  · obtain ⟨u, hu, rfl⟩ := List.mem_map.1 hv
    cases u with
    | accepted t p => exact absurd hu (he t p)
    | _ => rfl

theorem asking_quiet (flags : HookFlags) (f : Front) (tick : HookTick) (t : TaskId) :
    callsOf t (asking flags f tick) = [] ∧ acceptedAs t (asking flags f tick) = [] := by
  unfold asking
  split
  · split <;> exact ⟨rfl, rfl⟩
  · exact ⟨rfl, rfl⟩

theorem callsOf_connect (flags : HookFlags) (t u : TaskId) (p : Bool) :
    callsOf u ((saysConnect flags t p).map .called) = if t = u then saysConnect flags t p else [] := by
  unfold saysConnect callsOf
  cases flags.beforeConnect <;> by_cases h : t = u <;> simp [h]

theorem callsOf_bye (flags : HookFlags) (t u : TaskId) (b : Bool) :
    callsOf u ((saysBye flags t b).map .called) = if t = u then saysBye flags t b else [] := by
  unfold saysBye callsOf
  cases flags.afterDisconnect <;> by_cases h : t = u <;> simp [h]

/-- What the hooks have been told, whatever the step. -/
theorem told_move {tick : HookTick} {rs : List FrontEvent} {l log : List HookedEvent}
    {smooth : Prop} (hb : BrokerInv f.world) (hrs : ∀ e ∈ rs, ∃ k r, e = .reply k r)
    (hw : (f1.world = f.world ∧ evs = []) ∨ ∃ cfg b, c.limits = some cfg ∧
      f.world.step cfg ext b = some (f1.world, evs) ∧
        (tick.act = .act b ∨ ((∃ req env wr, b = .connect req env wr) ∧ ∀ b', tick.act ≠ .act b')))
    (hm : HookMove flags tick f f1 rs evs f' l) (hsm : smooth → tick.Goes)
    (h : ∀ t, HeardOf flags smooth t (acceptedAs t log) (callsOf t log) (Tasks.life f.world.tasks t).cls)
    (t : TaskId) :
    HeardOf flags smooth t (acceptedAs t (log ++ l)) (callsOf t (log ++ l))
      (Tasks.life f'.world.tasks t).cls := by
  have hlife : ∀ u, Tasks.life f1.world.tasks u = Tasks.life f.world.tasks u ∨ ∃ req p ms r,
      LifeStep ext req p (Tasks.life f.world.tasks u) (Tasks.life f1.world.tasks u) ms r := by
    intro u
    rcases hw with ⟨hw, _⟩ | ⟨cfg, b, _, hs, _⟩
    · rw [hw]; exact .inl rfl
    · exact seen_life hb.own hs u
  have hstay : ∀ u, (Tasks.life f1.world.tasks u).on = (Tasks.life f.world.tasks u).on →
      HeardOf flags smooth u (acceptedAs u log) (callsOf u log) (Tasks.life f1.world.tasks u).cls := by
    intro u hon
    have hu := h u
    rcases hlife u with g | ⟨req, p, ms, r, g⟩
    · rw [g]; exact hu
    · rcases life_same g hon with g | ⟨g1, g2⟩
      · rw [g]; exact hu
      · rw [g1]; exact hu.over g2
  rw [acceptedAs_append, callsOf_append]
  cases hm with
  | plain he hon =>
    rw [callsOf_front, acceptedAs_none t hrs he, List.append_nil, List.append_nil]
    exact hstay t (hon t)
  | down u a hact he h1 h2 hon =>
    rw [callsOf_append, acceptedAs_append, callsOf_front, acceptedAs_none t hrs he,
      acceptedAs_called, callsOf_bye]
    simp only [List.nil_append, List.append_nil]
    have hself : ∀ v, v ≠ u →
        Tasks.life (if flags.afterDisconnect && (!tick.bye && !(Tasks.life f1.world.tasks u).over) then
          { f1 with world := f1.world.vanish u } else f1).world.tasks v = Tasks.life f1.world.tasks v := by
      intro v hv
      split
      · rcases vanish_life f1.world u v with g | ⟨g, _⟩
        · exact g
        · exact absurd g hv
      · rfl
    by_cases htu : t = u
    · subst htu
      rw [if_pos rfl]
      have ht := h t
      rw [on_cls h1] at ht
      obtain ⟨p, ha, hc⟩ := ht
      rw [ha, hc]
      rcases hlife t with g | ⟨req, q, ms, r, g⟩
      · rw [g, h1] at h2; cases h2
      · rcases life_leaves g h1 h2 with ⟨g1, g2⟩ | ⟨g1, g2⟩
        · rw [g2]
          split
          · rcases vanish_life f1.world t t with g | ⟨_, g⟩
            · rw [g, g1]; exact ⟨p, rfl, rfl⟩
            · rw [g]; exact .inr (.inr ⟨p, false, rfl, rfl⟩)
          · rw [g1]; exact ⟨p, rfl, rfl⟩
        · rw [g2]
          simp only [Bool.not_true, Bool.and_false, Bool.false_eq_true, if_false]
          rw [g1]
          exact .inr (.inr ⟨p, true, rfl, rfl⟩)
    · rw [if_neg (Ne.symm htu), List.append_nil, hself t htu]
      exact hstay t (hon t htu)
  | up u p pre out req s time he hpre hold hnew hoth =>
    have hacc : acceptedAs t ((rs ++ (pre ++ [Event.accepted u p]).map FrontEvent.event).map .front) =
        if u = t then [p] else [] := by
      rw [List.map_append (l₁ := pre), ← List.append_assoc, List.map_append, acceptedAs_append,
        acceptedAs_none (evs := pre) t hrs (by rcases hpre with rfl | ⟨old, rfl⟩ <;> simp)]
      by_cases h : u = t <;> simp [acceptedAs, h]
    have hout : ∀ b : Bool, acceptedAs t (if b then [] else [.front (.event (.sent u out))]) = [] ∧
        callsOf t (if b then [] else [.front (.event (.sent u out))]) = [] := by
      intro b; cases b <;> exact ⟨rfl, rfl⟩
    rw [acceptedAs_append, acceptedAs_append, callsOf_append, callsOf_append, hacc, callsOf_front,
      acceptedAs_called, callsOf_connect, (hout _).1, (hout _).2]
    simp only [List.nil_append, List.append_nil]
    by_cases htu : t = u
    · subst htu
      rw [if_pos rfl, if_pos rfl]
      have ht := h t
      have hcls : (Tasks.life f.world.tasks t).cls = .before := by
        rcases hold with g | g <;> rw [g] <;> rfl
      rw [hcls] at ht
      rw [ht.1, ht.2]
      simp only [List.nil_append]
      have hon : (Tasks.life f1.world.tasks t).cls = .on := by
        rw [Tasks.life_eq hnew]; rfl
      split
      · rename_i hf
        rcases vanish_life f1.world t t with g | ⟨_, g⟩
        · rw [g, hon]; exact ⟨p, rfl, rfl⟩
        · rw [g]
          refine .inr (.inl ⟨p, rfl, rfl, fun hh => ?_⟩)
          obtain ⟨g1, g2⟩ := hsm hh
          simp [HookTick.fails, g1, g2] at hf
      · rw [hon]; exact ⟨p, rfl, rfl⟩
    · rw [if_neg (Ne.symm htu), if_neg (Ne.symm htu), List.append_nil, List.append_nil]
      have hl : Tasks.life f1.world.tasks t = Tasks.life f.world.tasks t := by
        unfold Tasks.life; rw [hoth t htu]
      have hself : Tasks.life (if tick.fails flags then { f1 with world := f1.world.vanish u }
          else f1).world.tasks t = Tasks.life f.world.tasks t := by
        split
        · rcases vanish_life f1.world u t with g | ⟨g, _⟩
          · exact g.trans hl
          · exact absurd g htu
        · exact hl
      rw [hself]
      exact h t

/-- What the hooks have been told after a run. -/
theorem hook_told {ticks : List HookTick} {log : List HookedEvent}
    (h : HookReaches flags c x ext ticks f log) :
    BrokerInv f.world ∧ ∀ t, HeardOf flags (∀ k ∈ ticks, HookTick.Goes k) t (acceptedAs t log)
      (callsOf t log) (Tasks.life f.world.tasks t).cls := by
  refine hook_induction (P := fun ticks f log => BrokerInv f.world ∧ ∀ t,
    HeardOf flags (∀ k ∈ ticks, HookTick.Goes k) t (acceptedAs t log) (callsOf t log)
      (Tasks.life f.world.tasks t).cls) (f0 := {}) ⟨.init, fun t => (⟨rfl, rfl⟩ : _ ∧ _)⟩ ?_ h
  rintro ticks f log a f' e ⟨hb, ht⟩ hs
  refine ⟨hook_broker hb hs, fun t => ?_⟩
  cases hcases hb hs with
  | away p uuid random env wr hact hf hno =>
    rw [acceptedAs_append, callsOf_append, acceptedAs_append, callsOf_append, (asking_quiet ..).1,
      (asking_quiet ..).2]
    have : acceptedAs t (f.turnAway c p uuid a.before).2 = [] ∧
        callsOf t (f.turnAway c p uuid a.before).2 = [] := by
      unfold Front.turnAway
      simp only
      split <;> exact ⟨rfl, rfl⟩
    rw [this.1, this.2]
    simp only [List.append_nil]
    exact (ht t).weaken fun h k hk => h k (List.mem_append_left _ hk)
  | goes f1 f' rs evs l hok hs hrs hw hm =>
    rw [← List.append_assoc]
    refine told_move hb hrs hw hm (fun h => h a (by simp)) (fun t => ?_) t
    rw [acceptedAs_append, callsOf_append, (asking_quiet ..).1, (asking_quiet ..).2, List.append_nil,
      List.append_nil]
    exact (ht t).weaken fun h k hk => h k (List.mem_append_left _ hk)

end Akasa
