import Verif.Spec.Subscribe
import Verif.Proof.DeliverDue
/-! # The effect of SUBSCRIBE and UNSUBSCRIBE on the session and the routing table -/
namespace Akasa

variable {cfg : Config} {ext : Ext} {pr : Proto} {env : Env}

theorem Subs.after_append (σ : Subs) (a b : List SubChange) :
    σ.after (a ++ b) = (σ.after a).after b := List.foldl_append ..

theorem Subs.after_cons (σ : Subs) (a : SubChange) (b : List SubChange) :
    σ.after (a :: b) = (σ.step a).after b := rfl

theorem Subs.after_nil (σ : Subs) : σ.after [] = σ := rfl

/-- A change of other filters leaves a filter alone. -/
theorem Subs.after_other (σ : Subs) {cs : List SubChange} {F : Str}
    (h : ∀ c ∈ cs, c.filter ≠ F) : σ.after cs F = σ F := by
  induction cs generalizing σ with
  | nil => rfl
  | cons c cs ih =>
    rw [Subs.after_cons, ih _ fun c hc => h c (List.mem_cons_of_mem _ hc)]
    have := h c List.mem_cons_self
    cases c <;> simp only [SubChange.filter] at this <;> simp [Subs.step, Ne.symm this]

theorem subs_insert (m : FMap Str SubData) (F : Str) (d : SubData) :
    (m.insert F d).get = Subs.step m.get (.set F d) := by
  funext F'
  rw [FMap.get_insert]
  simp only [Subs.step, eq_comm]

theorem subs_erase (m : FMap Str SubData) (F : Str) :
    (m.erase F).get = Subs.step m.get (.drop F) := by
  funext F'
  rw [FMap.get_erase]
  simp only [Subs.step, eq_comm]

/-- What a piece of code does to subscriptions: session, table and nothing else shared. -/
structure Changes (g : Global) (s : Session) (cs : List SubChange) (g' : Global) (s' : Session) :
    Prop where
  subs : s'.subs = s.subs.after cs
  route : g.route.run (cs.map (·.op s.clientId)) = some g'.route
  retain : g'.retain = g.retain
  registered : g'.registered = g.registered
  client : s'.clientId = s.clientId
  wf : FMap.WF s.subscribes → FMap.WF s'.subscribes

theorem Changes.refl (g : Global) (s : Session) : Changes g s [] g s :=
  ⟨rfl, rfl, rfl, rfl, rfl, id⟩

theorem run_append (t : RouteTable) (a b : List RouteOp) :
    t.run (a ++ b) = (t.run a).bind fun t' => t'.run b := by
  induction a generalizing t with
  | nil => rfl
  | cons op a ih =>
    simp only [List.cons_append, RouteTable.run]
    cases t.step op with
    | none => rfl
    | some t' => exact ih t'

theorem Changes.trans {g g' g'' : Global} {s s' s'' : Session} {a b : List SubChange}
    (h : Changes g s a g' s') (h' : Changes g' s' b g'' s'') : Changes g s (a ++ b) g'' s'' := by
  refine ⟨?_, ?_, h'.retain.trans h.retain, h'.registered.trans h.registered,
    h'.client.trans h.client, fun hw => h'.wf (h.wf hw)⟩
  · rw [h'.subs, h.subs, Subs.after_append]
  · rw [List.map_append, run_append, h.route]
    have := h'.route
    rw [h.client] at this
    exact this

theorem Changes.of_core {g g' : Global} {s s' s'' : Session} {a : List SubChange}
    (h : Changes g s a g' s') (hc : s''.core = s'.core) : Changes g s a g' s'' := by
  refine ⟨?_, h.route, h.retain, h.registered, ?_, fun hw => by rw [core_subs hc]; exact h.wf hw⟩
  · rw [← h.subs]
    exact congrArg FMap.get (core_subs hc)
  · exact (ident_clientId (ident_of_core hc)).trans h.client

theorem codeFor_eq {id : Option Nat} (hid : ¬ RefusesId cfg id) (F : Str) (o : SubOpts) :
    subscribeCode cfg F o = codeFor cfg id F o := by
  unfold subscribeCode codeFor
  simp only [if_neg hid]
  have h1 : (!cfg.sharedAvailable && isShared F) = decide (cfg.sharedAvailable = false ∧ ¬ IsPlain F) := by
    rw [Bool.eq_iff_iff]
    rw [decide_eq_true_iff]
    simp [isShared, IsPlain, Option.isSome_iff_ne_none]
  have h2 : (!cfg.wildcardAvailable && hasWildcard F) =
      decide (cfg.wildcardAvailable = false ∧ ('+' ∈ F ∨ '#' ∈ F)) := by
    rw [Bool.eq_iff_iff]
    rw [decide_eq_true_iff]
    simp [hasWildcard]
    intro _
    constructor
    · rintro ⟨c, h1, rfl | rfl⟩
      · exact .inl h1
      · exact .inr h1
    · rintro (h | h)
      · exact ⟨_, h, .inl rfl⟩
      · exact ⟨_, h, .inr rfl⟩
  rw [h1, h2]
  simp only [decide_eq_true_eq]

theorem accepts_code {id : Option Nat} (hid : ¬ RefusesId cfg id) (F : Str) (o : SubOpts) :
    Accepts cfg F ↔ codeFor cfg id F o = .grantedQos (min o.maxQos cfg.maxAllowedQos) := by
  unfold codeFor Accepts
  rw [if_neg hid]
  by_cases h1 : cfg.sharedAvailable = false ∧ ¬ IsPlain F
  · rw [if_pos h1]
    simp [h1.1, h1.2]
  · rw [if_neg h1]
    by_cases h2 : cfg.wildcardAvailable = false ∧ ('+' ∈ F ∨ '#' ∈ F)
    · rw [if_pos h2]
      simp only [reduceCtorEq, iff_false, not_and]
      intro _
      simp only [h2.1]
      rcases h2.2 with h | h <;> simp [h]
    · rw [if_neg h2]
      simp only [iff_true]
      constructor
      · by_cases hs : cfg.sharedAvailable = true
        · exact .inl hs
        · right
          exact Classical.byContradiction fun hn => h1 ⟨by simpa using hs, hn⟩
      · by_cases hs : cfg.wildcardAvailable = true
        · exact .inl hs
        · right
          have : ¬ ('+' ∈ F ∨ '#' ∈ F) := fun h => h2 ⟨by simpa using hs, h⟩
          exact not_or.mp this

theorem changes_acceptV5 {i : Nat} {g g' : Global} {s s' : Session} {F : Str} {o : SubOpts}
    {id : Option Nat} {out : List OutPkt}
    (h : acceptV5 cfg env i g s F o id = some (s', g', out)) :
    Changes g s [.set F ⟨o.granted cfg, id⟩] g' s' := by
  have hc := core_acceptV5 h
  have hr := retain_acceptV5 h
  have hsub : s'.subscribes = s.subscribes.insert F ⟨o.granted cfg, id⟩ :=
    congrArg Session.subscribes hc
  refine ⟨?_, ?_, hr, ?_, (congrArg Session.clientId hc :), fun hw => by
    rw [hsub]; exact FMap.wf_insert hw _ _⟩
  · show s'.subscribes.get = _
    rw [hsub, subs_insert]
    rfl
  · unfold acceptV5 at h
    simp only at h
    simp only [List.map_cons, List.map_nil, SubChange.op, SubOpts.granted, RouteTable.run]
    split at h
    · cases h
    · rename_i rt hrt
      simp only [RouteTable.step]
      rw [hrt]
      simp only []
      split at h
      · split at h
        · cases h
        · split at h <;> cases h <;> rfl
      · cases h; rfl
  · unfold acceptV5 at h
    simp only at h
    split at h
    · cases h
    · split at h
      · split at h
        · cases h
        · split at h <;> cases h <;> rfl
      · cases h; rfl

theorem changes_acceptV3 {i : Nat} {g g' : Global} {s s' : Session} {F : Str} {q : QoS}
    {out : List OutPkt}
    (h : acceptV3 cfg env i g s F q = some (s', g', out)) :
    Changes g s [.set F { opts := { maxQos := min q cfg.maxAllowedQos } }] g' s' := by
  have hc := core_acceptV3 h
  have hr := retain_acceptV3 h
  have hsub : s'.subscribes = s.subscribes.insert F { opts := { maxQos := min q cfg.maxAllowedQos } } :=
    congrArg Session.subscribes hc
  refine ⟨?_, ?_, hr, ?_, (congrArg Session.clientId hc :), fun hw => by
    rw [hsub]; exact FMap.wf_insert hw _ _⟩
  · show s'.subscribes.get = _
    rw [hsub, subs_insert]
    rfl
  · unfold acceptV3 at h
    simp only at h
    simp only [List.map_cons, List.map_nil, SubChange.op, RouteTable.run]
    split at h
    · cases h
    · rename_i rt hrt
      simp only [RouteTable.step]
      rw [hrt]
      simp only []
      split at h
      · cases h
      · split at h <;> cases h <;> rfl
  · unfold acceptV3 at h
    simp only at h
    split at h
    · cases h
    · split at h
      · cases h
      · split at h <;> cases h <;> rfl

theorem toList_isDelivery {o : Option OutPkt} (h : ∀ x, o = some x → x.isDelivery = true) :
    ∀ x ∈ o.toList, x.isDelivery = true := by
  intro x hx
  exact h x (by simpa using hx)

theorem sendRetainedV5_isDelivery (now : Nat → Nat) (F : Str) (o : SubOpts) (q : QoS) (j : Nat)
    (s : Session) (cs : List RetainContent) :
    ∀ x ∈ (sendRetainedV5 now F o q j s cs).2.1, x.isDelivery = true := by
  induction cs generalizing j s with
  | nil => intro x hx; cases hx
  | cons c cs ih =>
    rw [sendRetainedV5]
    split
    · exact ih _ _
    · simp only
      split
      · exact ih _ _
      · rename_i out h
        intro x hx
        rcases List.mem_append.mp hx with hx | hx
        · have hx : out = some x := by simpa using hx
          rw [hx] at h
          exact recvV5_isDelivery h
        · exact ih _ _ x hx

theorem sendRetainedV3_isDelivery (now : Nat → Nat) (F : Str) (q : QoS) (j : Nat)
    (s : Session) (cs : List RetainContent) :
    ∀ x ∈ (sendRetainedV3 now F q j s cs).2.1, x.isDelivery = true := by
  induction cs generalizing j s with
  | nil => intro x hx; cases hx
  | cons c cs ih =>
    rw [sendRetainedV3]
    split
    · simp only
      split
      · exact ih _ _
      · rename_i out h
        intro x hx
        rcases List.mem_append.mp hx with hx | hx
        · have hx : out = some x := by simpa using hx
          rw [hx] at h
          exact recvV3_isDelivery h
        · exact ih _ _ x hx
    · exact ih _ _

theorem acceptV5_isDelivery {i : Nat} {g g' : Global} {s s' : Session} {F : Str} {o : SubOpts}
    {id : Option Nat} {out : List OutPkt}
    (h : acceptV5 cfg env i g s F o id = some (s', g', out)) : ∀ x ∈ out, x.isDelivery = true := by
  unfold acceptV5 at h
  simp only at h
  split at h
  · cases h
  · split at h
    · split at h
      · cases h
      · split at h
        · cases h
          intro x hx
          rcases List.mem_append.mp hx with hx | hx
          · exact sendRetainedV5_isDelivery _ _ _ _ _ _ _ x hx
          · exact pendings_isDelivery .v5 _ _ x hx
        · cases h
          exact sendRetainedV5_isDelivery _ _ _ _ _ _ _
    · cases h
      intro x hx; cases hx

theorem acceptV3_isDelivery {i : Nat} {g g' : Global} {s s' : Session} {F : Str} {q : QoS}
    {out : List OutPkt}
    (h : acceptV3 cfg env i g s F q = some (s', g', out)) : ∀ x ∈ out, x.isDelivery = true := by
  unfold acceptV3 at h
  simp only at h
  split at h
  · cases h
  · split at h
    · cases h
    · split at h
      · cases h
        intro x hx
        rcases List.mem_append.mp hx with hx | hx
        · exact sendRetainedV3_isDelivery _ _ _ _ _ _ x hx
        · exact pendings_isDelivery .v3 _ _ x hx
      · cases h
        exact sendRetainedV3_isDelivery _ _ _ _ _ _

/-- The loop of SUBSCRIBE (MQTT 5). -/
theorem subscribeLoopV5_effect {id : Option Nat} (hid : ¬ RefusesId cfg id)
    {ts : List (Str × SubOpts)} {i : Nat} {g : Global} {s : Session}
    {r : Session × Global × List OutPkt × List Reason}
    (h : subscribeLoopV5 cfg env id i g s ts = some r) :
    Changes g s (((ts.filter fun t => decide (Accepts cfg t.1)).map fun t =>
        (t.1, ({ opts := t.2.granted cfg, id } : SubData))).map fun t => .set t.1 t.2) r.2.1 r.1 ∧
      r.2.2.2 = (ts.map fun t => codeFor cfg id t.1 t.2) ∧
      ∀ x ∈ r.2.2.1, x.isDelivery = true := by
  induction ts generalizing i g s r with
  | nil =>
    simp only [subscribeLoopV5, Option.some.injEq] at h; subst h
    exact ⟨Changes.refl g s, rfl, fun x hx => (by cases hx)⟩
  | cons t ts ih =>
    obtain ⟨F, o⟩ := t
    rw [subscribeLoopV5] at h
    have hcode := codeFor_eq hid F o
    split at h
    · rename_i q hq
      have hacc : Accepts cfg F := by
        rw [accepts_code hid F o, ← hcode, hq]
        unfold subscribeCode at hq
        simp only at hq
        split at hq
        · cases hq
        · split at hq
          · cases hq
          · rw [hq]
      split at h
      · cases h
      · rename_i ha
        rw [Option.map_eq_some_iff] at h
        obtain ⟨r', h1, rfl⟩ := h
        obtain ⟨h2, h3, h4⟩ := ih h1
        refine ⟨?_, ?_, ?_⟩
        · rw [List.filter_cons_of_pos (by simpa using hacc)]
          exact (changes_acceptV5 ha).trans h2
        · simp only [List.map_cons, ← h3, ← hcode, hq]
        · intro x hx
          rcases List.mem_append.mp hx with hx | hx
          · exact acceptV5_isDelivery ha x hx
          · exact h4 x hx
    · rename_i hne
      have hacc : ¬ Accepts cfg F := by
        intro hacc
        rw [accepts_code hid F o, ← hcode] at hacc
        exact hne _ hacc
      rw [Option.map_eq_some_iff] at h
      obtain ⟨r', h1, rfl⟩ := h
      obtain ⟨h2, h3, h4⟩ := ih h1
      refine ⟨?_, ?_, h4⟩
      · rw [List.filter_cons_of_neg (by simpa using hacc)]
        exact h2
      · simp only [List.map_cons, ← h3, ← hcode]

/-- The loop of SUBSCRIBE (MQTT 3). -/
theorem subscribeLoopV3_effect {ts : List (Str × SubOpts)} {i : Nat} {g : Global} {s : Session}
    {r : Session × Global × List OutPkt × List Reason × Bool}
    (h : subscribeLoopV3 cfg env i g s (ts.map fun t => (t.1, t.2.maxQos)) = some r) :
    Changes g s ((acceptedSubs cfg .v3 ts none).map fun t => .set t.1 t.2) r.2.1 r.1 ∧
      (r.2.2.2.2 = false → r.2.2.2.1 = ts.map fun t => .grantedQos (min t.2.maxQos cfg.maxAllowedQos)) ∧
      (r.2.2.2.2 = false ↔ ∀ t ∈ ts, IsPlain t.1) ∧
      ∀ x ∈ r.2.2.1, x.isDelivery = true := by
  induction ts generalizing i g s r with
  | nil =>
    simp only [List.map_nil, subscribeLoopV3, Option.some.injEq] at h; subst h
    exact ⟨Changes.refl g s, fun _ => rfl, (by simp), fun x hx => (by cases hx)⟩
  | cons t ts ih =>
    obtain ⟨F, o⟩ := t
    rw [List.map_cons, subscribeLoopV3] at h
    split at h
    · rename_i hs
      have hs : ¬ IsPlain F := by
        simpa [isShared, IsPlain, Option.isSome_iff_ne_none] using hs
      cases h
      refine ⟨?_, fun h => (by cases h), ?_, fun x hx => (by cases hx)⟩
      · simp only [acceptedSubs]
        rw [List.takeWhile_cons_of_neg (by simpa using hs)]
        exact Changes.refl g s
      · simp [hs]
    · rename_i hs
      have hs : IsPlain F := by
        simpa [isShared, IsPlain, Option.isSome_iff_ne_none] using hs
      split at h
      · cases h
      · rename_i ha
        rw [Option.map_eq_some_iff] at h
        obtain ⟨r', h1, rfl⟩ := h
        obtain ⟨h2, h3, h4, h5⟩ := ih h1
        refine ⟨?_, ?_, ?_, ?_⟩
        · simp only [acceptedSubs] at h2 ⊢
          rw [List.takeWhile_cons_of_pos (by simpa using hs)]
          exact (changes_acceptV3 ha).trans h2
        · intro hf
          simp only [List.map_cons, ← h3 hf]
        · simp only [h4, List.mem_cons, forall_eq_or_imp, hs, true_and]
        · intro x hx
          rcases List.mem_append.mp hx with hx | hx
          · exact acceptV3_isDelivery ha x hx
          · exact h5 x hx

theorem changes_unsub {g : Global} {s : Session} {F : Str} {rt : RouteTable}
    (h : g.route.unsubscribe F s.clientId = some rt) :
    Changes g s [.drop F] { g with route := rt }
      { s with subscribes := s.subscribes.erase F } := by
  refine ⟨?_, ?_, rfl, rfl, rfl, fun hw => FMap.wf_erase hw _⟩
  · show (s.subscribes.erase F).get = _
    rw [subs_erase]
    rfl
  · simp only [List.map_cons, List.map_nil, SubChange.op, RouteTable.run, RouteTable.step, h]

/-- The codes of an UNSUBACK: success for the filters subscribed to and not named earlier in the
packet. -/
theorem unsubscribeLoopV5_effect {ts : List Str} {g : Global} {s : Session}
    {r : Session × Global × List Reason} (h : unsubscribeLoopV5 g s ts = some r) :
    Changes g s (ts.map .drop) r.2.1 r.1 ∧ r.2.2.length = ts.length ∧
      ∀ k F, ts[k]? = some F → r.2.2[k]? = some
        (if (s.subs F).isSome ∧ F ∉ ts.take k then .success else .noSubscriptionExisted) := by
  induction ts generalizing g s r with
  | nil =>
    simp only [unsubscribeLoopV5, Option.some.injEq] at h; subst h
    exact ⟨Changes.refl g s, rfl, fun k F hk => (by simp at hk)⟩
  | cons F ts ih =>
    rw [unsubscribeLoopV5] at h
    split at h
    · cases h
    · rename_i rt hrt
      simp only [Option.map_eq_some_iff] at h
      obtain ⟨r', h1, rfl⟩ := h
      obtain ⟨h2, h3, h4⟩ := ih h1
      refine ⟨(changes_unsub hrt).trans h2, by simp [h3], ?_⟩
      intro k F' hk
      cases k with
      | zero =>
        simp only [List.getElem?_cons_zero, Option.some.injEq] at hk
        subst hk
        simp only [List.getElem?_cons_zero, List.take_zero, List.not_mem_nil, not_false_eq_true,
          and_true, Session.subs, FMap.contains]
        by_cases hF : (s.subscribes.get F).isSome = true <;> simp [hF]
      | succ k =>
        simp only [List.getElem?_cons_succ] at hk ⊢
        rw [h4 k F' hk]
        simp only [Session.subs, subs_erase, Subs.step, List.take_succ_cons, List.mem_cons, not_or]
        by_cases hF : F' = F <;> simp [hF]

theorem unsubscribeLoopV3_effect {ts : List Str} {g : Global} {s : Session}
    {r : Session × Global} (h : unsubscribeLoopV3 g s ts = some r) :
    Changes g s (ts.map .drop) r.2 r.1 := by
  induction ts generalizing g s r with
  | nil =>
    simp only [unsubscribeLoopV3, Option.some.injEq] at h; subst h
    exact Changes.refl g s
  | cons F ts ih =>
    rw [unsubscribeLoopV3] at h
    split at h
    · cases h
    · rename_i rt hrt
      exact (changes_unsub hrt).trans (ih h)

end Akasa
