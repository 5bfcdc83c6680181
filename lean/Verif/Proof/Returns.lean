import Verif.Proof.Sticky
/-! # Histories in which nobody comes back to a shared subscription -/
namespace Akasa

variable {cfg : Config} {ext : Ext} {w w' : World} {evs e : List Event}

/-- Nobody touches a shared subscription after leaving it. -/
def NoReturn (ops : List RouteOp) : Prop :=
  ∀ pre F id q post, ops = pre ++ .unsub F id :: post → ¬ IsPlain F →
    subscribed pre F id = some q → ∀ op ∈ post, ¬ (op.filter = F ∧ op.client = id)

theorem NoReturn.noRejoin {ops : List RouteOp} (h : NoReturn ops) : NoRejoin ops := by
  rintro pre op post rfl hpl ⟨k, q, h1, h2, _⟩
  have hsplit : pre = pre.take k ++ .unsub op.filter op.client :: pre.drop (k + 1) := by
    rw [List.getElem?_eq_some_iff] at h2
    obtain ⟨_, h2⟩ := h2
    rw [← h2, List.getElem_cons_drop, List.take_append_drop]
  exact h (pre.take k) op.filter op.client q (pre.drop (k + 1) ++ op :: post)
    (by rw [← List.cons_append, ← List.append_assoc, ← hsplit]) hpl h1 op (by simp) ⟨rfl, rfl⟩

theorem subscribed_untouched {ops l : List RouteOp} {F : Str} {id : ClientId}
    (h : ∀ op ∈ l, ¬ (op.filter = F ∧ op.client = id)) :
    subscribed (ops ++ l) F id = subscribed ops F id := by
  induction l using snoc_induction with
  | nil => simp
  | snoc l op ih =>
    have h1 := h op (by simp)
    rw [← List.append_assoc, subscribed_snoc]
    rw [← ih fun op hop => h op (by simp [hop])]
    cases op with
    | sub F' id' q =>
      simp only [RouteOp.filter, RouteOp.client] at h1
      simp only [SubState.step]
      rw [if_neg fun hc => h1 ⟨hc.1.symm, hc.2.symm⟩]
    | unsub F' id' =>
      simp only [RouteOp.filter, RouteOp.client] at h1
      simp only [SubState.step]
      rw [if_neg fun hc => h1 ⟨hc.1.symm, hc.2.symm⟩]

theorem NoReturn.gone {pre post : List RouteOp} {F : Str} {id : ClientId} {q : QoS}
    (h : NoReturn (pre ++ .unsub F id :: post)) (hp : ¬ IsPlain F)
    (hq : subscribed pre F id = some q) : subscribed (pre ++ .unsub F id :: post) F id = none := by
  rw [List.append_cons, subscribed_untouched (h pre F id q post rfl hp hq), subscribed_snoc]
  simp [SubState.step]

/-- The sessions whose expiry is being dealt with have no shared subscriptions. -/
def ExpiredPlain (w : World) : Prop :=
  ∀ t x s F, w.tasks.get t = some x → x.stage = .expired s → F ∈ s.subscribes.keys → IsPlain F

theorem expiredPlain_step {a : Act} (h : ExpiredPlain w) (hs : w.step cfg ext a = some (w', e))
    (hx : ∀ t env id, a = .control t env → Event.removed t id ∈ e → ∀ F q, ¬ IsPlain F →
      ¬ w.lists F id q) : ExpiredPlain w' := by
  have one : ∀ {t : TaskId} {x : Task}, w'.tasks = w.tasks.insert t x →
      (∀ s F, x.stage = .expired s → F ∈ s.subscribes.keys → IsPlain F) → ExpiredPlain w' := by
    intro t x h1 h2 u y s F hy hst hF
    rw [h1, FMap.get_insert] at hy
    split at hy
    · cases hy; exact h2 s F hst hF
    · exact h u y s F hy hst hF
  have set : ∀ {t : TaskId} {x : Task} {s s' : Session}, w.tasks.get t = some x →
      x.stage.sending? = some s → s'.subscribes = s.subscribes →
      ∀ s'' F, x.stage.setSession s' = .expired s'' → F ∈ s''.subscribes.keys → IsPlain F := by
    intro t x s s' hx hst hsub s'' F he hF
    cases hxs : x.stage <;> rw [hxs] at hst he <;>
      simp only [Stage.sending?, Option.some.injEq, reduceCtorEq, Stage.setSession,
        Stage.expired.injEq] at hst he
    subst hst he
    rw [hsub] at hF
    exact h t x _ F hx hxs hF
  cases step_cases hs with
  | idle => exact h
  | packet t env after size p x s hx hst hd r hr =>
    refine one rfl fun s' F he => ?_
    simp only at he
    split at he <;> cases he
  | expire t env x s hx' hst hd time q hq hpr ht s' g m hw r route hrem =>
    refine one rfl fun s'' F he hF => ?_
    cases he
    apply Classical.byContradiction
    intro hp
    rw [hw.subs] at hF
    obtain ⟨d, hd'⟩ : ∃ d, s.subscribes.get F = some d := by
      cases hg : s.subscribes.get F with
      | none => exact absurd hF ((FMap.get_eq_none_iff _ _).1 hg)
      | some d => exact ⟨d, rfl⟩
    exact hx t env s.clientId rfl (by simp) F d.opts.maxQos hp
      ⟨t, s, d, by rw [owned_of hx', hst]; rfl, rfl, hd', rfl⟩
  | push t d x s hx' hst m rest hq hk => exact one rfl (set hx' hst rfl)
  | giveUp t d x s hx' hst hi => exact one rfl (set hx' hst rfl)
  | flush t d x hx' m q hk hi hl =>
    exact one (x := { x with sinks := x.sinks.erase d }) rfl fun s F he hF => h t x s F hx' he hF
  | handOn t env x s hx hst b y q hq hy =>
    intro u z s' F hz hst' hF
    simp only [FMap.get_insert] at hz
    split at hz
    · cases hz; cases hst'
    · split at hz
      · cases hz; cases hst'
      · exact h u z s' F hz hst' hF
  | handOff t env x s hx hst hd b y q hq hy msgs inbox hm =>
    intro u z s' F hz hst' hF
    simp only [FMap.get_insert] at hz
    split at hz
    · cases hz; cases hst'
    · split at hz
      · cases hz; cases hst'
      · exact h u z s' F hz hst' hF
  | ignored => exact h
  | fire i tm ht _ hw => rcases hw with ⟨rfl, _⟩ | ⟨q, _, _, rfl⟩ <;> exact h
  | kick => exact h
  | _ => exact one rfl fun s F he => by cases he

/-- What is known of the calls and the acts. -/
structure Returns (cfg : Config) (ext : Ext) (acts : List Act) (w : World) (ops : List RouteOp) :
    Prop where
  calls : SubsOps true w ops
  none : NoReturn ops
  left : ∀ pre F id q post, ops = pre ++ .unsub F id :: post → ¬ IsPlain F →
    subscribed pre F id = some q → ∃ A B w1 evs1, acts = A ++ B ∧ Reaches cfg ext A w1 evs1 ∧
      w1.lists F id q
  expired : ExpiredPlain w

theorem subscribed_before {ops l : List RouteOp} (hl : ∀ op ∈ l, ∃ F id, op = .unsub F id) {F : Str}
    {id : ClientId} {q : QoS} (h : subscribed (ops ++ l) F id = some q) :
    subscribed ops F id = some q := by
  induction l using snoc_induction with
  | nil => simpa using h
  | snoc l op ih =>
    obtain ⟨F', id', rfl⟩ := hl op (by simp)
    rw [← List.append_assoc, subscribed_snoc] at h
    simp only [SubState.step] at h
    split at h
    · cases h
    · exact ih (fun op hop => hl op (by simp [hop])) h

/-- A call is one of the earlier ones or one of the new ones. -/
theorem split_calls {ops l pre post : List RouteOp} {op : RouteOp}
    (h : ops ++ l = pre ++ op :: post) :
    (∃ b, ops = pre ++ op :: b ∧ post = b ++ l) ∨ ∃ b, pre = ops ++ b ∧ l = b ++ op :: post := by
  rcases List.append_eq_append_iff.1 h with ⟨b, h1, h2⟩ | ⟨b, h1, h2⟩
  · exact .inr ⟨b, h1, h2⟩
  · cases b with
    | nil => exact .inr ⟨[], by simpa using h1.symm, by simpa using h2.symm⟩
    | cons x b =>
      simp only [List.cons_append, List.cons.injEq] at h2
      obtain ⟨rfl, rfl⟩ := h2
      exact .inl ⟨b, h1, rfl⟩

theorem returns_step {acts : List Act} (h0 : Reaches cfg ext acts w evs) {a : Act}
    (hs : w.step cfg ext a = some (w', e)) (hd : NoneDiscarded e) {ops : List RouteOp}
    (h : Returns cfg ext acts w ops) (hn : NobodyReturns cfg ext (acts ++ [a])) :
    ∃ l, Returns cfg ext (acts ++ [a]) w' (ops ++ l) ∧ OneWay l := by
  obtain ⟨l, h3, h4, h5⟩ := h.calls.case (BrokerInv.run h0).own (step_cases hs)
    (fun _ t old h => hd t old h)
  -- an unsubscription among the new calls
  have hun : ∀ {b : List RouteOp} {F : Str} {id : ClientId} {post : List RouteOp},
      l = b ++ .unsub F id :: post → ∀ op ∈ l, ∃ F id, op = .unsub F id := by
    intro b F id post hb
    rcases h4 with h4 | h4
    · obtain ⟨F', id', q', h6⟩ := h4 (.unsub F id) (by rw [hb]; simp)
      cases h6
    · exact h4
  have hmem : ∀ {b : List RouteOp} {F : Str} {id : ClientId} {q : QoS} {post : List RouteOp},
      l = b ++ .unsub F id :: post → subscribed (ops ++ b) F id = some q → w.lists F id q := by
    intro b F id q post hb hq
    exact (lists_of_ops h.calls).1 (subscribed_before (fun op hop => hun hb op (by
      rw [hb]; exact List.mem_append_left _ hop)) hq)
  have hexp := expiredPlain_step h.expired hs (fun t env id ha hid => by
    subst ha
    exact hn.expires acts t env [] rfl w evs w' e h0 hs id hid)
  refine ⟨l, ⟨h3, ?_, ?_, hexp⟩, h4⟩
  · intro pre F id q post heq hp hq op hop hsame
    rcases split_calls heq with ⟨b, rfl, rfl⟩ | ⟨b, rfl, hb⟩
    · rcases List.mem_append.1 hop with hop | hop
      · exact h.none pre F id q b rfl hp hq op hop hsame
      -- left earlier, named now
      have hgone := h.none.gone hp hq
      have hnl : ∀ q', ¬ w.lists F id q' := fun q' hq' => by
        rw [(lists_of_ops h.calls).2 hq'] at hgone; cases hgone
      cases h5 with
      | quiet hl => rw [hl] at hop; cases hop
      | packet t env after size p x s ha hx hst hl =>
        rw [hl] at hop
        obtain ⟨c, hc, rfl⟩ := List.mem_map.1 hop
        have hcl : s.clientId = id := by
          rw [← hsame.2]; cases c <;> rfl
        subst hcl
        have hF : F ∈ p.filters := by
          rw [← hsame.1]
          split at hc
          · cases p with
            | subscribe pid ts sid =>
              simp only [InPkt.changes, List.mem_map] at hc
              obtain ⟨y, hy, rfl⟩ := hc
              simp only [SubChange.op, RouteOp.filter, InPkt.filters, List.mem_map]
              unfold acceptedSubs at hy
              split at hy
              · obtain ⟨z, hz, rfl⟩ := List.mem_map.1 hy
                exact ⟨z, (List.takeWhile_sublist _).subset hz, rfl⟩
              · split at hy
                · cases hy
                · obtain ⟨z, hz, rfl⟩ := List.mem_map.1 hy
                  exact ⟨z, (List.mem_filter.1 hz).1, rfl⟩
            | unsubscribe pid ts =>
              simp only [InPkt.changes, List.mem_map] at hc
              obtain ⟨y, hy, rfl⟩ := hc
              exact hy
            | _ => cases hc
          · cases hc
        obtain ⟨A, B, w1, evs1, k1, k2, k3⟩ := h.left pre F s.clientId q b rfl hp hq
        subst ha
        exact hn.later A B t env after size p [] (by rw [k1]) w1 evs1 w evs k2 (by rw [← k1]; exact h0)
          s F q (by rw [owned_of hx, hst]; rfl) hp k3 hnl hF
      | leave t x s hx hst hl =>
        rw [hl] at hop
        obtain ⟨f, hf, rfl⟩ := List.mem_map.1 hop
        obtain ⟨rfl, rfl⟩ := hsame
        simp only [RouteOp.filter, RouteOp.client] at hp hgone hnl
        rcases hst with hst | hst
        · cases hg : s.subscribes.get f with
          | none => exact absurd hf ((FMap.get_eq_none_iff _ _).1 hg)
          | some d => exact hnl _ ⟨t, s, d, by rw [owned_of hx]; exact hst, rfl, hg, rfl⟩
        · exact hp (h.expired t x s f hx hst hf)
    · -- left now, and named again in the same step
      have hls := hmem hb hq
      obtain ⟨F', id', rfl⟩ := hun hb op (by rw [hb]; simp [hop])
      simp only [RouteOp.filter, RouteOp.client] at hsame
      obtain ⟨rfl, rfl⟩ := hsame
      have hin : RouteOp.unsub F' id' ∈ l := by rw [hb]; simp
      have hcount : 2 ≤ (l.map RouteOp.filter).count F' := by
        rw [hb, List.map_append, List.map_cons, List.count_append]
        have : 0 < (post.map RouteOp.filter).count F' :=
          List.count_pos_iff.2 (List.mem_map.2 ⟨_, hop, rfl⟩)
        simp only [RouteOp.filter, List.count_cons_self] at this ⊢
        omega
      cases h5 with
      | quiet hl => rw [hl] at hcount; simp at hcount
      | packet t env after size p x s ha hx hst hl =>
        split at hl
        · cases p with
          | subscribe pid ts sid =>
            rw [hl] at hin
            simp only [InPkt.changes, List.map_map, List.mem_map] at hin
            obtain ⟨y, _, hy⟩ := hin
            cases hy
          | unsubscribe pid ts =>
            have hcl : s.clientId = id' := by
              rw [hl] at hin
              simp only [InPkt.changes, List.map_map, List.mem_map] at hin
              obtain ⟨y, _, hy⟩ := hin
              cases hy; rfl
            subst hcl
            subst ha
            have h6 := hn.twice acts t env after size pid ts [] rfl w evs w' e h0 hs s F' q
              (by rw [owned_of hx, hst]; rfl) hp hls (fun q' hq' => by
                have k1 := (lists_of_ops h3).2 hq'
                rw [hb, List.append_cons, ← List.append_assoc, ← List.append_assoc] at k1
                have k2 := subscribed_before (fun op hop => hun hb op (by rw [hb]; simp [hop])) k1
                rw [subscribed_snoc] at k2
                simp [SubState.step] at k2)
            have h7 : l.map RouteOp.filter = ts := by
              rw [hl]
              simp only [InPkt.changes, List.map_map]
              exact (List.map_congr_left fun _ _ => rfl).trans (List.map_id ts)
            rw [h7] at hcount
            omega
          | _ => rw [hl] at hin; cases hin
        · rw [hl] at hin; cases hin
      | leave t x s hx hst hl =>
        have hcl : s.clientId = id' ∧ F' ∈ s.subscribes.keys := by
          rw [hl] at hin
          obtain ⟨y, hy, hy'⟩ := List.mem_map.1 hin
          cases hy'; exact ⟨rfl, hy⟩
        obtain ⟨rfl, hF⟩ := hcl
        rcases hst with hst | hst
        · have h7 : l.map RouteOp.filter = s.subscribes.keys := by
            rw [hl, List.map_map]
            exact (List.map_congr_left fun _ _ => rfl).trans (List.map_id _)
          rw [h7] at hcount
          have h8 := List.nodup_iff_count.1 (h.calls.wf t x s hx hst) F'
          omega
        · exact hp (h.expired t x s F' hx hst hF)
  · intro pre F id q post heq hp hq
    rcases split_calls heq with ⟨b, rfl, rfl⟩ | ⟨b, rfl, hb⟩
    · obtain ⟨A, B, w1, evs1, k1, k2, k3⟩ := h.left pre F id q b rfl hp hq
      exact ⟨A, B ++ [a], w1, evs1, by rw [k1, List.append_assoc], k2, k3⟩
    · exact ⟨acts, [a], w, evs, rfl, h0, hmem hb hq⟩

theorem NobodyReturns.prefix {acts B : List Act} (h : NobodyReturns cfg ext (acts ++ B)) :
    NobodyReturns cfg ext acts :=
  ⟨fun A B' t env after size p C hAB => h.later A B' t env after size p (C ++ B) (by simp [hAB]),
    fun A t env after size pid ts C hAB => h.twice A t env after size pid ts (C ++ B) (by simp [hAB]),
    fun A t env C hAB => h.expires A t env (C ++ B) (by simp [hAB])⟩

/-- If nobody comes back to a shared subscription, the table is the result of calls that agree with
the lists and in which nobody does. -/
theorem returns_run {acts : List Act} (hrun : Reaches cfg ext acts w evs) (hd : NoneDiscarded evs)
    (hn : NobodyReturns cfg ext acts) : ∃ ops, Returns cfg ext acts w ops := by
  induction acts using snoc_induction generalizing w evs with
  | nil =>
    cases hrun
    exact ⟨[], ⟨rfl, fun _ _ _ => rfl, (fun t x s hx => by cases hx),
      fun _ F id q hq => (by cases hq), fun t x s hx => by cases hx⟩,
      (fun pre F id q post h => by simp at h), (fun pre F id q post h => by simp at h),
      fun t x s F hx => by cases hx⟩
  | snoc acts a ih =>
    obtain ⟨w0, evs0, e, h0, hs, rfl⟩ := run_snoc_world.1 hrun
    obtain ⟨ops, h1⟩ := ih h0 (fun t old h => hd t old (List.mem_append_left _ h)) hn.prefix
    obtain ⟨l, h2, _⟩ := returns_step h0 hs (fun t old h => hd t old (List.mem_append_right _ h)) h1 hn
    exact ⟨_, h2⟩

/-- In a step in which nobody joins and nobody leaves, the members keep their numbers. -/
theorem ids_step {ops l : List RouteOp} (h : NoReturn (ops ++ l)) (hw : OneWay l)
    {t t' : RouteTable} (ht : RouteTable.empty.run ops = some t)
    (ht' : RouteTable.empty.run (ops ++ l) = some t') {g f : Str} (hg : '/' ∉ g)
    (hj : ∀ id, (subscribed (ops ++ l) (shareFilter g f) id).isSome ↔
      (subscribed ops (shareFilter g f) id).isSome) : idsOf t' g f = idsOf t g f := by
  have hF := share_not_plain hg f
  have hmono : (∀ id, (subscribed ops (shareFilter g f) id).isSome →
      ∀ b c, l = b ++ c → (subscribed (ops ++ b) (shareFilter g f) id).isSome) ∧
      ∀ id b c, l = b ++ c → (subscribed (ops ++ b) (shareFilter g f) id).isSome →
        (subscribed ops (shareFilter g f) id).isSome := by
    rcases hw with hw | hw
    · have up : ∀ (o : List RouteOp) (c : List RouteOp) id, (∀ op ∈ c, ∃ F id q, op = .sub F id q) →
          (subscribed o (shareFilter g f) id).isSome →
          (subscribed (o ++ c) (shareFilter g f) id).isSome := by
        intro o c id hc ho
        induction c using snoc_induction with
        | nil => simpa using ho
        | snoc c op ih =>
          obtain ⟨F, i, q, rfl⟩ := hc op (by simp)
          rw [← List.append_assoc, subscribed_snoc]
          simp only [SubState.step]
          split
          · rfl
          · exact ih fun op hop => hc op (by simp [hop])
      refine ⟨fun id hid b c hb => up ops b id (fun op hop => hw op (by rw [hb]; simp [hop])) hid,
        fun id b c hb hid => (hj id).1 ?_⟩
      rw [hb, ← List.append_assoc]
      exact up _ c id (fun op hop => hw op (by rw [hb]; simp [hop])) hid
    · refine ⟨fun id hid b c hb => ?_, fun id b c hb hid => ?_⟩
      · obtain ⟨q, hq⟩ := Option.isSome_iff_exists.1 ((hj id).2 hid)
        rw [hb, ← List.append_assoc] at hq
        rw [subscribed_before (fun op hop => hw op (by rw [hb]; simp [hop])) hq]; rfl
      · obtain ⟨q, hq⟩ := Option.isSome_iff_exists.1 hid
        rw [subscribed_before (fun op hop => hw op (by rw [hb]; simp [hop])) hq]; rfl
  suffices ∀ b c t1, l = b ++ c → RouteTable.empty.run (ops ++ b) = some t1 →
      idsOf t1 g f = idsOf t g f from this l [] t' (by simp) ht'
  intro b
  induction b using snoc_induction with
  | nil =>
    intro c t1 _ h1
    rw [List.append_nil, ht] at h1
    cases h1; rfl
  | snoc b op ih =>
    intro c t2 hb h2
    have hb' : l = b ++ (op :: c) := by rw [hb]; simp
    have hnr : NoRejoin ((ops ++ b) ++ op :: c) := by
      rw [List.append_assoc, ← hb']; exact h.noRejoin
    have hpre : NoRejoin (ops ++ b) := fun pre o post ho =>
      hnr pre o (post ++ op :: c) (by rw [ho]; simp)
    obtain ⟨t1, h1, hs, hr⟩ := run_noRejoin _ hpre
    rw [← List.append_assoc, run_snoc, h1, Option.bind_some] at h2
    rw [← ih (op :: c) t1 hb' h1]
    by_cases hop : op.filter = shareFilter g f
    · cases op with
      | sub F id q =>
        simp only [RouteOp.filter] at hop
        subst hop
        have h3 := hmono.1 id (hmono.2 id (b ++ [.sub (shareFilter g f) id q]) c hb (by
          rw [← List.append_assoc, subscribed_snoc]; simp [SubState.step])) b _ hb'
        obtain ⟨q0, h3⟩ := Option.isSome_iff_exists.1 h3
        exact ids_again hs hg h3 h2
      | unsub F id =>
        simp only [RouteOp.filter] at hop
        subst hop
        refine ids_stranger (id := id) hs hr.clean hg ?_
          (hnr (ops ++ b) (.unsub (shareFilter g f) id) c rfl hF) h2
        cases hq : subscribed (ops ++ b) (shareFilter g f) id with
        | none => rfl
        | some q =>
          exfalso
          have h3 := hmono.1 id (hmono.2 id b _ hb' (by rw [hq]; rfl))
            (b ++ [.unsub (shareFilter g f) id]) c hb
          rw [← List.append_assoc, subscribed_snoc] at h3
          simp [SubState.step] at h3
    · exact ids_other hr.clean h2 hg hop

/-- The run goes on, the same clients have the shared subscription all the time. -/
theorem returns_more {acts B : List Act} (hrun : Reaches cfg ext acts w evs)
    (hrun' : Reaches cfg ext (acts ++ B) w' e) (hd : NoneDiscarded e)
    (hn : NobodyReturns cfg ext (acts ++ B)) {g f : Str} (hg : '/' ∉ g)
    (hj : ∀ C D w1 evs1, B = C ++ D → Reaches cfg ext (acts ++ C) w1 evs1 →
      ∀ id, (∃ q, w1.lists (shareFilter g f) id q) ↔ ∃ q, w.lists (shareFilter g f) id q)
    {ops : List RouteOp} (h : Returns cfg ext acts w ops) :
    ∃ l, Returns cfg ext (acts ++ B) w' (ops ++ l) ∧ idsOf w'.route g f = idsOf w.route g f := by
  induction B using snoc_induction generalizing w' e with
  | nil =>
    rw [List.append_nil] at hrun'
    unfold Reaches at hrun hrun'
    rw [hrun] at hrun'
    cases hrun'
    exact ⟨[], by simpa using h, rfl⟩
  | snoc B a ih =>
    rw [← List.append_assoc] at hrun' hn
    have hrun2 := hrun'
    obtain ⟨w0, evs0, e, h0, hs, rfl⟩ := run_snoc_world.1 hrun'
    obtain ⟨l, h1, h2⟩ := ih h0 (fun t old h => hd t old (List.mem_append_left _ h)) hn.prefix
      (fun C D w1 evs1 hC => hj C (D ++ [a]) w1 evs1 (by rw [hC]; simp))
    obtain ⟨l', h3, h4⟩ := returns_step h0 hs (fun t old h => hd t old (List.mem_append_right _ h))
      h1 hn
    refine ⟨l ++ l', by rw [← List.append_assoc, ← List.append_assoc]; exact h3, ?_⟩
    rw [← h2]
    refine ids_step h3.none h4 h1.calls.run h3.calls.run hg fun id => ?_
    have k1 := hj B [a] w0 evs0 rfl h0 id
    have k2 := hj (B ++ [a]) [] w' _ (by simp) (by rw [← List.append_assoc]; exact hrun2) id
    have conv : ∀ {w : World} {ops : List RouteOp}, SubsOps true w ops →
        ((subscribed ops (shareFilter g f) id).isSome ↔ ∃ q, w.lists (shareFilter g f) id q) := by
      intro w ops h
      rw [Option.isSome_iff_exists]
      exact ⟨fun ⟨q, hq⟩ => ⟨q, (lists_of_ops h).1 hq⟩, fun ⟨q, hq⟩ => ⟨q, (lists_of_ops h).2 hq⟩⟩
    rw [conv h3.calls, conv h1.calls, k1, k2]

/-! ## Nobody leaves, so nobody comes back -/

theorem lists_stay {A B : List Act} (hl : NobodyLeaves cfg ext (A ++ B))
    (h : Reaches cfg ext A w evs) (h' : Reaches cfg ext (A ++ B) w' e) {F : Str} {id : ClientId}
    {q : QoS} (hp : ¬ IsPlain F) (hq : w.lists F id q) : ∃ q', w'.lists F id q' := by
  induction B using snoc_induction generalizing w' e with
  | nil =>
    rw [List.append_nil] at h'
    unfold Reaches at h h'
    rw [h] at h'
    cases h'
    exact ⟨q, hq⟩
  | snoc B a ih =>
    rw [← List.append_assoc] at h' hl
    obtain ⟨w0, evs0, e, h0, hs, rfl⟩ := run_snoc_world.1 h'
    obtain ⟨q', hq'⟩ := ih (fun A' b B' hAB => hl A' b (B' ++ [a]) (by rw [hAB]; simp)) h0
    exact hl _ a [] rfl w0 evs0 w' e h0 hs F id q' hp hq'

/-- Nobody leaves, and who has the subscription in the end had it in the beginning. -/
theorem same_of_ends {A B : List Act} (hl : NobodyLeaves cfg ext (A ++ B))
    (h : Reaches cfg ext A w evs) (h' : Reaches cfg ext (A ++ B) w' e) {F : Str} (hp : ¬ IsPlain F)
    (hj : ∀ id q, w'.lists F id q → ∃ q', w.lists F id q') :
    ∀ C D w1 evs1, B = C ++ D → Reaches cfg ext (A ++ C) w1 evs1 →
      ∀ id, (∃ q, w1.lists F id q) ↔ ∃ q, w.lists F id q := by
  rintro C D w1 evs1 rfl h1 id
  rw [← List.append_assoc] at hl h'
  constructor
  · rintro ⟨q, hq⟩
    obtain ⟨q', hq'⟩ := lists_stay hl h1 h' hp hq
    exact hj id q' hq'
  · rintro ⟨q, hq⟩
    exact lists_stay (fun A' b B' hAB => hl A' b (B' ++ D) (by rw [hAB]; simp)) h h1 hp hq

/-- Who is removed on a control message has nothing any more. -/
theorem removed_lists {acts : List Act} (h0 : Reaches cfg ext acts w evs) {t : TaskId} {env : Env}
    (hs : w.step cfg ext (.control t env) = some (w', e)) {id : ClientId}
    (hr : Event.removed t id ∈ e) (F : Str) (q : QoS) : ¬ w'.lists F id q := by
  rintro ⟨u, s1, d, k1, k2, _⟩
  have ho := (BrokerInv.run h0).own
  cases step_cases hs with
  | expire t env x s hx hst hd time q hq hpr ht s' g m hw r route hrem =>
    rw [List.mem_append] at hr
    rcases hr with hr | hr
    · cases m <;> simp [willEvents] at hr
    simp only [List.mem_singleton, Event.removed.injEq, true_and] at hr
    subst hr
    obtain ⟨y, hy, hys⟩ := owned_stage k1
    simp only [FMap.get_insert] at hy
    split at hy
    · cases hy; cases hys
    · rename_i hne
      exact other_client ho hx (by rw [hst]; rfl) hy hys (Ne.symm hne) k2
  | lateWill t env x s hx hst hd time q hq hpr ht s' g m hw =>
    cases m <;> simp [willEvents] at hr
  | _ => simp at hr

theorem NobodyLeaves.returns {acts : List Act} (h : NobodyLeaves cfg ext acts) :
    NobodyReturns cfg ext acts := by
  refine ⟨?_, ?_, ?_⟩
  · intro A B t env after size p C hA w1 evs1 w2 evs2 h1 h2 s F q _ hp hq hno _
    obtain ⟨q', hq'⟩ := lists_stay (fun A' b B' hAB => h A' b (B' ++ .packet t env after size p :: C)
      (by rw [hA, hAB]; simp)) h1 h2 hp hq
    exact hno q' hq'
  · intro A t env after size pid ts C hA w evs w' e h1 hs s F q _ hp hq hno
    obtain ⟨q', hq'⟩ := h A _ C hA w evs w' e h1 hs F _ q hp hq
    exact absurd hq' (hno q')
  · intro A t env C hA w evs w' e h1 hs id hr F q hp hq
    obtain ⟨q', hq'⟩ := h A _ C hA w evs w' e h1 hs F id q hp hq
    exact removed_lists h1 hs hr F q' hq'

/-- After acts in which nobody left, somebody leaves. -/
theorem returns_leave {X : List Act} (h : NobodyLeaves cfg ext X) (t : TaskId) (env : Env)
    (after : Clock) (size : Nat) (pid : Pid) {ts : List Str} (hts : ts.Nodup) :
    NobodyReturns cfg ext (X ++ [.packet t env after size (.unsubscribe pid ts)]) := by
  have cut : ∀ {A C : List Act} {a b : Act}, X ++ [b] = A ++ a :: C →
      (A = X ∧ a = b ∧ C = []) ∨ ∃ C', X = A ++ a :: C' ∧ C = C' ++ [b] := by
    intro A C a b hA
    rcases List.append_eq_append_iff.1 hA with ⟨c, h1, h2⟩ | ⟨c, h1, h2⟩
    · cases c with
      | nil =>
        simp only [List.nil_append, List.cons.injEq] at h2
        exact .inl ⟨by simpa using h1, h2.1.symm, h2.2.symm⟩
      | cons y c => simp at h2
    · cases c with
      | nil =>
        simp only [List.nil_append, List.cons.injEq] at h2
        exact .inl ⟨by simpa using h1.symm, h2.1, h2.2⟩
      | cons y c =>
        simp only [List.cons_append, List.cons.injEq] at h2
        obtain ⟨rfl, rfl⟩ := h2
        exact .inr ⟨c, h1, rfl⟩
  refine ⟨?_, ?_, ?_⟩
  · intro A B t' env' after' size' p C hA w1 evs1 w2 evs2 h1 h2 s F q _ hp hq hno _
    obtain ⟨D, hD⟩ : ∃ D, X = A ++ B ++ D := by
      rcases cut hA with ⟨h3, _⟩ | ⟨C', h3, _⟩
      · exact ⟨[], by rw [h3, List.append_nil]⟩
      · exact ⟨_, h3⟩
    obtain ⟨q', hq'⟩ := lists_stay (fun A' b B' hAB => h A' b (B' ++ D) (by rw [hD, hAB]; simp))
      h1 h2 hp hq
    exact hno q' hq'
  · intro A t' env' after' size' pid' ts' C hA w evs w' e h1 hs s F q ho hp hq hno
    rcases cut hA with ⟨_, h3, _⟩ | ⟨C', h3, _⟩
    · cases h3
      exact List.nodup_iff_count.1 hts F
    · exact h.returns.twice A t' env' after' size' pid' ts' C' h3 w evs w' e h1 hs s F q ho hp hq hno
  · intro A t' env' C hA w evs w' e h1 hs id hr F q hp
    rcases cut hA with ⟨_, h3, _⟩ | ⟨C', h3, _⟩
    · cases h3
    · exact h.returns.expires A t' env' C' h3 w evs w' e h1 hs id hr F q hp

end Akasa
