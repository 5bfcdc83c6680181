import Verif.Proof.Resume
import Verif.Spec.Origin
import Verif.Proof.LifeUse
import Verif.Proof.WorldReach
import Verif.Props.EndToEnd
import Verif.Props.Alias
import Verif.Props.Size
import Verif.Props.Will
/-! # Where the messages that a client reads come from -/
namespace Akasa

variable {cfg : Config} {ext : Ext} {pr : Proto} {env : Env} {w w' : World} {evs e : List Event}

/-! ## Everything found in the retained store was stored -/

namespace RetainNode

theorem mem_concatOpt {l : List (Option (List RetainContent))} {cs : List RetainContent}
    (h : concatOpt l = some cs) {c : RetainContent} (hc : c ∈ cs) : ∃ r, some r ∈ l ∧ c ∈ r := by
  induction l generalizing cs with
  | nil => cases h; cases hc
  | cons a l ih =>
    cases a with
    | none => cases h
    | some a =>
      rw [concatOpt] at h
      split at h
      · cases h
      · rename_i r hr
        cases h
        rcases List.mem_append.1 hc with hc | hc
        · exact ⟨a, List.mem_cons_self, hc⟩
        · obtain ⟨r', h1, h2⟩ := ih hr hc
          exact ⟨r', List.mem_cons_of_mem _ h1, h2⟩

theorem mem_push {b : Bool} {o : Option RetainContent} {c : RetainContent} (h : c ∈ push b o) :
    o = some c := by
  cases o with
  | none => cases h
  | some d =>
    simp only [push] at h
    split at h
    · cases h
    · rw [List.mem_singleton] at h; rw [h]

theorem mem_getMatches (n : RetainNode) (hw : WFT n) (prev : Str) (cur : Option Str) (b : Bool)
    {cs : List RetainContent} (h : n.getMatches prev cur b = some cs) {c : RetainContent}
    (hc : c ∈ cs) : ∃ p, n.contentAt p = some c := by
  induction hk : cursorLen cur using Nat.strongRecOn generalizing n cur prev cs with
  | _ k ih =>
    have down : ∀ {l : Str} {m : RetainNode} {s : Str} {cs : List RetainContent},
        FMap.get n.nodes l = some m → cur = some s →
        m.getMatches (splitTopic s).1 (splitTopic s).2 b = some cs → c ∈ cs →
        ∃ p, n.contentAt p = some c := by
      intro l m s cs hm hs hg hc
      obtain ⟨p, hp⟩ := ih (cursorLen (splitTopic s).2)
        (by rw [← hk, hs]; exact splitTopic_cursorLen s) m (hw.child _ (FMap.mem_of_get hm)) _ _
        hg hc rfl
      exact ⟨l :: p, by rw [contentAt_cons, hm]; exact hp⟩
    unfold getMatches at h
    split at h
    · cases cur with
      | some s => cases h
      | none =>
        simp only [Option.some.injEq] at h
        subst h
        rw [getAll_eq, List.mem_filter, List.mem_map] at hc
        obtain ⟨⟨⟨p, d⟩, h1, rfl⟩, _⟩ := hc
        exact ⟨p, (mem_allP hw).1 h1⟩
    · split at h
      · cases cur with
        | some s =>
          obtain ⟨r, h1, h2⟩ := mem_concatOpt h hc
          rw [List.mem_map] at h1
          obtain ⟨x, hx, hr⟩ := h1
          exact down (FMap.get_of_mem hw.nodes hx) rfl hr h2
        | none =>
          simp only [Option.some.injEq] at h
          subst h
          rw [List.mem_flatMap] at hc
          obtain ⟨x, hx, hc⟩ := hc
          refine ⟨[x.1], ?_⟩
          rw [contentAt_cons, FMap.get_of_mem hw.nodes hx]
          exact mem_push hc
      · split at h
        · cases h; cases hc
        · rename_i m hm
          cases cur with
          | some s => exact down hm rfl h hc
          | none =>
            simp only [Option.some.injEq] at h
            subst h
            refine ⟨[prev], ?_⟩
            rw [contentAt_cons, hm]
            exact mem_push hc

end RetainNode

theorem retained_mem {h : List RetainContent} {topic : Str} {c : RetainContent}
    (hc : retained h topic = some c) : c ∈ h := by
  unfold retained at hc
  split at hc
  · rename_i d hd
    split at hc
    · cases hc
    · cases hc
      exact (List.mem_filter.1 (List.mem_of_getLast? hd)).1
  · cases hc

/-- Whatever is looked up, only what was stored is found. -/
theorem getMatches_stored {h : List RetainContent} {f : Str} {cs : List RetainContent}
    (hm : (RetainTable.empty.run h).getMatches f = some cs) : ∀ c ∈ cs, c ∈ h := by
  intro c hc
  have hi := RetInv.run h
  obtain ⟨p, hp⟩ := RetainNode.mem_getMatches _ hi.wft _ _ _ hm hc
  have := hi.path p c hp
  rw [this, hi.content] at hp
  exact retained_mem hp

/-! ## Copies -/

theorem sendOf_copies {g g' : Global} {s s' : Session} {m : SendPub} {n : Nat}
    (h : sendOf pr env g s m = some (s', g', n)) :
    ∃ cs, s' = s.pushCopies g.registered cs ∧ ∀ c ∈ cs, IsCopyFrom pr m c.2 := by
  cases pr
  · simp only [sendOf, Option.map_eq_some_iff] at h
    obtain ⟨⟨a, b⟩, h1, h2⟩ := h
    cases h2
    unfold sendPublishV3 at h1
    simp only at h1
    split at h1
    · cases h1
    · cases h1
      refine ⟨_, rfl, fun c hc => ?_⟩
      rw [List.mem_map] at hc
      obtain ⟨e, _, rfl⟩ := hc
      exact ⟨e.2, rfl⟩
  · simp only [sendOf, sendPublishV5] at h
    split at h
    · cases h
    · cases h
      refine ⟨_, rfl, fun c hc => ?_⟩
      rw [List.mem_map] at hc
      obtain ⟨e, _, rfl⟩ := hc
      exact ⟨_, _, rfl⟩

theorem send_copies {g g' : Global} {s s' : Session} {m : SendPub} {n : Nat}
    (h : sendOf pr env g s m = some (s', g', n)) (d : ClientId) :
    ∃ l, s'.queue d = s.queue d ++ l ∧ ∀ c ∈ l, IsCopyFrom pr m c := by
  obtain ⟨cs, rfl, hcs⟩ := sendOf_copies h
  by_cases hr : Reachable g.registered s d
  · refine ⟨_, (queued_pushCopies s g.registered cs d).1 hr, fun c hc => ?_⟩
    rw [List.mem_map] at hc
    obtain ⟨x, hx, rfl⟩ := hc
    exact hcs x (List.mem_filter.1 hx).1
  · refine ⟨[], ?_, fun c hc => by cases hc⟩
    rw [List.append_nil]
    unfold Session.queue
    rw [(queued_pushCopies s g.registered cs d).2 hr]

theorem newCopies_from {g g' : Global} {s s2 s' s3 : Session} {m : SendPub} {n : Nat}
    (h : sendOf pr env g s2 m = some (s', g', n)) (h2 : s2.bcast = s.bcast)
    (h3 : s3.bcast = s'.bcast) (d : ClientId) : ∀ c ∈ newCopies s s3 d, IsCopyFrom pr m c := by
  obtain ⟨l, h4, h5⟩ := send_copies h d
  intro c hc
  unfold newCopies at hc
  rw [queue_congr h3, ← queue_congr h2, h4, List.drop_left] at hc
  exact h5 c hc

theorem published_mem {t : TaskId} {m : SendPub} {evs : List Event} :
    (t, m) ∈ published evs ↔ Publishes t m evs := by
  unfold published Publishes
  rw [List.mem_flatMap]
  constructor
  · rintro ⟨ev, h1, h2⟩
    cases ev with
    | routed u ms =>
      simp only [List.mem_map, Prod.mk.injEq] at h2
      obtain ⟨m', h3, rfl, rfl⟩ := h2
      exact .inl ⟨ms, h1, h3⟩
    | will u m' =>
      simp only [List.mem_singleton, Prod.mk.injEq] at h2
      obtain ⟨rfl, rfl⟩ := h2
      exact .inr h1
    | _ => cases h2
  · rintro (⟨ms, h1, h2⟩ | h1)
    · exact ⟨_, h1, List.mem_map.2 ⟨m, h2, rfl⟩⟩
    · exact ⟨_, h1, List.mem_singleton.2 rfl⟩

/-- In one step. -/
theorem queued_step {a : Act} (hc : WCase cfg ext w a w' e) {t : TaskId} {d : ClientId}
    {c : NormalMsg} (hq : c ∈ queuedFor t d e) :
    ∃ x m, w.tasks.get t = some x ∧ (t, m) ∈ published e ∧ IsCopyFrom x.req.level.proto m c := by
  have will : ∀ {u : TaskId} {x : Task} {s s' : Session} {g : Global} {env : Env}
      {m' : Option SendPub}, w.tasks.get u = some x →
      WillSent ext x.req.level.proto env w.global s s' g m' →
      c ∈ queuedFor t d (willEvents u s s' m') →
      ∃ x m, w.tasks.get t = some x ∧ (t, m) ∈ published (willEvents u s s' m') ∧
        IsCopyFrom x.req.level.proto m c := by
    intro u x s s' g env m' hx hw hev
    rw [(queuedFor_will hw u t d).1] at hev
    split at hev
    · rename_i hut
      subst hut
      cases hsw : s.will with
      | none =>
        rw [(hw.kept hsw).1] at hev
        simp [newCopies] at hev
      | some wl =>
        have hm' := hw.msg
        rw [hsw] at hm'
        subst hm'
        obtain ⟨n, h5⟩ := hw.sent wl hsw
        refine ⟨x, wl.message ext, hx, ?_, newCopies_from h5 rfl rfl d c hev⟩
        rw [published_will]
        simp
    · cases hev
  have quiet : (∀ ev ∈ e, match ev with
      | .queued _ _ => False
      | .took _ _ _ _ => False
      | _ => True) → False := by
    intro h
    rw [(quiet_of t d h).1] at hq
    cases hq
  cases hc with
  | packet u env after size p x s hx hst hd r hr =>
    have : queuedFor t d [.received u p, .routed u r.routed, .queued u (newCopies s r.session),
        .sent u r.out] = if u = t then newCopies s r.session d else [] := by
      simp [queuedFor]
    rw [this] at hq
    split at hq
    · rename_i hut
      subst hut
      cases hro : r.routed with
      | nil =>
        obtain ⟨r0, h0, _, hcp, _, hr0, _⟩ := onPacket_handled hr
        rw [hro] at hr0
        have h1 := copies_handlePacket h0 hr0.symm
        have h2 : r.session.bcast = s.bcast :=
          (congrArg Prod.fst hcp).trans (congrArg Prod.fst h1)
        rw [newCopies, queue_congr h2] at hq
        simp at hq
      | cons m ms =>
        obtain ⟨s2, s', g', k, h1, h2, _, _, h3⟩ := packet_send hr (m := m) (by rw [hro]; simp)
        refine ⟨x, m, hx, ?_, newCopies_from h1 h2 h3 d c hq⟩
        simp [published, hro]
    · cases hq
  | expire u env x s hx hst hd time q hqq hpr ht s' g m hw r route hrem =>
    rw [queuedFor_append, List.mem_append] at hq
    rcases hq with hq | hq
    · obtain ⟨x, m, h1, h2, h3⟩ := will hx hw hq
      exact ⟨x, m, h1, by rw [published_append]; simp [h2], h3⟩
    · simp [queuedFor] at hq
  | lateWill u env x s hx hst hd time q hqq hpr ht s' g m hw => exact will hx hw hq
  | closeWill u env lost x s hx hst hd hp s' g m hw =>
    rw [← List.singleton_append, queuedFor_append, List.mem_append] at hq
    rcases hq with hq | hq
    · simp [queuedFor] at hq
    · obtain ⟨x, m, h1, h2, h3⟩ := will hx hw hq
      exact ⟨x, m, h1, by rw [← List.singleton_append, published_append]; simp [h2], h3⟩
  | accept t' env x old level hx hst hw s0 present h0 s out hs =>
    refine (quiet fun ev hev => ?_).elim
    rw [List.mem_append] at hev
    rcases hev with hev | hev
    · split at hev
      · cases hev
      · rw [List.mem_singleton] at hev; subst hev; trivial
    · simp only [List.mem_cons, List.not_mem_nil, or_false] at hev
      rcases hev with rfl | rfl <;> trivial
  | handOff t' env x s hx hst hd b y q hqq hy msgs inbox hm =>
    rw [queuedFor_append, List.mem_append] at hq
    rcases hq with hq | hq
    · unfold queuedFor at hq
      rw [List.mem_flatMap] at hq
      obtain ⟨ev, h1, h2⟩ := hq
      rw [List.mem_map] at h1
      obtain ⟨z, _, rfl⟩ := h1
      cases h2
    · simp [queuedFor] at hq
  | fire i tm ht w' hw => cases hq
  | _ => simp [queuedFor] at hq

theorem queued_run {acts : List Act} (h : Reaches cfg ext acts w evs) {t : TaskId} {d : ClientId}
    {c : NormalMsg} (hq : c ∈ queuedFor t d evs) :
    ∃ req m, w.request t = some req ∧ (t, m) ∈ published evs ∧
      IsCopyFrom req.level.proto m c := by
  have key := world_induction (P := fun w evs => BrokerInv w ∧ ∀ t d c, c ∈ queuedFor t d evs →
    ∃ req m, w.request t = some req ∧ (t, m) ∈ published evs ∧ IsCopyFrom req.level.proto m c)
    ⟨.init, fun t d c hc => by cases hc⟩ ?_ h
  · exact key.2 t d c hq
  · rintro w evs a w' e ⟨hi, h1⟩ hs
    have hc := step_cases hs
    have hkeep : ∀ u req, w.request u = some req → w'.request u = some req :=
      fun u => (seen_step hi.own hc u).keeps
    refine ⟨hi.step hs, fun t d c hq => ?_⟩
    rw [queuedFor_append, List.mem_append] at hq
    rw [published_append]
    rcases hq with hq | hq
    · obtain ⟨req, m, h2, h3, h4⟩ := h1 t d c hq
      exact ⟨req, m, hkeep _ _ h2, List.mem_append.2 (.inl h3), h4⟩
    · obtain ⟨x, m, h2, h3, h4⟩ := queued_step hc hq
      exact ⟨x.req, m, hkeep _ _ (by unfold World.request; rw [h2]; rfl),
        List.mem_append.2 (.inr h3), h4⟩

/-! ## Earlier moments -/

theorem run_prefix {acts1 acts2 : List Act} {w1 : World} {evs1 : List Event}
    (h1 : Reaches cfg ext acts1 w1 evs1) (h : Reaches cfg ext (acts1 ++ acts2) w evs) :
    (∃ rest, evs = evs1 ++ rest) ∧ ∀ u req, w1.request u = some req → w.request u = some req := by
  induction acts2 using snoc_induction generalizing w evs with
  | nil =>
    rw [List.append_nil] at h
    unfold Reaches at h h1
    rw [h1] at h
    cases h
    exact ⟨⟨[], by simp⟩, fun _ _ h => h⟩
  | snoc acts2 a ih =>
    rw [← List.append_assoc] at h
    obtain ⟨w2, e1, e2, h2, h3, rfl⟩ := run_snoc_world.mp h
    obtain ⟨⟨rest, rfl⟩, h4⟩ := ih h2
    exact ⟨⟨rest ++ e2, by simp⟩, fun u req hu =>
      (seen_step (BrokerInv.run h2).own (step_cases h3) u).keeps _ (h4 u req hu)⟩

theorem sinceNew_append {A B : List Obs} (hB : ∀ o ∈ B, ∀ b c, o ≠ .connected b c) :
    sinceNew (A ++ B) = sinceNew A ++ B := by
  unfold sinceNew
  rw [List.foldl_append, sinceNew_rest _ _ fun o ho => hB o ho false]

/-- Packets sent or messages passed on. -/
def Event.shows : Event → Bool
  | .sent _ _ => true
  | .routed _ _ => true
  | _ => false

/-- No connection is accepted. -/
def Event.isAccept : Event → Bool
  | .accepted _ _ => true
  | _ => false

theorem obs_not_accept {chain : Chain} {ev : Event} (h : ev.isAccept = false) :
    ∀ o ∈ ev.obs chain, ∀ b c, o ≠ .connected b c := by
  rintro o ho b c rfl
  unfold Event.obs at ho
  split at ho
  · cases ho
  · cases ev <;> simp_all [Event.isAccept]

theorem life_of_step {a : Act} (hc : WCase cfg ext w a w' e) {ev : Event} (hev : ev ∈ e)
    (hs : ev.shows = true) :
    ∃ x s e1 e2, w'.tasks.get ev.task = some x ∧ x.stage.owner? = some s ∧ x.stage.lvl? = none ∧
      e = e1 ++ e2 ∧ ev ∈ e2 ∧ ∀ ev' ∈ e2, ev'.isAccept = false := by
  cases hc with
  | fresh req env r id hadd hw s out hs' =>
    simp only [List.mem_cons, List.not_mem_nil, or_false] at hev
    rcases hev with rfl | rfl
    · cases hs
    · exact ⟨_, s, [.accepted w.nextTask false], [.sent w.nextTask out], FMap.get_insert_self .., rfl,
        rfl, rfl, by simp, by simp [Event.isAccept]⟩
  | accept t env x old level hx hst hw s0 present h0 s out hs' =>
    rw [List.mem_append] at hev
    rcases hev with hev | hev
    · split at hev
      · cases hev
      · rw [List.mem_singleton] at hev; subst hev; cases hs
    · simp only [List.mem_cons, List.not_mem_nil, or_false] at hev
      rcases hev with rfl | rfl
      · cases hs
      · exact ⟨_, s, (if present then [] else [.discarded t old]) ++ [.accepted t present],
          [.sent t out], FMap.get_insert_self .., rfl, rfl, by simp, by simp,
          by simp [Event.isAccept]⟩
  | packet t env after size p x s hx hst hd r hr =>
    have : ev.task = t := by
      simp only [List.mem_cons, List.not_mem_nil, or_false] at hev
      rcases hev with rfl | rfl | rfl | rfl <;> rfl
    refine ⟨_, r.session, [], _, by rw [this]; exact FMap.get_insert_self .., ?_, ?_, rfl, hev, ?_⟩
    · cases r.closed <;> rfl
    · cases r.closed <;> rfl
    · simp [Event.isAccept]
  | normalOn t env x s hx hst hd src m rest hi =>
    have : ev.task = t := by
      simp only [List.mem_cons, List.not_mem_nil, or_false] at hev
      rcases hev with rfl | rfl <;> rfl
    refine ⟨_, _, [], _, by rw [this]; exact FMap.get_insert_self .., rfl, rfl, rfl, hev, ?_⟩
    simp [Event.isAccept]
  | handOff t' env x s hx hst hd b y q hqq hy msgs inbox hm =>
    rw [List.mem_append, List.mem_map] at hev
    rcases hev with ⟨_, _, rfl⟩ | hev
    · cases hs
    · rw [List.mem_singleton] at hev; subst hev; cases hs
  | expire u env x s hx hst hd time q hqq hpr ht s' g m hw r route hrem =>
    rw [List.mem_append, List.mem_singleton] at hev
    rcases hev with hev | rfl
    · cases m with
      | none => cases hev
      | some m =>
        simp only [willEvents, List.mem_cons, List.not_mem_nil, or_false] at hev
        rcases hev with rfl | rfl <;> cases hs
    · cases hs
  | lateWill u env x s hx hst hd time q hqq hpr ht s' g m hw =>
    cases m with
    | none => cases hev
    | some m =>
      simp only [willEvents, List.mem_cons, List.not_mem_nil, or_false] at hev
      rcases hev with rfl | rfl <;> cases hs
  | closeWill u env lost x s hx hst hd hp s' g m hw =>
    rw [List.mem_cons] at hev
    rcases hev with rfl | hev
    · cases hs
    · cases m with
      | none => cases hev
      | some m =>
        simp only [willEvents, List.mem_cons, List.not_mem_nil, or_false] at hev
        rcases hev with rfl | rfl <;> cases hs
  | fire i tm ht w' hw => cases hev
  | _ =>
    first
    | (rw [List.mem_singleton] at hev; subst hev; cases hs)
    | cases hev

theorem life_tail {i : Str} {a b d : List Event} (hd : ∀ ev ∈ d, ev.isAccept = false) :
    lifeOf w i (a ++ (b ++ d)) =
      sinceNew (obsOf (w.under i) (a ++ b)) ++ obsOf (w.under i) d ∧
    ∀ o ∈ obsOf (w.under i) d, ∀ b c, o ≠ .connected b c := by
  have h : ∀ o ∈ obsOf (w.under i) d, ∀ b c, o ≠ .connected b c := by
    intro o ho
    obtain ⟨ev', h3, h4⟩ := List.mem_flatMap.1 ho
    exact obs_not_accept (hd ev' h3) o h4
  refine ⟨?_, h⟩
  unfold lifeOf
  rw [← List.append_assoc, obsOf_append]
  exact sinceNew_append h

/-- Whatever was sent or passed on was then part of the life of the session. -/
theorem life_at {acts : List Act} (h : Reaches cfg ext acts w evs) {ev : Event} {A B : List Event}
    (hev : evs = A ++ ev :: B) (hs : ev.shows = true) : ∃ acts1 a acts2 w1 w2 evs1 e x s A2,
      acts = acts1 ++ a :: acts2 ∧ Reaches cfg ext acts1 w1 evs1 ∧
      Reaches cfg ext (acts1 ++ [a]) w2 (evs1 ++ e) ∧ A = evs1 ++ A2 ∧
      w2.tasks.get ev.task = some x ∧ x.stage.owner? = some s ∧ x.stage.lvl? = none ∧
      ∃ L M, lifeOf w2 x.req.identifier (evs1 ++ e) = L ++ M ∧
        (∀ o ∈ M, ∀ b c, o ≠ .connected b c) ∧ ∀ o ∈ ev.obs (w2.under x.req.identifier), o ∈ M := by
  induction acts using snoc_induction generalizing w evs A B with
  | nil => cases h; simp at hev
  | snoc acts a ih =>
    obtain ⟨w1, e1, e2, h1, h2, rfl⟩ := run_snoc_world.mp h
    rcases List.append_eq_append_iff.1 hev with ⟨A2, rfl, hb⟩ | ⟨B2, rfl, hb⟩
    · have hmem : ev ∈ e2 := by rw [hb]; simp
      obtain ⟨x, s, d1, d2, hx, hs', hl, rfl, hd, hd'⟩ := life_of_step (step_cases h2) hmem hs
      have hlt := life_tail (w := w) (i := x.req.identifier) (a := e1) (b := d1) hd'
      refine ⟨acts, a, [], w1, w, e1, _, x, s, A2, rfl, h1, h, rfl, hx, hs', hl,
        _, _, hlt.1, hlt.2, fun o ho => List.mem_flatMap.2 ⟨ev, hd, ho⟩⟩
    · cases B2 with
      | nil =>
        simp only [List.nil_append] at hb
        have hmem : ev ∈ e2 := by rw [← hb]; simp
        obtain ⟨x, s, d1, d2, hx, hs', hl, rfl, hd, hd'⟩ := life_of_step (step_cases h2) hmem hs
        have hlt := life_tail (w := w) (i := x.req.identifier) (a := A ++ []) (b := d1) hd'
        refine ⟨acts, a, [], w1, w, _, _, x, s, [], rfl, h1, h, by simp, hx, hs', hl,
          _, _, hlt.1, hlt.2, fun o ho => List.mem_flatMap.2 ⟨ev, hd, ho⟩⟩
      | cons b B2 =>
        rw [List.cons_append] at hb
        cases hb
        obtain ⟨acts1, a', acts2, rest, h3⟩ := ih h1 rfl
        obtain ⟨w2, evs1, e, x, s, A2, rfl, h3⟩ := h3
        exact ⟨acts1, a', acts2 ++ [a], rest, w2, evs1, e, x, s, A2, by simp, h3⟩

theorem under_self {t : TaskId} {x : Task} (hx : w.tasks.get t = some x) :
    (w.under x.req.identifier).get t = some x.req.params := by
  rw [under_get hx, if_pos rfl]

/-- The life of a session at some moment. -/
theorem LifeIn.lifeOf {G : Good} (h : LifeIn G cfg ext w evs) {t : TaskId} {x : Task} {s : Session}
    (hx : w.tasks.get t = some x) (hs : x.stage.owner? = some s) :
    ∃ p, LivesIn G cfg ext x.req.level.proto (lifeOf w x.req.identifier evs) p := by
  obtain ⟨chain, p, h1, _, _, _, h4⟩ := h.life t x s hx hs
  exact ⟨p, by rw [lifeOf_chain h1.lives h4]; exact h1⟩

theorem mem_obs {recs : List Rec} {o : Obs} {c : ConnParams}
    (h : o ∈ Obs.connected false c :: recs.flatMap Rec.obs) :
    (∀ m, o = .routed m → ∃ r ∈ recs, m ∈ r.res.routed) ∧
    (∀ m, o = .sent m → ∃ r ∈ recs, m ∈ r.res.out) := by
  constructor
  all_goals
    rintro m rfl
    rw [List.mem_cons] at h
    rcases h with h | h
    · cases h
    rw [List.mem_flatMap] at h
    obtain ⟨r, hr, ho⟩ := h
    refine ⟨r, hr, ?_⟩
    unfold Rec.obs at ho
    rw [List.mem_append, List.mem_append, List.mem_append, List.mem_append] at ho
    rcases ho with ho | ho | ho | ho | ho
    · cases hev : r.ev <;> rw [hev] at ho <;> simp at ho
    all_goals
      rw [List.mem_map] at ho
      obtain ⟨_, h1, ho⟩ := ho
      cases ho
      try exact h1

/-- All messages passed on directly have a topic and no alias. -/
theorem routed_named {acts : List Act} (h : Reaches cfg ext acts w evs) {t : TaskId}
    {ms : List SendPub} (hev : Event.routed t ms ∈ evs) {m : SendPub} (hm : m ∈ ms) :
    WellNamed m.topic m.props := by
  obtain ⟨A, B, hsplit⟩ := List.append_of_mem hev
  obtain ⟨acts1, a, acts2, w0, w1, evs1, e, x, s, A2, rfl, _, h1, _, hx, hs, -, L, M,
    hlm, -, hl⟩ := life_at h hsplit rfl
  obtain ⟨p, i, id, c, sevs, recs, h2, h3, _⟩ := (LifeInv.run h1).lifeOf hx hs
  have := hl (.routed m) (by
    unfold Event.obs
    rw [under_self hx]
    exact List.mem_map.2 ⟨m, hm, rfl⟩)
  replace this : Obs.routed m ∈ L ++ M := List.mem_append.2 (.inr this)
  rw [← hlm, h3] at this
  obtain ⟨r, hr, hmr⟩ := (mem_obs this).1 m rfl
  exact C24_source h2 hr hmr

/-! ## Messages due to a client -/

/-- The properties that a session of MQTT 5 sees of a message. -/
def SendPub.seenProps (m : SendPub) : Proto → PubProps
  | .v3 => {}
  | .v5 => m.props

/-- The message was published. -/
def MadeFrom (pr : Proto) (w : World) (evs : List Event) (p : PubPacket) : Prop :=
  ∃ u m req, (u, m) ∈ published evs ∧ w.request u = some req ∧ p.topic = m.topic ∧
    p.payload = m.payload ∧ p.qos ≤ m.qos ∧ (p.retain = true → m.retain = true) ∧
    (pr = .v5 → p.props =
      { m.seenProps req.level.proto with subscriptionIds := p.props.subscriptionIds })

/-- What is in the retained store and in the inboxes was published. -/
def Good.origin (w : World) (evs : List Event) : Good where
  retain rt := ∀ f cs, rt.getMatches f = some cs → ∀ c ∈ cs, ∃ u m req, (u, m) ∈ published evs ∧
    w.request u = some req ∧ m.retain = true ∧ c = m.toRetain req.level.proto req.identifier
  msg c := ∃ u m req, (u, m) ∈ published evs ∧ w.request u = some req ∧
    IsCopyFrom req.level.proto m c
  env _ := True
  after _ := True
  empty f cs h c hc := by
    have := getMatches_stored (h := []) h c hc
    cases this

theorem origin_state {acts : List Act} (h : Reaches cfg ext acts w evs) :
    (Good.origin w evs).retain w.retain ∧
    ∀ d q, w.inbox.get d = some q → ∀ e ∈ q, (Good.origin w evs).msg e.2 := by
  refine ⟨fun f cs hg c hc => ?_, fun d q hq e he => ?_⟩
  · rw [(retain_run h).2] at hg
    have := getMatches_stored hg c hc
    unfold World.retainWrites at this
    rw [List.mem_filterMap] at this
    obtain ⟨⟨u, m⟩, h1, h2⟩ := this
    simp only at h2
    split at h2
    · rename_i hr
      obtain ⟨req, h3, rfl⟩ := Option.map_eq_some_iff.1 h2
      exact ⟨u, m, req, h1, h3, hr, rfl⟩
    · cases h2
  · have h1 : e.2 ∈ w.inboxFrom e.1 d := by
      unfold World.inboxFrom
      rw [hq, List.mem_map]
      exact ⟨e, List.mem_filter.2 ⟨he, by simp⟩, rfl⟩
    have h2 := (C56_order h e.1 d).subset
      (List.mem_append.2 (.inl (List.mem_append.2 (.inr h1))))
    obtain ⟨req, m, h3, h4, h5⟩ := queued_run h h2
    exact ⟨e.1, m, req, h4, h3, h5⟩

/-- More was published since. -/
theorem origin_mono {w1 : World} {evs1 rest : List Event}
    (hreq : ∀ u req, w1.request u = some req → w.request u = some req) :
    (∀ rt, (Good.origin w1 evs1).retain rt → (Good.origin w (evs1 ++ rest)).retain rt) ∧
    ∀ m, (Good.origin w1 evs1).msg m → (Good.origin w (evs1 ++ rest)).msg m := by
  refine ⟨fun rt h f cs hg c hc => ?_, fun c h => ?_⟩
  · obtain ⟨u, m, req, h1, h2, h3⟩ := h f cs hg c hc
    exact ⟨u, m, req, by rw [published_append]; exact List.mem_append.2 (.inl h1), hreq _ _ h2, h3⟩
  · obtain ⟨u, m, req, h1, h2, h3⟩ := h
    exact ⟨u, m, req, by rw [published_append]; exact List.mem_append.2 (.inl h1), hreq _ _ h2, h3⟩

/-- What a session meets was published before. -/
theorem origin_before {acts : List Act} {a : Act} (h : Reaches cfg ext acts w evs)
    (h' : Reaches cfg ext (acts ++ [a]) w' (evs ++ e)) :
    LifeIn (Good.origin w' evs) cfg ext w' (evs ++ e) := by
  refine LifeIn.run h' fun acts1 b acts2 w1 evs1 ha h1 => ?_
  have hreq := (run_prefix h1 (acts2 := b :: acts2) (by rw [← ha]; exact h')).2
  have : ∃ rest, evs = evs1 ++ rest := by
    rcases acts2.eq_nil_or_concat with rfl | ⟨l, z, rfl⟩
    · obtain ⟨rfl, _⟩ := List.append_inj' ha rfl
      unfold Reaches at h h1
      rw [h] at h1
      cases h1
      exact ⟨[], by simp⟩
    · rw [show acts1 ++ b :: l.concat z = (acts1 ++ b :: l) ++ [z] by simp] at ha
      obtain ⟨rfl, _⟩ := List.append_inj' ha rfl
      exact (run_prefix h1 h).1
  obtain ⟨rest, rfl⟩ := this
  obtain ⟨h2, h3⟩ := origin_state h1
  obtain ⟨h4, h5⟩ := origin_mono (evs1 := evs1) (rest := rest) hreq
  refine ⟨h4 _ h2, fun d q hq e he => h5 _ (h3 d q hq e he), ?_⟩
  cases b <;> first | trivial | exact ⟨trivial, trivial⟩

theorem origin_life {acts : List Act} (h : Reaches cfg ext acts w evs) :
    LifeIn (Good.origin w evs) cfg ext w evs := by
  refine LifeIn.run h fun acts1 a acts2 w1 evs1 ha h1 => ?_
  subst ha
  obtain ⟨⟨rest, rfl⟩, hreq⟩ := run_prefix h1 h
  obtain ⟨h2, h3⟩ := origin_state h1
  obtain ⟨h4, h5⟩ := origin_mono (evs1 := evs1) (rest := rest) hreq
  refine ⟨h4 _ h2, fun d q hq e he => h5 _ (h3 d q hq e he), ?_⟩
  cases a <;> first | trivial | exact ⟨trivial, trivial⟩

theorem rec_event {p : Peer} {sevs : List (Env × Global × SessEv)} {recs : List Rec}
    (h : p.run cfg ext pr sevs = some recs) :
    recs.map (fun r => (r.env, r.before, r.ev)) = sevs := by
  induction sevs generalizing p recs with
  | nil => cases h; rfl
  | cons e sevs ih =>
    obtain ⟨env, g, ev⟩ := e
    rw [Peer.run] at h
    split at h
    · cases h
    · rw [Option.map_eq_some_iff] at h
      obtain ⟨l, h1, rfl⟩ := h
      rw [List.map_cons, ih h1]

theorem due_from {s : Session} {m : NormalMsg} {p : PubPacket} (hd : dueOf cfg pr s m = some p)
    (hm : (Good.origin w evs).msg m) : MadeFrom pr w evs p := by
  obtain ⟨u, sm, req, h1, h2, h3⟩ := hm
  refine ⟨u, sm, req, h1, h2, ?_⟩
  have hsame : m.topic = sm.topic ∧ m.payload = sm.payload ∧ m.qos = sm.qos ∧
      m.retain = sm.retain ∧ m.props = sm.seenProps req.level.proto := by
    unfold IsCopyFrom at h3
    unfold SendPub.seenProps
    split at h3
    · obtain ⟨e, rfl⟩ := h3
      rename_i h; rw [h]; exact ⟨rfl, rfl, rfl, rfl, rfl⟩
    · obtain ⟨Fs, q, rfl⟩ := h3
      rename_i h; rw [h]; exact ⟨rfl, rfl, rfl, rfl, rfl⟩
  obtain ⟨e1, e2, e3, e4, e5⟩ := hsame
  cases pr with
  | v3 =>
    simp only [dueOf, dueV3] at hd
    split at hd
    · cases hd
    · split at hd
      · cases hd
      · cases hd
        exact ⟨e1, e2, by rw [← e3]; exact Std.min_le_left, by rw [← e4]; exact fun h => h,
          fun h => by cases h⟩
  | v5 =>
    simp only [dueOf, dueV5] at hd
    split at hd
    · cases hd
    · split at hd
      · cases hd
      · cases hd
        refine ⟨e1, e2, by rw [← e3]; exact Std.min_le_left, fun h => ?_, fun _ => by rw [← e5]⟩
        simp only [Bool.and_eq_true] at h
        rw [← e4]; exact h.1.1

theorem stored_from {g : Global} (hg : (Good.origin w evs).retain g.retain) {F : Str}
    {c : RetainContent} (hc : c ∈ g.stored F) : ∃ u m req, (u, m) ∈ published evs ∧
      w.request u = some req ∧ m.retain = true ∧ c.topic = m.topic ∧ c.payload = m.payload ∧
      c.qos = m.qos ∧ c.props.getD {} = m.seenProps req.level.proto := by
  unfold Global.stored at hc
  cases hm : g.retain.getMatches F with
  | none => rw [hm] at hc; cases hc
  | some cs =>
    rw [hm] at hc
    obtain ⟨u, m, req, h1, h2, h3, rfl⟩ := hg F cs hm c hc
    refine ⟨u, m, req, h1, h2, h3, rfl, rfl, rfl, ?_⟩
    unfold SendPub.toRetain SendPub.seenProps
    cases req.level.proto <;> rfl

/-- All messages due to a client were published. -/
theorem messages_from {r : Rec} (hr : (Good.origin w evs).ev (r.env, r.before, r.ev))
    {p : PubPacket} (hp : p ∈ r.messages cfg pr) : MadeFrom pr w evs p := by
  obtain ⟨ev, env, before, pre, post, res⟩ := r
  unfold Rec.messages Rec.inputs at hp
  rw [List.mem_filterMap] at hp
  obtain ⟨inp, hin, hmsg⟩ := hp
  cases inp with
  | message p' =>
    cases hmsg
    obtain ⟨hg, hr⟩ := hr
    simp only at hg
    cases ev with
    | packet after n pkt =>
      simp only at hin
      split at hin
      · cases pkt with
        | subscribe sid topics sub =>
          cases pr with
          | v3 =>
            simp only [InPkt.inputs] at hin
            rw [List.mem_map] at hin
            obtain ⟨p', hin, hpp⟩ := hin
            cases hpp
            clear hr
            induction topics with
            | nil => cases hin
            | cons t ts ih =>
              obtain ⟨F, o⟩ := t
              rw [retainedDueV3] at hin
              split at hin
              · rw [List.mem_append] at hin
                rcases hin with hin | hin
                · rw [List.mem_filterMap] at hin
                  obtain ⟨rc, h1, h2⟩ := hin
                  unfold retainedCopyV3 at h2
                  split at h2
                  · cases h2
                  · cases h2
                    obtain ⟨u, m, req, k1, k2, k3, k4, k5, k6, _⟩ := stored_from hg h1
                    exact ⟨u, m, req, k1, k2, k4, k5, by rw [← k6]; exact Fin.le_refl _, fun _ => k3,
                      fun h => by cases h⟩
                · exact ih hin
              · cases hin
          | v5 =>
            simp only [InPkt.inputs] at hin
            split at hin
            · cases hin
            · rw [List.mem_map] at hin
              obtain ⟨p', hin, hpp⟩ := hin
              cases hpp
              suffices ∀ ts earlier, p ∈ retainedDueV5 cfg before pre.session sub earlier ts →
                  MadeFrom .v5 w evs p from this _ _ hin
              intro ts
              induction ts with
              | nil => intro earlier h; cases h
              | cons t ts ih =>
                obtain ⟨F, o⟩ := t
                intro earlier h
                rw [retainedDueV5, List.mem_append] at h
                rcases h with h | h
                · unfold retainedV5 at h
                  split at h
                  · rw [List.mem_filterMap] at h
                    obtain ⟨rc, h1, h2⟩ := h
                    unfold retainedCopyV5 at h2
                    split at h2
                    · cases h2
                    · split at h2
                      · cases h2
                      · cases h2
                        obtain ⟨u, m, req, k1, k2, k3, k4, k5, k6, k7⟩ := stored_from hg h1
                        exact ⟨u, m, req, k1, k2, k4, k5, by rw [← k6]; exact Std.min_le_left,
                          fun _ => k3, fun _ => by rw [← k7]⟩
                  · cases h
                · exact ih _ h
        | _ => simp [InPkt.inputs] at hin
      · cases hin
    | normal m =>
      simp only at hin
      split at hin
      · rw [Option.mem_toList, Option.map_eq_some_iff] at hin
        obtain ⟨p', hd, hpp⟩ := hin
        cases hpp
        exact due_from hd hr.2
      · cases hin
    | offline m =>
      simp only at hin
      split at hin
      · cases hin
      · rw [Option.mem_toList, Option.map_eq_some_iff] at hin
        obtain ⟨p', hd, hpp⟩ := hin
        cases hpp
        rw [Option.filter_eq_some_iff] at hd
        exact due_from hd.1 hr.2
    | resume c' =>
      cases pr <;> simp at hin
    | _ => cases hin
  | _ => cases hmsg

theorem qosPid_of (p : PubPacket) (pid : Pid) : (p.qosPid pid).qos = p.qos := by
  unfold PubPacket.qosPid
  split
  · rename_i h; exact h.symm
  · split
    · rename_i h; exact h.symm
    · rename_i h0 h1
      show (2 : Fin 3) = p.qos
      have := p.qos.isLt
      have h2 : p.qos.val ≠ 0 := fun h => h0 (Fin.ext h)
      have h3 : p.qos.val ≠ 1 := fun h => h1 (Fin.ext h)
      apply Fin.ext
      show 2 = p.qos.val
      omega

/-- A packet with such a message. -/
theorem carried_from {p : PubPacket} (hp : MadeFrom pr w evs p) {pid : Pid} {dup : Bool}
    {expiry : Option Nat} {o : Publish} (hc : Carries pr (.publish pid p dup expiry) (.publish o))
    (he : pr = .v5 → (expiry = none ↔ p.props.messageExpiry = none) ∧
      ∀ v v', p.props.messageExpiry = some v → expiry = some v' → v' ≤ v) :
    ∃ u m req, (u, m) ∈ published evs ∧ w.request u = some req ∧ o.payload = m.payload ∧
      o.qosPid.qos ≤ m.qos ∧ (o.retain = true → m.retain = true) ∧
      SamePropsAs req.level.proto pr o.props m.props ∧
      (o.topic = m.topic ∨ pr = .v5 ∧ o.topic = [] ∧ o.props.topicAlias ≠ none) := by
  obtain ⟨u, m, req, h1, h2, h3, h4, h5, h6, h7⟩ := hp
  obtain ⟨-, hq, hret, hpay, hrest⟩ := hc
  refine ⟨u, m, req, h1, h2, hpay.trans h4, by rw [hq, qosPid_of]; exact h5,
    fun h => h6 (by rw [← hret]; exact h), ?_⟩
  cases pr with
  | v3 =>
    refine ⟨?_, .inl (hrest.1.trans h3)⟩
    unfold SamePropsAs
    rw [if_neg (by simp), hrest.2]
    exact ⟨rfl, rfl⟩
  | v5 =>
    refine ⟨?_, ?_⟩
    · have h8 := h7 rfl
      obtain ⟨he1, he2⟩ := he rfl
      have hpr : o.props.chosen = (m.seenProps req.level.proto).chosen := by
        rw [hrest.2, h8]; rfl
      have hpe : p.props.messageExpiry = (m.seenProps req.level.proto).messageExpiry := by rw [h8]
      have hoe : o.props.messageExpiry = expiry := by rw [hrest.2]
      unfold SamePropsAs
      rw [hpr, hoe]
      rw [hpe] at he1 he2
      unfold SendPub.seenProps at *
      split
      · rename_i h
        rw [h.1] at he1 he2 ⊢
        exact ⟨rfl, he1, he2⟩
      · rename_i h
        have h9 : req.level.proto = .v3 := by
          cases hq : req.level.proto with
          | v3 => rfl
          | v5 => exact absurd ⟨hq, rfl⟩ h
        rw [h9] at he1 ⊢
        exact ⟨rfl, he1.2 rfl⟩
    · rcases hrest.1 with h | h
      · exact .inl (h.trans h3)
      · exact .inr ⟨rfl, h⟩

/-- All packets sent in a life. -/
theorem sent_from {i : Str} {id : ClientId} {c : ConnParams} {sevs : List (Env × Global × SessEv)}
    {recs : List Rec}
    (h : ({ session := Session.start cfg pr i id c } : Peer).run cfg ext pr sevs = some recs)
    (hG : ∀ e ∈ sevs, (Good.origin w evs).ev e) {r : Rec} (hr : r ∈ recs) {o : Publish}
    (ho : .publish o ∈ r.res.out) :
    ∃ u m req, (u, m) ∈ published evs ∧ w.request u = some req ∧ o.payload = m.payload ∧
      o.qosPid.qos ≤ m.qos ∧ (o.retain = true → m.retain = true) ∧
      SamePropsAs req.level.proto pr o.props m.props ∧
      (o.topic = m.topic ∨ pr = .v5 ∧ o.topic = [] ∧ o.props.topicAlias ≠ none) := by
  obtain ⟨A, B, hsplit⟩ := List.append_of_mem hr
  obtain ⟨r', h1, p, h2, pid, dup, expiry, h3, _, h4⟩ := C57_origin h hsplit ho
  have hr' : r' ∈ recs := by
    rw [hsplit]
    simp only [List.mem_append, List.mem_cons, List.not_mem_nil, or_false] at h1 ⊢
    grind
  have hev : (Good.origin w evs).ev (r'.env, r'.before, r'.ev) := by
    refine hG _ ?_
    rw [← rec_event h]
    exact List.mem_map.2 ⟨r', hr', rfl⟩
  exact carried_from (messages_from hev h2) h3 h4

/-! ## What the client reads -/

theorem read_none (l : List Obs) : l.foldl Obs.read none = none := by
  induction l with
  | nil => rfl
  | cons o l ih => exact ih

theorem read_many {d d' : FMap Nat Str} {out os os' : List OutPkt}
    (h : decodeMany d os = some (d', os')) :
    (os.map Obs.sent).foldl Obs.read (some (d, out)) = some (d', out ++ os') := by
  induction os generalizing d os' out with
  | nil => cases h; simp
  | cons o os ih =>
    simp only [decodeMany, Option.bind_eq_bind, Option.bind_eq_some_iff] at h
    obtain ⟨⟨d1, o1⟩, h1, ⟨d2, os2⟩, h2, h3⟩ := h
    cases h3
    rw [List.map_cons, List.foldl_cons]
    simp only [Obs.read, h1, Option.map_some]
    rw [ih h2]
    simp

theorem read_other {l : List Obs} (h : ∀ o ∈ l, ∀ p, o ≠ .sent p)
    (h' : ∀ o ∈ l, ∀ b c, o ≠ .connected b c) (st : Option (FMap Nat Str × List OutPkt)) :
    l.foldl Obs.read st = st := by
  induction l generalizing st with
  | nil => rfl
  | cons o l ih =>
    rw [List.foldl_cons, ih (fun o ho => h o (List.mem_cons_of_mem _ ho))
      (fun o ho => h' o (List.mem_cons_of_mem _ ho))]
    have h1 := h o List.mem_cons_self
    have h2 := h' o List.mem_cons_self
    cases o with
    | connected b c => exact absurd rfl (h2 b c)
    | sent p => exact absurd rfl (h1 p)
    | _ => cases st <;> rfl

theorem read_rec {r : Rec} {d d' : FMap Nat Str} {out os' : List OutPkt}
    (h : decodeMany (match r.ev with | .resume _ => [] | _ => d) r.res.out = some (d', os')) :
    r.obs.foldl Obs.read (some (d, out)) = some (d', out ++ os') := by
  unfold Rec.obs
  rw [List.foldl_append, List.foldl_append, List.foldl_append, List.foldl_append]
  rw [read_other (l := r.received.toList.map _) (by simp) (by simp),
    read_other (l := r.taken.toList.map _) (by simp) (by simp),
    read_other (l := r.res.routed.map _) (by simp) (by simp)]
  refine Eq.trans ?_ (read_many h)
  cases r.ev <;> rfl

theorem read_recs {recs : List Rec} {d : FMap Nat Str} {outs : List (List OutPkt)}
    (h : clientView d recs = some outs) (out : List OutPkt) :
    ∃ d', (recs.flatMap Rec.obs).foldl Obs.read (some (d, out)) = some (d', out ++ outs.flatten) := by
  induction recs generalizing d outs out with
  | nil => cases h; exact ⟨d, by simp⟩
  | cons r recs ih =>
    simp only [clientView, Option.bind_eq_bind, Option.bind_eq_some_iff] at h
    obtain ⟨⟨d1, o1⟩, h1, os2, h2, h3⟩ := h
    cases h3
    obtain ⟨d', h4⟩ := ih h2 (out ++ o1)
    refine ⟨d', ?_⟩
    rw [List.flatMap_cons, List.foldl_append, read_rec h1, h4]
    simp

/-- The life of a session as its client reads it. -/
theorem clientReads_of {recs : List Rec} {c : ConnParams} {outs : List (List OutPkt)}
    (h : clientView [] recs = some outs) :
    clientReads (.connected false c :: recs.flatMap Rec.obs) = some outs.flatten := by
  obtain ⟨d', h1⟩ := read_recs h []
  unfold clientReads
  rw [List.foldl_cons]
  simp only [Obs.read]
  rw [h1]
  simp

theorem decodeMany_named {d d' : FMap Nat Str} {os os' : List OutPkt}
    (h : decodeMany d os = some (d', os')) {p : Publish} (hp : .publish p ∈ os') :
    p.props.topicAlias = none := by
  induction os generalizing d os' with
  | nil => cases h; cases hp
  | cons o os ih =>
    simp only [decodeMany, Option.bind_eq_bind, Option.bind_eq_some_iff] at h
    obtain ⟨⟨d1, o1⟩, h1, ⟨d2, os2⟩, h2, h3⟩ := h
    cases h3
    rcases List.mem_cons.1 hp with rfl | hp
    · cases o with
      | publish q =>
        simp only [decodeOne] at h1
        split at h1
        · split at h1
          · cases h1
          · cases h1; rfl
        · split at h1
          · rw [Option.map_eq_some_iff] at h1
            obtain ⟨t, _, h1⟩ := h1
            cases h1; rfl
          · cases h1; rfl
      | _ => cases h1
    · exact ih h2 hp

theorem clientView_named {recs : List Rec} {d : FMap Nat Str} {outs : List (List OutPkt)}
    (h : clientView d recs = some outs) {os : List OutPkt} (ho : os ∈ outs) {p : Publish}
    (hp : .publish p ∈ os) : p.props.topicAlias = none := by
  induction recs generalizing d outs with
  | nil => cases h; cases ho
  | cons r recs ih =>
    simp only [clientView, Option.bind_eq_bind, Option.bind_eq_some_iff] at h
    obtain ⟨⟨d1, o1⟩, h1, os2, h2, h3⟩ := h
    cases h3
    rcases List.mem_cons.1 ho with rfl | ho
    · exact decodeMany_named h1 hp
    · exact ih h2 ho

/-- All published messages have a topic and no alias, if all wills have a topic. -/
theorem published_named {acts : List Act} (h : Reaches cfg ext acts w evs) (hw : w.willsNamed)
    {t : TaskId} {m : SendPub} (hm : (t, m) ∈ published evs) : WellNamed m.topic m.props := by
  obtain ⟨ev, h1, h2⟩ := List.mem_flatMap.1 hm
  cases ev with
  | routed t' ms =>
    obtain ⟨m', h3, h4⟩ := List.mem_map.1 h2
    simp only [Prod.mk.injEq] at h4
    obtain ⟨rfl, rfl⟩ := h4
    exact routed_named h h1 h3
  | will t' m' =>
    simp only [List.mem_singleton, Prod.mk.injEq] at h2
    obtain ⟨rfl, rfl⟩ := h2
    have hmem : m ∈ willsOf t evs := List.mem_filterMap.2 ⟨_, h1, by simp⟩
    rcases C41_at_most_once h t with h3 | ⟨req, wl, p, h3, h4, h5, h6⟩
    · rw [h3] at hmem; cases hmem
    · rw [h5, List.mem_singleton] at hmem
      subst hmem
      exact ⟨by rw [h6.1]; exact hw t req wl h3 h4, by rw [h6.2.2.2.2]⟩
  | _ => cases h2

theorem origin_named (hw : ∀ u m, (u, m) ∈ published evs → WellNamed m.topic m.props)
    {e : Env × Global × SessEv} (he : (Good.origin w evs).ev e) : EvWellNamed e := by
  obtain ⟨env, g, ev⟩ := e
  refine ⟨fun f cs hf c hc => ?_, fun m hm => ?_⟩
  · obtain ⟨u, m, req, h1, _, _, rfl⟩ := he.1 f cs hf c hc
    obtain ⟨h2, h3⟩ := hw u m h1
    refine ⟨h2, ?_⟩
    unfold SendPub.toRetain
    cases req.level.proto
    · rfl
    · exact h3
  · have : (Good.origin w evs).msg m := by
      rcases hm with hm | hm <;> (simp only at hm; subst hm; exact he.2.2)
    obtain ⟨u, sm, req, h1, _, h2⟩ := this
    obtain ⟨h3, h4⟩ := hw u sm h1
    unfold IsCopyFrom at h2
    split at h2
    · obtain ⟨e, rfl⟩ := h2
      exact h3
    · obtain ⟨Fs, q, rfl⟩ := h2
      exact ⟨h3, h4⟩

end Akasa
