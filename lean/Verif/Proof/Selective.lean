import Verif.Spec.Selective
import Verif.Proof.Announced
import Verif.Proof.FanoutTable
import Verif.Props.Subscribe
import Verif.Props.Retain
import Verif.Props.Size
/-! # Which messages a client has asked for -/
namespace Akasa
open RouteNode

variable {cfg : Config} {ext : Ext} {pr : Proto} {w w' : World} {evs e : List Event}

/-! ## Names of groups in the table -/

/-- No group has a slash in its name. -/
def RouteContent.Named (c : RouteContent) : Prop := ∀ g ∈ c.groups, '/' ∉ g.1

theorem RouteContent.Named.add {c c' : RouteContent} {f : Str} {id : ClientId} {q : QoS}
    {g : Option Str} (h : c.Named) (hq : ∀ n, g = some n → '/' ∉ n)
    (ha : c.add f id q g = some c') : c'.Named := by
  unfold RouteContent.add at ha
  simp only at ha
  split at ha
  · split at ha
    · cases ha
    · cases ha
      intro g' hg
      rcases FMap.mem_of_mem_insert hg with rfl | hg
      · exact hq _ rfl
      · exact h g' hg
  · cases ha
    exact h

theorem RouteContent.Named.del {c c' : RouteContent} {id : ClientId} {g : Option Str}
    (h : c.Named) (ha : c.del id g = some c') : c'.Named := by
  unfold RouteContent.del at ha
  simp only [Option.map_eq_some_iff] at ha
  obtain ⟨d, h1, h2⟩ := ha
  have hd : d.Named := by
    split at h1
    · split at h1
      · cases h1; exact h
      · rename_i sc hget
        split at h1
        · cases h1
        · split at h1
          · cases h1
            exact fun g' hg => h g' (FMap.mem_of_mem_erase hg)
          · cases h1
            intro g' hg
            rcases FMap.mem_of_mem_insert hg with rfl | hg
            · exact h (_, sc) (FMap.mem_of_get hget)
            · exact h g' hg
    · cases h1
      exact h
  subst h2
  split
  · exact hd
  · exact hd

/-- The whole table. -/
def RouteTable.Named (t : RouteTable) : Prop := ∀ p, (t.root.contentAt p).Named

theorem target_named {F : Str} : ∀ n, (RouteOp.target F).2 = some n → '/' ∉ n := by
  intro n h
  unfold RouteOp.target at h
  split at h
  · rename_i hs
    cases h
    exact (sharedInfo_some hs).2
  · cases h

theorem named_step {t t' : RouteTable} {op : RouteOp} (hc : t.root.Clean) (h : t.Named)
    (hs : t.step op = some t') : t'.Named := by
  cases op with
  | sub F id q =>
    rw [step_sub_eq] at hs
    have hn := target_named (F := F)
    generalize RouteOp.target F = tg at hs hn
    obtain ⟨f, g⟩ := tg
    simp only at hs
    cases ha : (t.root.contentAt (levels f)).add f id q g with
    | none => rw [RouteTable.subscribeShared_none ha] at hs; cases hs
    | some c' =>
      obtain ⟨t1, h1, h2⟩ := RouteTable.subscribeShared_some ha
      rw [hs] at h1; cases h1
      intro p
      rw [h2]
      split
      · exact (h _).add hn ha
      · exact h p
  | unsub F id =>
    rw [step_unsub_eq] at hs
    generalize RouteOp.target F = tg at hs
    obtain ⟨f, g⟩ := tg
    simp only at hs
    cases ha : (t.root.contentAt (levels f)).del id g with
    | none => rw [RouteTable.unsubscribeShared_none ha] at hs; cases hs
    | some c' =>
      obtain ⟨t1, h1, h2⟩ := RouteTable.unsubscribeShared_some hc ha
      rw [hs] at h1; cases h1
      intro p
      rw [h2]
      split
      · exact (h _).del ha
      · exact h p

theorem named_run {ops : List RouteOp} {t : RouteTable} (h : RouteTable.empty.run ops = some t) :
    t.Named := by
  suffices ∀ (ops : List RouteOp) (t0 t : RouteTable) (σ : SubState), RInv σ t0 → t0.Named →
      t0.run ops = some t → t.Named by
    refine this ops _ t _ RInv.empty (fun p => ?_) h
    have h0 : RouteTable.empty.root.contentAt p = RouteContent.empty := contentAt_new p
    rw [h0]
    exact fun x hx => by cases hx
  intro ops
  induction ops with
  | nil => intro t0 t σ _ h1 h2; cases h2; exact h1
  | cons op ops ih =>
    intro t0 t σ h0 h1 h2
    simp only [RouteTable.run] at h2
    cases hst : t0.step op with
    | none => rw [hst] at h2; cases h2
    | some t1 =>
      rw [hst] at h2
      exact ih t1 t _ (h0.step hst) (named_step h0.clean h1 hst) h2

/-! ## The copies -/

/-- All filters of the copy cover the topic. -/
def NormalMsg.Fit (c : NormalMsg) : Prop := ValidTopic c.topic → ∀ F ∈ c.filters, Covers F c.topic

theorem cause_covers {ops : List RouteOp} {t : RouteTable} (hr : RInv (subscribed ops) t)
    (hn : t.Named) {topic : Str} (hv : ValidTopic topic) {s : Session} {pick : Str → Str → Nat}
    {l : List Cause} (h : causes s pick (t.getMatches topic) = some l) {x : Cause} (hx : x ∈ l) :
    Covers x.2.1 topic := by
  obtain ⟨id, F, q⟩ := x
  obtain ⟨c, hc, f, hf, h1⟩ := (mem_causes h).1 hx
  obtain ⟨f', h2, h3, h4, h5⟩ := (RouteTable.mem_getMatches hv hr.tf).mp hc
  rw [hf] at h4; cases h4
  rcases h1 with ⟨rfl, h1, _⟩ | ⟨g, sc, h1, rfl, _⟩
  · rw [h3, clients_iff hr] at h1
    exact .inl ⟨h1.1, h2⟩
  · rw [h3] at h1
    exact .inr ⟨g, f, hn _ _ h1, rfl, h2⟩

theorem mem_addReceiver {id : ClientId} {f : Str} {q : QoS} {r : Receivers} {P : Str → Prop}
    (hf : P f) (h : ∀ x ∈ r, ∀ F ∈ x.2.1, P F) :
    ∀ x ∈ addReceiver id f q r, ∀ F ∈ x.2.1, P F := by
  induction r with
  | nil =>
    intro x hx
    rw [addReceiver, List.mem_singleton] at hx; subst hx
    intro F hF
    rw [List.mem_singleton.1 hF]; exact hf
  | cons y r ih =>
    intro x hx
    rw [addReceiver] at hx
    split at hx
    · rcases List.mem_cons.1 hx with rfl | hx
      · intro F hF
        rcases List.mem_append.1 hF with hF | hF
        · exact h y List.mem_cons_self F hF
        · rw [List.mem_singleton.1 hF]; exact hf
      · exact h x (List.mem_cons_of_mem _ hx)
    · rcases List.mem_cons.1 hx with rfl | hx
      · exact h _ List.mem_cons_self
      · exact ih (fun z hz => h z (List.mem_cons_of_mem _ hz)) x hx

theorem mem_addAll {l : List Cause} {r : Receivers} {P : Str → Prop}
    (hl : ∀ x ∈ l, P x.2.1) (h : ∀ x ∈ r, ∀ F ∈ x.2.1, P F) :
    ∀ x ∈ addAll l r, ∀ F ∈ x.2.1, P F := by
  induction l generalizing r with
  | nil => exact h
  | cons c l ih =>
    exact ih (fun x hx => hl x (List.mem_cons_of_mem _ hx))
      (mem_addReceiver (hl c List.mem_cons_self) h)

theorem sendOf_fits {ops : List RouteOp} {g : Global}
    (hrun : RouteTable.empty.run ops = some g.route) : CopiesAre NormalMsg.Fit g := by
  intro pr env g' s s' m n h
  have hr : RInv (subscribed ops) g.route := RInv.empty.run hrun
  have hn := named_run hrun
  cases pr
  · simp only [sendOf, Option.map_eq_some_iff] at h
    obtain ⟨⟨a, b⟩, h1, h2⟩ := h
    cases h2
    unfold sendPublishV3 at h1
    simp only at h1
    split at h1
    · cases h1
    · rename_i rs hrs
      cases h1
      refine ⟨_, rfl, fun c hc => ?_⟩
      rw [List.mem_map] at hc
      obtain ⟨⟨id, F, q⟩, he, rfl⟩ := hc
      intro hv F' hF
      rw [List.mem_singleton.1 hF]
      obtain ⟨c, hc, h2, h3⟩ := (mem_collectV3 hrs).1 he
      obtain ⟨f', k1, k2, k3, k4⟩ := (RouteTable.mem_getMatches hv hr.tf).mp hc
      rw [h2] at k3; cases k3
      rw [k2, clients_iff hr] at h3
      exact .inl ⟨h3.1, k1⟩
  · simp only [sendOf, sendPublishV5] at h
    split at h
    · cases h
    · rename_i rs hrs
      cases h
      refine ⟨_, rfl, fun c hc => ?_⟩
      rw [List.mem_map] at hc
      obtain ⟨x, he, rfl⟩ := hc
      intro hv F hF
      rw [collectV5_eq, Option.map_eq_some_iff] at hrs
      obtain ⟨l, hl, rfl⟩ := hrs
      exact mem_addAll (P := fun F => Covers F m.topic) (fun y hy => cause_covers hr hn hv hl hy)
        (fun x hx => by cases hx) x he F hF

theorem fit_world {acts : List Act} (h : Reaches cfg ext acts w evs) :
    ∀ t d c, c ∈ queuedFor t d evs → c.Fit := by
  have key := world_induction (P := fun w evs => w.RouteBelow cfg.maxAllowedQos ∧
    ∀ t d c, c ∈ queuedFor t d evs → c.Fit)
    ⟨⟨[], rfl, fun op hop => by cases hop⟩, fun t d c hc => by cases hc⟩ ?_ h
  · exact key.2
  rintro w evs a w' e ⟨h1, h2⟩ hs
  have hc := step_cases hs
  refine ⟨routeBelow_case h1 hc, fun t d c hq => ?_⟩
  rw [queuedFor_append, List.mem_append] at hq
  rcases hq with hq | hq
  · exact h2 t d c hq
  · obtain ⟨ops, hrun, _⟩ := h1
    exact queued_all (P := NormalMsg.Fit) (sendOf_fits (g := w.global) hrun) hc hq

/-! ## What sessions meet -/

/-- As in `Good.origin`; besides, copies fit and the retained messages found match. -/
def Good.fitting (w : World) (evs : List Event) : Good where
  retain rt := (Good.origin w evs).retain rt ∧
    ∀ F cs, ValidFilter F → rt.getMatches F = some cs → ∀ c ∈ cs, Matches F c.topic
  msg c := (Good.origin w evs).msg c ∧ c.Fit
  env _ := True
  after _ := True
  empty := ⟨(Good.origin w evs).empty, fun F cs hv hg c hc => by
    have := getMatches_stored (h := []) hg c hc
    cases this⟩

theorem fitting_life {acts : List Act} (h : Reaches cfg ext acts w evs) :
    LifeIn (Good.fitting w evs) cfg ext w evs := by
  refine LifeIn.run h fun acts1 a acts2 w1 evs1 ha h1 => ?_
  subst ha
  obtain ⟨⟨rest, rfl⟩, hreq⟩ := run_prefix h1 h
  obtain ⟨h2, h3⟩ := origin_state h1
  obtain ⟨h4, h5⟩ := origin_mono (evs1 := evs1) (rest := rest) hreq
  refine ⟨⟨h4 _ h2, fun F cs hv hg c hc => ?_⟩,
    fun d q hq e he => ⟨h5 _ (h3 d q hq e he), ?_⟩, ?_⟩
  · change w1.retain.getMatches F = some cs at hg
    rw [(retain_run h1).2] at hg
    obtain ⟨rs, k1, k2, _⟩ := getMatches_retained (w1.retainWrites evs1) hv
    rw [k1] at hg
    cases hg
    exact ((k2 c).1 hc).2
  · have h2 : e.2 ∈ w1.inboxFrom e.1 d := by
      unfold World.inboxFrom
      rw [hq, List.mem_map]
      exact ⟨e, List.mem_filter.2 ⟨he, by simp⟩, rfl⟩
    exact fit_world h1 e.1 d e.2 ((C56_order h1 e.1 d).subset
      (List.mem_append.2 (.inl (List.mem_append.2 (.inr h2)))))
  · cases a <;> first | trivial | exact ⟨trivial, trivial⟩

/-- Why a message is due: a copy for a filter that the session holds, or a SUBSCRIBE. -/
def DueFor (evs : List Event) (r : Rec) (p : PubPacket) : Prop :=
  (∃ m, r.taken = some m ∧ p.topic = m.topic ∧ p.payload = m.payload ∧ m.Fit ∧
    (∃ e ∈ published evs, m.topic = e.2.topic ∧ m.payload = e.2.payload) ∧
    ∃ F ∈ m.filters, r.pre.session.subs F ≠ none) ∨
  ∃ pid topics id, r.received = some (.subscribe pid topics id) ∧
    ∃ F ∈ topics.map (·.1), ∃ e ∈ published evs, e.2.retain = true ∧ p.topic = e.2.topic ∧
      p.payload = e.2.payload ∧ (ValidFilter F → IsPlain F ∧ Matches F e.2.topic)

theorem due_for {s : Session} {m : NormalMsg} {p : PubPacket} (hd : dueOf cfg pr s m = some p) :
    p.topic = m.topic ∧ p.payload = m.payload ∧ ∃ F ∈ m.filters, s.subs F ≠ none := by
  cases pr with
  | v3 =>
    simp only [dueOf, dueV3] at hd
    split at hd
    · cases hd
    · rename_i F fs hF
      split at hd
      · cases hd
      · rename_i hne
        cases hd
        exact ⟨rfl, rfl, F, by rw [hF]; exact List.mem_cons_self, hne⟩
  | v5 =>
    simp only [dueOf, dueV5] at hd
    split at hd
    · cases hd
    · rename_i hne
      split at hd
      · cases hd
      · cases hd
        refine ⟨rfl, rfl, ?_⟩
        obtain ⟨d, hd⟩ := List.exists_mem_of_ne_nil _ hne
        unfold Session.held at hd
        rw [List.mem_filterMap] at hd
        obtain ⟨F, h1, h2⟩ := hd
        exact ⟨F, h1, by unfold Session.subs; rw [h2]; simp⟩

theorem copy_topic {m : NormalMsg} (h : (Good.origin w evs).msg m) :
    ∃ e ∈ published evs, m.topic = e.2.topic ∧ m.payload = e.2.payload := by
  obtain ⟨u, sm, req, h1, _, h3⟩ := h
  refine ⟨_, h1, ?_⟩
  unfold IsCopyFrom at h3
  split at h3
  · obtain ⟨e, rfl⟩ := h3; exact ⟨rfl, rfl⟩
  · obtain ⟨Fs, q, rfl⟩ := h3; exact ⟨rfl, rfl⟩

theorem stored_for {g : Global} (hg : (Good.fitting w evs).retain g.retain) {F : Str}
    (hp : IsPlain F) {c : RetainContent} (hc : c ∈ g.stored F) :
    ∃ e ∈ published evs, e.2.retain = true ∧ c.topic = e.2.topic ∧ c.payload = e.2.payload ∧
      (ValidFilter F → IsPlain F ∧ Matches F e.2.topic) := by
  obtain ⟨u, m, req, h1, h2, h3, h4, h5, _⟩ := stored_from hg.1 hc
  refine ⟨_, h1, h3, h4, h5, fun hv => ⟨hp, ?_⟩⟩
  show Matches F m.topic
  rw [← h4]
  unfold Global.stored at hc
  cases hm : g.retain.getMatches F with
  | none => rw [hm] at hc; cases hc
  | some cs => rw [hm] at hc; exact hg.2 F cs hv hm c hc

theorem messages_for {r : Rec} (hr : (Good.fitting w evs).ev (r.env, r.before, r.ev))
    {p : PubPacket} (hp : p ∈ r.messages cfg pr) : DueFor evs r p := by
  obtain ⟨ev, env, before, pre, post, res⟩ := r
  unfold Rec.messages Rec.inputs at hp
  rw [List.mem_filterMap] at hp
  obtain ⟨inp, hin, hmsg⟩ := hp
  cases inp with
  | message p' =>
    cases hmsg
    obtain ⟨hg, hr⟩ := hr
    simp only at hg
    cases ev with
    | packet after n pkt =>
      simp only at hin
      split at hin
      · rename_i hon
        cases pkt with
        | subscribe sid topics sub =>
          right
          refine ⟨sid, topics, sub, ?_, ?_⟩
          · simp only [Bool.and_eq_true] at hon
            simp only [Rec.received, Bool.and_eq_true]
            rw [if_pos hon.1]
          cases pr with
          | v3 =>
            simp only [InPkt.inputs] at hin
            rw [List.mem_map] at hin
            obtain ⟨p', hin, hpp⟩ := hin
            cases hpp
            clear hr
            induction topics with
            | nil => cases hin
            | cons t ts ih =>
              obtain ⟨F, o⟩ := t
              rw [retainedDueV3] at hin
              split at hin
              · rename_i hpl
                rw [List.mem_append] at hin
                rcases hin with hin | hin
                · rw [List.mem_filterMap] at hin
                  obtain ⟨rc, h1, h2⟩ := hin
                  unfold retainedCopyV3 at h2
                  split at h2
                  · cases h2
                  · cases h2
                    exact ⟨F, List.mem_cons_self, stored_for hg hpl h1⟩
                · obtain ⟨F', h1, h2⟩ := ih hin
                  exact ⟨F', List.mem_cons_of_mem _ h1, h2⟩
              · cases hin
          | v5 =>
            simp only [InPkt.inputs] at hin
            split at hin
            · cases hin
            · rw [List.mem_map] at hin
              obtain ⟨p', hin, hpp⟩ := hin
              cases hpp
              suffices ∀ ts earlier, p ∈ retainedDueV5 cfg before pre.session sub earlier ts →
                  ∃ F ∈ ts.map (·.1), ∃ e ∈ published evs, e.2.retain = true ∧
                    p.topic = e.2.topic ∧ p.payload = e.2.payload ∧
                    (ValidFilter F → IsPlain F ∧ Matches F e.2.topic) from this _ _ hin
              intro ts
              induction ts with
              | nil => intro earlier h; cases h
              | cons t ts ih =>
                obtain ⟨F, o⟩ := t
                intro earlier h
                rw [retainedDueV5, List.mem_append] at h
                rcases h with h | h
                · unfold retainedV5 at h
                  split at h
                  · rename_i hw
                    rw [List.mem_filterMap] at h
                    obtain ⟨rc, h1, h2⟩ := h
                    unfold retainedCopyV5 at h2
                    split at h2
                    · cases h2
                    · split at h2
                      · cases h2
                      · cases h2
                        exact ⟨F, List.mem_cons_self, stored_for hg hw.2.2.1 h1⟩
                  · cases h
                · obtain ⟨F', h1, h2⟩ := ih _ h
                  exact ⟨F', List.mem_cons_of_mem _ h1, h2⟩
        | _ => simp [InPkt.inputs] at hin
      · cases hin
    | normal m =>
      simp only at hin
      split at hin
      · rename_i hon
        rw [Option.mem_toList, Option.map_eq_some_iff] at hin
        obtain ⟨p', hd, hpp⟩ := hin
        cases hpp
        obtain ⟨h1, h2, h3⟩ := due_for hd
        exact .inl ⟨m, by simp only [Rec.taken]; rw [if_pos hon], h1, h2, hr.2.2,
          copy_topic hr.2.1, h3⟩
      · cases hin
    | offline m =>
      simp only at hin
      split at hin
      · cases hin
      · rename_i hon
        rw [Option.mem_toList, Option.map_eq_some_iff] at hin
        obtain ⟨p', hd, hpp⟩ := hin
        cases hpp
        rw [Option.filter_eq_some_iff] at hd
        obtain ⟨h1, h2, h3⟩ := due_for hd.1
        exact .inl ⟨m, by simp only [Rec.taken]; rw [if_neg hon], h1, h2, hr.2.2,
          copy_topic hr.2.1, h3⟩
    | resume c' =>
      cases pr <;> simp at hin
    | _ => cases hin
  | _ => cases hmsg

/-! ## The filters asked for -/

/-- This packet is an UNSUBACK. -/
def OutPkt.isUnsuback : OutPkt → Bool
  | .unsuback _ _ => true
  | _ => false

theorem delivery_not_unsuback {o : OutPkt} (h : o.isDelivery = true) : o.isUnsuback = false := by
  cases o <;> first | rfl | cases h

/-- Only an UNSUBSCRIBE that is not too large is answered by UNSUBACK. -/
theorem handle_unsuback {env : Env} {g : Global} {s : Session} {n : Nat} {pkt : InPkt} {r : Res}
    (h : handlePacket cfg ext pr env g s n pkt = some r) {o : OutPkt} (ho : o ∈ r.out)
    (hu : o.isUnsuback = true) :
    ∃ pid fs, pkt = .unsubscribe pid fs ∧ n ≤ cfg.maxPacketSizeServer := by
  by_cases hpub : ∃ q, pkt = .publish q
  · obtain ⟨q, rfl⟩ := hpub
    have hreply : ∀ k, o ∈ replyOf pr q k → False := by
      intro k hk
      unfold replyOf ackV3 ackV5 at hk
      cases pr <;> simp only at hk <;> split at hk <;>
        simp only [List.mem_singleton, List.not_mem_nil] at hk <;>
        (try subst hk) <;> first | exact hk | cases hu
    cases handle_publish_cases h with
    | route2 s1 t pid s' g' k hres hl hd hg hlen hsend => exact (hreply k ho).elim
    | route01 s1 t s' g' k hres hp hsend => exact (hreply k ho).elim
    | rejectV5 => simp only [failV5, List.mem_singleton] at ho; subst ho; cases hu
    | rejectV3 => cases ho
    | _ => simp only [List.mem_singleton] at ho; subst ho; cases hu
  · cases pr with
    | v3 =>
      simp only [handlePacket, handlePacketV3] at h
      split at h
      · cases h; cases ho
      · rename_i hn
        cases pkt with
        | publish q => exact absurd ⟨q, rfl⟩ hpub
        | unsubscribe pid fs => exact ⟨pid, fs, rfl, by omega⟩
        | subscribe a b c =>
          simp only [handleSubscribeV3, Option.map_eq_some_iff] at h
          obtain ⟨x, hx, rfl⟩ := h
          split at ho
          · cases ho
          · have h5 := (subscribeLoopV3_effect hx).2.2.2
            rcases List.mem_append.1 ho with ho | ho
            · rw [delivery_not_unsuback (h5 o ho)] at hu; cases hu
            · rw [List.mem_singleton.1 ho] at hu; cases hu
        | pubrec pid =>
          cases h
          simp only [handlePubrecV3, List.mem_singleton] at ho
          subst ho; cases hu
        | puback pid => cases h; cases ho
        | pubcomp pid => cases h; cases ho
        | pubrel pid =>
          cases h
          unfold handlePubrelV3 at ho
          split at ho <;> simp only [failV3, List.mem_singleton, List.not_mem_nil] at ho
          subst ho; cases hu
        | disconnect a b => cases h; cases ho
        | pingreq => cases h; rw [List.mem_singleton.1 ho] at hu; cases hu
        | invalid => cases h; cases ho
    | v5 =>
      simp only [handlePacket, handlePacketV5] at h
      split at h
      · cases h; rw [List.mem_singleton.1 ho] at hu; cases hu
      · rename_i hn
        cases pkt with
        | publish q => exact absurd ⟨q, rfl⟩ hpub
        | unsubscribe pid fs => exact ⟨pid, fs, rfl, by omega⟩
        | subscribe a b c =>
          simp only [handleSubscribeV5] at h
          split at h
          · cases h; rw [List.mem_singleton.1 ho] at hu; cases hu
          · split at h
            · cases h; rw [List.mem_singleton.1 ho] at hu; cases hu
            · rename_i href
              rw [Option.map_eq_some_iff] at h
              obtain ⟨x, hx, rfl⟩ := h
              have h5 := (subscribeLoopV5_effect (by
                unfold RefusesId; simpa [Option.isSome_iff_ne_none] using href) hx).2.2
              rcases List.mem_append.1 ho with ho | ho
              · rw [delivery_not_unsuback (h5 o ho)] at hu; cases hu
              · rw [List.mem_singleton.1 ho] at hu; cases hu
        | pubrec pid =>
          cases h
          simp only [handlePubrecV5, List.mem_singleton] at ho
          subst ho; cases hu
        | puback pid => cases h; cases ho
        | pubcomp pid => cases h; cases ho
        | pubrel pid =>
          cases h
          simp only [handlePubrelV5, List.mem_singleton] at ho
          subst ho; cases hu
        | disconnect reason expiry =>
          cases h
          unfold handleDisconnectV5 at ho
          split at ho
          · split at ho
            · rw [List.mem_singleton.1 ho] at hu; cases hu
            · cases ho
          · cases ho
        | pingreq => cases h; rw [List.mem_singleton.1 ho] at hu; cases hu
        | invalid => cases h; cases ho

/-- Neither a packet from the client nor an UNSUBACK. -/
def Obs.neutral : Obs → Prop
  | .received _ => False
  | .sent o => o.isUnsuback = false
  | _ => True

theorem askedFor_neutral {o : Obs} (h : o.neutral) (st : List Str × List Str) : Obs.asked st o = st := by
  cases o with
  | received p => cases h
  | sent p => cases p <;> first | rfl | cases h
  | _ => rfl

theorem askedFor_neutrals {l : List Obs} (h : ∀ o ∈ l, o.neutral) (st : List Str × List Str) :
    l.foldl Obs.asked st = st := by
  induction l generalizing st with
  | nil => rfl
  | cons o l ih =>
    rw [List.foldl_cons, askedFor_neutral (h o List.mem_cons_self)]
    exact ih (fun o ho => h o (List.mem_cons_of_mem _ ho)) st

/-- What the broker sends gives up at most the filters of the UNSUBSCRIBE. -/
theorem askedFor_kept {l : List Obs} (h : ∀ o ∈ l, o.byBroker) {st : List Str × List Str} {F : Str}
    (hF : F ∈ st.1) (hn : F ∉ st.2) : F ∈ (l.foldl Obs.asked st).1 := by
  induction l generalizing st with
  | nil => exact hF
  | cons o l ih =>
    rw [List.foldl_cons]
    have h1 : F ∈ (Obs.asked st o).1 ∧ F ∉ (Obs.asked st o).2 := by
      have := h o List.mem_cons_self
      cases o with
      | sent p =>
        cases p <;> first
          | exact ⟨hF, hn⟩
          | exact ⟨List.mem_filter.2 ⟨hF, by simpa using hn⟩, fun h => by cases h⟩
      | routed m => exact ⟨hF, hn⟩
      | _ => cases this
    exact ih (fun o ho => h o (List.mem_cons_of_mem _ ho)) h1.1 h1.2

theorem Subs.after_drop {σ : Subs} {fs : List Str} {F : Str}
    (h : σ.after (fs.map .drop) F ≠ none) : F ∉ fs ∧ σ F ≠ none := by
  induction fs generalizing σ with
  | nil => exact ⟨List.not_mem_nil, h⟩
  | cons f fs ih =>
    rw [List.map_cons, Subs.after_cons] at h
    obtain ⟨h1, h2⟩ := ih h
    simp only [Subs.step] at h2
    split at h2
    · exact absurd rfl h2
    · rename_i hne
      exact ⟨by simp [hne, h1], h2⟩

theorem rest_byBroker (r : Rec) : ∀ o ∈ r.res.routed.map Obs.routed ++ r.res.out.map Obs.sent,
    o.byBroker := by
  intro o ho
  rw [List.mem_append, List.mem_map, List.mem_map] at ho
  rcases ho with ⟨_, _, rfl⟩ | ⟨_, _, rfl⟩ <;> trivial

theorem obs_received {r : Rec} {pkt : InPkt} (hr : r.received = some pkt) :
    r.obs = .received pkt :: (r.res.routed.map Obs.routed ++ r.res.out.map Obs.sent) := by
  unfold Rec.received at hr
  split at hr
  · rename_i hev
    unfold Rec.obs
    simp only [Rec.received, Rec.taken, hev]
    rw [hr]
    rfl
  · cases hr

theorem accepted_filter {topics : List (Str × SubOpts)} {id : Option Nat} {t : Str × SubData}
    (h : t ∈ acceptedSubs cfg pr topics id) : t.1 ∈ topics.map (·.1) := by
  unfold acceptedSubs at h
  split at h
  · rw [List.mem_map] at h
    obtain ⟨x, hx, rfl⟩ := h
    exact List.mem_map.2 ⟨x, (List.takeWhile_sublist _).subset hx, rfl⟩
  · split at h
    · cases h
    · rw [List.mem_map] at h
      obtain ⟨x, hx, rfl⟩ := h
      exact List.mem_map.2 ⟨x, (List.mem_filter.1 hx).1, rfl⟩

/-- One step. -/
theorem askedFor_step {r : Rec} (hs : r.pre.step cfg ext pr r.env r.before r.ev = some (r.post, r.res))
    {st : List Str × List Str} (h : ∀ F, r.pre.session.subs F ≠ none → F ∈ st.1) :
    ∀ F, r.post.session.subs F ≠ none → F ∈ (r.obs.foldl Obs.asked st).1 := by
  intro F hF
  have hm := (moves_step hs).subs
  cases hr : r.received with
  | none =>
    have hch : r.changes cfg pr = [] := by
      have : r.processed cfg = none := by
        unfold Rec.processed
        unfold Rec.received at hr
        split
        · rename_i hev
          rw [hev] at hr
          simp only at hr
          split at hr
          · cases hr
          · rename_i hf
            rw [if_neg (by simp only [Bool.and_eq_true] at hf ⊢; exact fun h => hf h.1)]
        · rfl
      simp only [Rec.changes, this]
    rw [hch] at hm
    rw [askedFor_neutrals]
    · exact h F (by rw [hm] at hF; exact hF)
    · have hi := step_idle hs hr
      intro o ho
      unfold Rec.obs at ho
      rw [hr] at ho
      simp only [List.mem_append, List.mem_map] at ho
      rcases ho with ho | ho | ⟨_, _, rfl⟩ | ⟨_, _, rfl⟩ | ⟨x, hx, rfl⟩
      · split at ho
        · rw [List.mem_singleton.1 ho]; trivial
        · cases ho
      · obtain ⟨_, ho, _⟩ := ho; cases ho
      · trivial
      · trivial
      · exact delivery_not_unsuback (hi.2.2.2.1 x hx)
  | some pkt =>
    obtain ⟨n, r0, h1⟩ := step_received hs hr
    obtain ⟨after, hev⟩ := h1.isEv
    have hch : r.changes cfg pr =
        if n ≤ cfg.maxPacketSizeServer then pkt.changes cfg pr else [] := by
      simp only [Rec.changes, Rec.processed, hev, h1.on, h1.connected]
      by_cases hn : n ≤ cfg.maxPacketSizeServer <;> simp [hn]
    obtain ⟨rest, ho, hrest⟩ := h1.out
    have quiet : (¬ ∃ pid fs, pkt = .unsubscribe pid fs ∧ n ≤ cfg.maxPacketSizeServer) →
        ∀ st, (r.res.routed.map Obs.routed ++ r.res.out.map Obs.sent).foldl Obs.asked st = st := by
      intro hne st
      refine askedFor_neutrals (fun o hmem => ?_) st
      rw [List.mem_append, List.mem_map, List.mem_map] at hmem
      rcases hmem with ⟨_, _, rfl⟩ | ⟨x, hx, rfl⟩
      · trivial
      · rw [ho] at hx
        rcases List.mem_append.1 hx with hx | hx
        · show x.isUnsuback = false
          cases hu : x.isUnsuback with
          | false => rfl
          | true => exact absurd (handle_unsuback h1.handled hx hu) hne
        · exact delivery_not_unsuback (hrest x hx)
    rw [obs_received hr, List.foldl_cons]
    cases pkt with
    | subscribe pid topics id =>
      rw [quiet (by rintro ⟨_, _, h, _⟩; cases h)]
      show F ∈ st.1 ++ topics.map (·.1)
      rw [List.mem_append]
      by_cases hin : F ∈ topics.map (·.1)
      · exact .inr hin
      · left
        refine h F ?_
        rw [hm, Subs.after_other] at hF
        · exact hF
        · intro c hc
          rw [hch] at hc
          split at hc
          · simp only [InPkt.changes, List.mem_map] at hc
            obtain ⟨t, ht, rfl⟩ := hc
            intro hf
            exact hin (hf ▸ accepted_filter ht)
          · cases hc
    | unsubscribe pid fs =>
      by_cases hn : n ≤ cfg.maxPacketSizeServer
      · rw [hch, if_pos hn] at hm
        rw [hm] at hF
        obtain ⟨h2, h3⟩ := Subs.after_drop hF
        exact askedFor_kept (rest_byBroker r) (h F h3) h2
      · rw [quiet (by rintro ⟨_, _, _, h⟩; exact hn h)]
        rw [hch, if_neg hn] at hm
        rw [hm] at hF
        exact h F hF
    | _ =>
      rw [quiet (by rintro ⟨_, _, h, _⟩; cases h)]
      refine h F ?_
      have : r.changes cfg pr = [] := by rw [hch]; split <;> rfl
      rw [this] at hm
      rw [hm] at hF
      exact hF

theorem askedFor_run {p : Peer} {recs : List Rec} (h : IsRun cfg ext pr p recs)
    {st : List Str × List Str} (h0 : ∀ F, p.session.subs F ≠ none → F ∈ st.1) :
    ∀ F, (endOf p recs).session.subs F ≠ none → F ∈ ((recs.flatMap Rec.obs).foldl Obs.asked st).1 := by
  induction recs generalizing p st with
  | nil => exact h0
  | cons r recs ih =>
    obtain ⟨hp, hs, h1⟩ := h
    rw [← hp] at hs h0
    rw [List.flatMap_cons, List.foldl_append]
    exact ih h1 (askedFor_step hs h0)

theorem start_none {i : Str} {id : ClientId} {c : ConnParams} (F : Str) :
    (Session.start cfg pr i id c).subs F = none := by
  unfold Session.subs
  rw [start_subs]
  rfl

/-! ## The packets sent -/

theorem flatMap_split {α β : Type} {f : α → List β} {l : List α} {A B : List β} {x : β}
    (h : l.flatMap f = A ++ x :: B) :
    ∃ l1 a l2 A' B', l = l1 ++ a :: l2 ∧ A = l1.flatMap f ++ A' ∧ f a = A' ++ x :: B' := by
  induction l generalizing A with
  | nil => simp at h
  | cons a l ih =>
    rw [List.flatMap_cons] at h
    rcases List.append_eq_append_iff.1 h with ⟨A2, rfl, hb⟩ | ⟨B2, hb, hc⟩
    · obtain ⟨l1, a', l2, A', B', rfl, rfl, h3⟩ := ih hb
      exact ⟨a :: l1, a', l2, A', B', rfl, by simp, h3⟩
    · cases B2 with
      | nil =>
        obtain ⟨l1, a', l2, A', B', rfl, h2, h3⟩ := ih (A := []) (by simpa using hc.symm)
        refine ⟨a :: l1, a', l2, A', B', rfl, ?_, h3⟩
        rw [List.append_nil] at hb
        rw [List.flatMap_cons, List.append_assoc, ← h2, hb, List.append_nil]
      | cons b B2 =>
        cases hc
        exact ⟨[], a, l, A, B2, rfl, rfl, hb⟩

theorem obs_taken {r : Rec} {m : NormalMsg} (h : r.taken = some m) :
    r.received = none ∧
      r.obs = .took m :: (r.res.routed.map Obs.routed ++ r.res.out.map Obs.sent) := by
  have hr : r.received = none := by
    unfold Rec.taken at h
    unfold Rec.received
    split at h <;> rename_i hev <;> first | (rw [hev]) | cases h
  refine ⟨hr, ?_⟩
  unfold Rec.obs
  rw [hr, h]
  unfold Rec.taken at h
  split at h <;> rename_i hev <;> first | (rw [hev]; rfl) | cases h

/-- Everything that a session sends to its client. -/
theorem sent_for {i : Str} {id : ClientId} {c : ConnParams} {sevs : List (Env × Global × SessEv)}
    {recs : List Rec}
    (h : ({ session := Session.start cfg pr i id c } : Peer).run cfg ext pr sevs = some recs)
    (hG : ∀ e ∈ sevs, (Good.fitting w evs).ev e)
    (hv : ∀ e ∈ published evs, ValidTopic e.2.topic) {A B : List Obs} {p : Publish}
    (hl : .connected false c :: recs.flatMap Rec.obs = A ++ .sent (.publish p) :: B) :
    ∃ A1 x A2, A = A1 ++ x :: A2 ∧ SentFor evs (askedFor A1) p x ∧
      (∀ m, x = .took m → ∃ e ∈ published evs, m.topic = e.2.topic ∧ m.payload = e.2.payload) ∧
      (p.qosPid = .level0 → (∀ o ∈ A2, o.byBroker) ∧ ∀ m, x = .took m → ∀ o ∈ A2, o.neutral) := by
  cases A with
  | nil => cases hl
  | cons o A0 =>
    rw [List.cons_append] at hl
    injection hl with ho hl
    subst ho
    obtain ⟨R1, r, R2, o1, o2, rfl, rfl, hobs⟩ := flatMap_split hl
    have hrun := isRun_of_run h
    have hp : .publish p ∈ r.res.out := by
      have : Obs.sent (.publish p) ∈ r.obs := by rw [hobs]; simp
      unfold Rec.obs at this
      simp only [List.mem_append, List.mem_map] at this
      rcases this with h | ⟨_, _, h⟩ | ⟨_, _, h⟩ | ⟨_, _, h⟩ | ⟨x, hx, h⟩
      · split at h
        · cases List.mem_singleton.1 h
        · cases h
      · cases h
      · cases h
      · cases h
      · cases h; exact hx
    obtain ⟨r', hr', q, hq, pid, dup, expiry, hcar, hq0, _⟩ := C57_origin h rfl hp
    obtain ⟨-, hqos, -, hpay, htop⟩ := hcar
    have habout : p.about q.topic := by
      cases pr with
      | v3 => exact .inl htop.1
      | v5 => exact htop.1
    -- for QoS 0 it is this very step
    obtain ⟨r', hr', hq, hsame⟩ : ∃ r' ∈ R1 ++ [r], q ∈ r'.messages cfg pr ∧
        (p.qosPid = .level0 → r' = r) := by
      by_cases h0 : q.qos = 0
      · exact ⟨r, by simp, hq0 h0, fun _ => rfl⟩
      · refine ⟨r', hr', hq, fun hlev => ?_⟩
        rw [hqos] at hlev
        unfold PubPacket.qosPid at hlev
        rw [if_neg h0] at hlev
        split at hlev <;> cases hlev
    have hmem : r' ∈ R1 ++ r :: R2 := by
      rcases List.mem_append.1 hr' with h | h
      · exact List.mem_append.2 (.inl h)
      · rw [List.mem_singleton.1 h]; simp
    have hev : (Good.fitting w evs).ev (r'.env, r'.before, r'.ev) := by
      refine hG _ ?_
      rw [← rec_event h]
      exact List.mem_map.2 ⟨r', hmem, rfl⟩
    have hdue := messages_for hev hq
    -- the subscriptions before a step
    have hasked : ∀ X Y, R1 ++ r :: R2 = X ++ r' :: Y → ∀ F, r'.pre.session.subs F ≠ none →
        F ∈ askedFor (.connected false c :: X.flatMap Rec.obs) := by
      intro X Y hXY F hF
      rw [hXY, isRun_append] at hrun
      obtain ⟨h1, h2, _⟩ := hrun
      rw [h2] at hF
      refine askedFor_run (st := ([], [])) h1 (fun F hF => absurd (start_none F) hF) F hF
    -- what the step shows
    have hfirst : ∀ X Y, R1 ++ r :: R2 = X ++ r' :: Y →
        ∃ x tail, r'.obs = x :: tail ∧ (∀ o ∈ tail, o.byBroker) ∧
        (∀ m, x = .took m → ∀ o ∈ tail, o.neutral) ∧
        (∀ m, x = .took m → ∃ e ∈ published evs, m.topic = e.2.topic ∧ m.payload = e.2.payload) ∧
        SentFor evs (askedFor (.connected false c :: X.flatMap Rec.obs)) p x := by
      intro X Y hXY
      have hask := hasked X Y hXY
      have hst : r'.pre.step cfg ext pr r'.env r'.before r'.ev = some (r'.post, r'.res) := by
        rw [hXY, isRun_append] at hrun
        obtain ⟨_, h2, h3, _⟩ := hrun
        rw [h2]; exact h3
      rcases hdue with ⟨m, h1, h2, h3, h4, h5, F, h6, h7⟩ | ⟨sid, topics, sub, h1, F, h2, e, h3, h4,
          h5, h6, h7⟩
      · obtain ⟨k1, k2⟩ := obs_taken h1
        refine ⟨_, _, k2, rest_byBroker r', fun _ _ o ho => ?_, fun m' hm' => ?_, ?_⟩
        · rw [List.mem_append, List.mem_map, List.mem_map] at ho
          rcases ho with ⟨_, _, rfl⟩ | ⟨x, hx, rfl⟩
          · trivial
          · exact delivery_not_unsuback ((step_idle hst k1).2.2.2.1 x hx)
        · cases hm'; exact h5
        · refine ⟨h2 ▸ habout, hpay.trans h3, F, h6, hask F h7, h4 ?_ F h6⟩
          obtain ⟨e, k3, k4, _⟩ := h5
          rw [k4]; exact hv e k3
      · refine ⟨_, _, obs_received h1, rest_byBroker r', (fun m hm => by cases hm),
          (fun m hm => by cases hm), ?_⟩
        exact ⟨F, h2, e, h3, h4, h5 ▸ habout, hpay.trans h6, fun hvf => .inl (h7 hvf)⟩
    by_cases hrr : r' = r
    · subst hrr
      obtain ⟨x, tail, h1, h2, h3, h4, h5⟩ := hfirst R1 R2 rfl
      rw [h1] at hobs
      cases o1 with
      | nil =>
        rw [List.nil_append] at hobs
        injection hobs with hx _
        subst hx
        exact h5.elim
      | cons y o1 =>
        rw [List.cons_append] at hobs
        injection hobs with hx ht
        subst hx
        have hsub : ∀ o ∈ o1, o ∈ tail := by
          intro o ho; rw [ht]; exact List.mem_append.2 (.inl ho)
        refine ⟨_, x, o1, List.cons_append.symm, h5, h4, fun _ => ⟨fun o ho => h2 o (hsub o ho),
          fun m hm o ho => h3 m hm o (hsub o ho)⟩⟩
    · rcases List.mem_append.1 hr' with hr1 | hr1
      · obtain ⟨X, Y, rfl⟩ := List.append_of_mem hr1
        obtain ⟨x, tail, h1, h2, h3, h4, h5⟩ := hfirst X (Y ++ r :: R2) (by simp)
        refine ⟨_, x, tail ++ Y.flatMap Rec.obs ++ o1, ?_, h5, h4, fun hlev => absurd (hsame hlev) hrr⟩
        rw [List.flatMap_append, List.flatMap_cons, h1]
        simp
      · exact absurd (List.mem_singleton.1 hr1) hrr

end Akasa
