import Verif.Proof.Life
import Verif.Props.Deliver
import Verif.Props.Incoming
/-! # What is seen of a session, from its steps -/
namespace Akasa

variable {cfg : Config} {ext : Ext} {w w' : World} {evs e : List Event} {pr : Proto}
  {obs : List Obs} {p : Peer}

theorem resume_received {r : Rec} {c : ConnParams} (h : r.ev = .resume c) : r.received = none := by
  simp [Rec.received, h]

theorem taken_received {r : Rec} {m : NormalMsg} (h : r.taken = some m) : r.received = none := by
  unfold Rec.taken at h
  unfold Rec.received
  cases hev : r.ev <;> rw [hev] at h <;> simp at h ⊢

theorem resume_taken {r : Rec} {c : ConnParams} (h : r.ev = .resume c) : r.taken = none := by
  simp [Rec.taken, h]

theorem sentIn_append (a b : List Obs) : sentIn (a ++ b) = sentIn a ++ sentIn b := by
  simp [sentIn]

theorem takenIn_append (a b : List Obs) : takenIn (a ++ b) = takenIn a ++ takenIn b := by
  simp [takenIn]

theorem filterMap_none {α β γ : Type} (l : List α) (g : α → β) (f : β → Option γ)
    (h : ∀ a, f (g a) = none) : (l.map g).filterMap f = [] := by
  rw [List.filterMap_map]
  exact List.filterMap_eq_nil_iff.2 fun a _ => h a

theorem filterMap_some {α β γ : Type} (l : List α) (g : α → β) (f : β → Option γ) (k : α → γ)
    (h : ∀ a, f (g a) = some (k a)) : (l.map g).filterMap f = l.map k := by
  rw [List.filterMap_map]
  induction l with
  | nil => rfl
  | cons a l ih => simp [h, ih]

theorem sentIn_rec (r : Rec) : sentIn r.obs = r.res.out := by
  unfold Rec.obs
  rw [sentIn_append, sentIn_append, sentIn_append, sentIn_append]
  unfold sentIn
  rw [filterMap_none _ _ _ (fun _ => rfl), filterMap_none _ _ _ (fun _ => rfl),
    filterMap_none _ _ _ (fun _ => rfl), filterMap_some _ Obs.sent _ id (fun _ => rfl)]
  cases r.ev <;> simp

theorem takenIn_rec (r : Rec) : takenIn r.obs = r.taken.toList := by
  unfold Rec.obs
  rw [takenIn_append, takenIn_append, takenIn_append, takenIn_append]
  unfold takenIn
  rw [filterMap_none _ _ _ (fun _ => rfl), filterMap_some _ Obs.took _ id (fun _ => rfl),
    filterMap_none _ _ _ (fun _ => rfl), filterMap_none _ _ _ (fun _ => rfl)]
  cases r.ev <;> simp

theorem sentIn_recs (recs : List Rec) : sentIn (recs.flatMap Rec.obs) =
    recs.flatMap (·.res.out) := by
  induction recs with
  | nil => rfl
  | cons r l ih => rw [List.flatMap_cons, sentIn_append, sentIn_rec, ih, List.flatMap_cons]

theorem takenIn_recs (recs : List Rec) : takenIn (recs.flatMap Rec.obs) =
    recs.filterMap Rec.taken := by
  induction recs with
  | nil => rfl
  | cons r l ih =>
    rw [List.flatMap_cons, takenIn_append, takenIn_rec, ih, List.filterMap_cons]
    cases r.taken <;> rfl

/-! ## The window -/

theorem unansweredIn_recs (recs : List Rec) (c : ConnParams) (b : Bool) :
    unansweredIn (.connected b c :: recs.flatMap Rec.obs) = unanswered recs := by
  unfold unansweredIn unanswered
  rw [List.foldl_cons]
  show (recs.flatMap Rec.obs).foldl Obs.unanswered [] = _
  generalize ([] : List Pid) = l
  induction recs generalizing l with
  | nil => rfl
  | cons r recs ih =>
    rw [List.flatMap_cons, List.foldl_append, List.foldl_cons, ih]
    congr 1
    have hsent : ∀ (out : List OutPkt) (l : List Pid),
        (out.map Obs.sent).foldl Obs.unanswered l = addSent l out := by
      intro out
      induction out with
      | nil => intro l; rfl
      | cons o out ih =>
        intro l
        rw [List.map_cons, List.foldl_cons, ih]
        exact (addSent_append l [o] out).symm
    have hskip : ∀ {α : Type} (xs : List α) (f : α → Obs) (l : List Pid),
        (∀ a, (∃ m, f a = .took m) ∨ ∃ m, f a = .routed m) →
        (xs.map f).foldl Obs.unanswered l = l := by
      intro α xs f l hf
      induction xs with
      | nil => rfl
      | cons a xs ih =>
        rw [List.map_cons, List.foldl_cons]
        rcases hf a with ⟨m, h⟩ | ⟨m, h⟩ <;> rw [h] <;> exact ih
    unfold Rec.obs Rec.unanswered
    rw [List.foldl_append, List.foldl_append, List.foldl_append, List.foldl_append, hsent,
      hskip _ Obs.routed _ (fun _ => .inr ⟨_, rfl⟩), hskip _ Obs.took _ (fun _ => .inl ⟨_, rfl⟩)]
    congr 1
    cases hev : r.ev with
    | resume c => rw [resume_received hev]; rfl
    | packet a n pk =>
      simp only [List.foldl_nil]
      cases hr : r.received with
      | none => rfl
      | some pk => cases pk <;> rfl
    | _ =>
      have : r.received = none := by simp [Rec.received, hev]
      rw [this]; rfl

/-! ## QoS 2 -/

theorem qos2_skip {α : Type} (pid : Pid) (xs : List α) (f : α → Obs) (st : Bool × List SendPub)
    (hf : ∀ a, (∃ m, f a = .took m) ∨ (∃ b c, f a = .connected b c) ∨ ∃ m, f a = .sent m) :
    (xs.map f).foldl (Obs.qos2 pid) st = st := by
  induction xs with
  | nil => rfl
  | cons a xs ih =>
    rw [List.map_cons, List.foldl_cons]
    rcases hf a with ⟨m, h⟩ | ⟨b, c, h⟩ | ⟨m, h⟩ <;> rw [h] <;> exact ih

theorem qos2_routed (pid : Pid) (ms : List SendPub) (st : Bool × List SendPub) :
    (ms.map Obs.routed).foldl (Obs.qos2 pid) st =
      (st.1, if st.1 then st.2 ++ ms else st.2) := by
  induction ms generalizing st with
  | nil => obtain ⟨a, b⟩ := st; simp
  | cons m ms ih =>
    rw [List.map_cons, List.foldl_cons, ih]
    obtain ⟨a, b⟩ := st
    cases a <;> simp [Obs.qos2]

theorem qos2_rec (pid : Pid) (r : Rec) (st : Bool × List SendPub) :
    r.obs.foldl (Obs.qos2 pid) st =
      (r.res.routed.map Obs.routed).foldl (Obs.qos2 pid)
        ((r.received.toList.map Obs.received).foldl (Obs.qos2 pid) st) := by
  unfold Rec.obs
  rw [List.foldl_append, List.foldl_append, List.foldl_append, List.foldl_append,
    qos2_skip pid _ Obs.sent _ (fun _ => .inr (.inr ⟨_, rfl⟩)),
    qos2_skip pid _ Obs.took _ (fun _ => .inl ⟨_, rfl⟩)]
  congr 2
  cases r.ev <;> rfl

theorem qos2_step {r : Rec} (pid : Pid)
    (hs : r.pre.step cfg ext pr r.env r.before r.ev = some (r.post, r.res))
    {st : Bool × List SendPub}
    (h : st.2.length ≤ if (r.pre.session.qos2.get pid).isSome then 1 else 0) :
    (r.obs.foldl (Obs.qos2 pid) st).2.length ≤
      if (r.post.session.qos2.get pid).isSome then 1 else 0 := by
  rw [qos2_rec, qos2_routed]
  have hcase := q2_cases hs
  cases hr : r.received with
  | none =>
    obtain ⟨h1, _, h3, _⟩ := step_idle hs hr
    rw [h1, h3]
    simpa using h
  | some pkt =>
    simp only [Option.toList_some, List.map_cons, List.map_nil, List.foldl_cons, List.foldl_nil]
    have hother : (∀ q, pkt ≠ .publish q) → (∀ q, pkt ≠ .pubrel q) →
        r.post.session.qos2 = r.pre.session.qos2 := by
      intro hp hl
      have hnone := publish?_none hr hp
      cases hcase with
      | same ha hr hq hn => exact hq
      | repeated q pid' hp => rw [hnone] at hp; cases hp
      | lostFirst q pid' hp => rw [hnone] at hp; cases hp
      | route q pid' m hp => rw [hnone] at hp; cases hp
      | release pid' hp => rw [hr] at hp; cases hp; exact absurd rfl (hl _)
    cases pkt with
    | publish q =>
      have hpub := publish?_of hr
      by_cases hlev : q.qosPid = .level2 pid
      · simp only [Obs.qos2, hlev, decide_true, if_true, List.length_append]
        have hq2 := qos2Pid_of hpub hlev
        cases hcase with
        | same ha hr hq hn => rw [hn _ hq2, hq]; simpa using h
        | repeated q' pid' hp hl hd hg hq hn ha => rw [hn, hq]; simpa using h
        | lostFirst q' pid' hp hl hd hg hq hn ha hlen =>
          rw [hpub] at hp
          cases hp
          rw [hlev] at hl
          cases hl
          rw [hg] at h
          rw [hn, hq, FMap.get_insert_self]
          simp at h
          simp [h]
        | route q' pid' m hp hl hd hg hq hn hm ha hlen =>
          rw [hpub] at hp
          cases hp
          rw [hlev] at hl
          cases hl
          rw [hg] at h
          rw [hn, hq, FMap.get_insert_self]
          simp at h
          simp [h]
        | release pid' hp => rw [hr] at hp; cases hp
      · simp only [Obs.qos2, hlev, decide_false, Bool.false_eq_true, if_false]
        have hins : ∀ pid' v, q.qosPid = .level2 pid' →
            r.post.session.qos2 = r.pre.session.qos2.insert pid' v →
            r.post.session.qos2.get pid = r.pre.session.qos2.get pid := by
          intro pid' v hl hq
          rw [hq, FMap.get_insert_ne]
          intro hh
          subst hh
          exact hlev hl
        cases hcase with
        | same ha hr hq hn => rw [hq]; exact h
        | repeated q' pid' hp hl hd hg hq hn ha => rw [hq]; exact h
        | lostFirst q' pid' hp hl hd hg hq hn ha hlen =>
          rw [hpub] at hp
          cases hp
          rw [hins _ _ hl hq]; exact h
        | route q' pid' m hp hl hd hg hq hn hm ha hlen =>
          rw [hpub] at hp
          cases hp
          rw [hins _ _ hl hq]; exact h
        | release pid' hp => rw [hr] at hp; cases hp
    | pubrel q =>
      simp only [Obs.qos2, Bool.false_eq_true, if_false]
      by_cases hq' : q = pid
      · rw [if_pos hq']; simp
      · rw [if_neg hq']
        have hnone := publish?_none hr (fun _ hh => by cases hh)
        cases hcase with
        | same ha hr hq hn => rw [hq]; exact h
        | repeated q pid' hp => rw [hnone] at hp; cases hp
        | lostFirst q pid' hp => rw [hnone] at hp; cases hp
        | route q pid' m hp => rw [hnone] at hp; cases hp
        | release pid' hp ha hr' hq hn =>
          rw [hr] at hp
          cases hp
          rw [hq, FMap.get_erase_ne _ hq']
          exact h
    | _ =>
      rw [hother (fun _ hh => by cases hh) (fun _ hh => by cases hh)]
      simp only [Obs.qos2, Bool.false_eq_true, if_false]
      exact h

theorem sinceReleased_run {p : Peer} {recs : List Rec} (h : IsRun cfg ext pr p recs) (pid : Pid)
    {st : Bool × List SendPub}
    (hst : st.2.length ≤ if (p.session.qos2.get pid).isSome then 1 else 0) :
    ((recs.flatMap Rec.obs).foldl (Obs.qos2 pid) st).2.length ≤ 1 := by
  induction recs generalizing p st with
  | nil =>
    refine Nat.le_trans hst ?_
    split <;> omega
  | cons r recs ih =>
    obtain ⟨rfl, h1, h2⟩ := h
    rw [List.flatMap_cons, List.foldl_append]
    exact ih h2 (qos2_step pid h1 hst)

/-! ## Where the packets come from -/

theorem Along.map_left {α β γ : Type} {R : α → β → Prop} {f : γ → α} {as : List γ} {bs : List β}
    (h : Along R (as.map f) bs) : Along (fun a b => R (f a) b) as bs := by
  induction as generalizing bs with
  | nil => cases h; exact .nil
  | cons a as ih =>
    cases h with
    | cons h1 h2 => exact .cons h1 (ih h2)

theorem Along.map {α β γ : Type} {R : γ → β → Prop} {f : α → γ} {as : List α} {bs : List β}
    (h : Along (fun a b => R (f a) b) as bs) : Along R (as.map f) bs := by
  induction h with
  | nil => exact .nil
  | cons h1 _ ih => exact .cons h1 ih

theorem Along.imp {α β : Type} {R S : α → β → Prop} {as : List α} {bs : List β}
    (h : Along R as bs) (hi : ∀ a b, a ∈ as → R a b → S a b) : Along S as bs := by
  induction h with
  | nil => exact .nil
  | cons h1 _ ih =>
    exact .cons (hi _ _ (List.mem_cons_self ..) h1)
      (ih fun a b ha => hi a b (List.mem_cons_of_mem _ ha))

theorem qosPid_qos (p : PubPacket) (pid : Pid) : (p.qosPid pid).qos = p.qos := by
  obtain ⟨_, q, _, _, _⟩ := p
  match q with
  | 0 => rfl
  | 1 => rfl
  | 2 => rfl

theorem along_firstSent {xs : List (Sent PubPacket)} {os : List OutPkt}
    (h : CarriesAll .v3 xs os) (ho : ∀ o ∈ os, o.isFirst = true) :
    Along (fun (p : PubPacket) o => ∃ w, o = .publish w ∧ w.topic = p.topic ∧
      w.payload = p.payload ∧ w.retain = p.retain ∧ w.qosPid.qos = p.qos) (firstSent xs) os := by
  induction h with
  | nil => exact .nil
  | @cons x o xs os h1 _ ih =>
    have ih := ih fun o' ho' => ho o' (List.mem_cons_of_mem _ ho')
    have hfirst := ho o (List.mem_cons_self ..)
    cases o with
    | publish w =>
      cases x with
      | publish pid p dup expiry =>
        obtain ⟨h1, h2, h3, h4, h5, h6⟩ := h1
        simp only [OutPkt.isFirst, Bool.and_eq_true, Bool.not_eq_true'] at hfirst
        rw [hfirst.1] at h1
        subst h1
        refine .cons ⟨w, rfl, h5, h4, h3, ?_⟩ ih
        rw [h2]
        exact qosPid_qos p pid
      | pubrel pid => cases h1
    | _ => simp [OutPkt.isFirst] at hfirst

/-- The messages due in a step, with the message taken in that step. -/
def Rec.tagged (cfg : Config) (pr : Proto) (r : Rec) : List (Option NormalMsg × PubPacket) :=
  (r.messages cfg pr).map fun p => (r.taken, p)

theorem tagged_snd (recs : List Rec) : (recs.flatMap (Rec.tagged cfg pr)).map Prod.snd =
    recs.flatMap (Rec.messages cfg pr) := by
  induction recs with
  | nil => rfl
  | cons r recs ih =>
    rw [List.flatMap_cons, List.map_append, ih, List.flatMap_cons]
    simp [Rec.tagged, Function.comp_def]

theorem messages_taken {r : Rec} {m : NormalMsg} (h : r.taken = some m) :
    (r.messages cfg pr).length ≤ 1 := by
  unfold Rec.taken at h
  unfold Rec.messages Rec.inputs
  cases hev : r.ev with
  | normal m' =>
    simp only
    split
    · cases dueOf cfg pr r.pre.session m' <;> simp [Input.message?]
    · simp
  | offline m' =>
    simp only
    split
    · simp
    · cases (dueOf cfg pr r.pre.session m').filter fun p => decide (p.qos ≠ 0) <;>
        simp [Input.message?]
  | _ => rw [hev] at h; simp at h

theorem tagged_fst (recs : List Rec) :
    ((recs.flatMap (Rec.tagged cfg pr)).filterMap Prod.fst).Sublist
      (recs.filterMap Rec.taken) := by
  induction recs with
  | nil => exact List.Sublist.refl _
  | cons r recs ih =>
    rw [List.flatMap_cons, List.filterMap_append, List.filterMap_cons]
    cases ht : r.taken with
    | none =>
      have : (r.tagged cfg pr).filterMap Prod.fst = [] := by
        rw [List.filterMap_eq_nil_iff]
        intro a ha
        simp only [Rec.tagged, List.mem_map] at ha
        obtain ⟨p, _, rfl⟩ := ha
        exact ht
      rw [this]
      exact ih
    | some m =>
      have hlen := messages_taken (cfg := cfg) (pr := pr) ht
      have : (r.tagged cfg pr).filterMap Prod.fst = (r.messages cfg pr).map fun _ => m := by
        unfold Rec.tagged
        exact filterMap_some _ (fun p => (r.taken, p)) Prod.fst (fun _ => m) (fun _ => ht)
      rw [this]
      simp only
      cases hm : r.messages cfg pr with
      | nil => exact ih.cons _
      | cons a l =>
        rw [hm] at hlen
        cases l with
        | nil => exact ih.cons_cons _
        | cons b l => simp at hlen

theorem retainedDueV3_retain {g : Global} {topics : List (Str × SubOpts)} {p : PubPacket}
    (h : p ∈ retainedDueV3 cfg g topics) : p.retain = true := by
  induction topics with
  | nil => cases h
  | cons a topics ih =>
    obtain ⟨F, o⟩ := a
    rw [retainedDueV3] at h
    split at h
    · rw [List.mem_append] at h
      rcases h with h | h
      · rw [List.mem_filterMap] at h
        obtain ⟨c, _, h⟩ := h
        unfold retainedCopyV3 at h
        split at h
        · cases h
        · cases h; rfl
      · exact ih h
    · cases h

theorem dueV3_parts {s : Session} {m : NormalMsg} {p : PubPacket} (h : dueV3 s m = some p) :
    p.topic = m.topic ∧ p.payload = m.payload ∧ p.retain = m.retain ∧
      p.qos = min m.qos m.granted := by
  unfold dueV3 at h
  split at h
  · cases h
  · split at h
    · cases h
    · cases h; exact ⟨rfl, rfl, rfl, rfl⟩

/-- The message due to an MQTT 3 client is this one. -/
def SourceOf : Option NormalMsg → PubPacket → Prop
  | none, p => p.retain = true
  | some m, p => p.topic = m.topic ∧ p.payload = m.payload ∧ p.retain = m.retain ∧
      p.qos = min m.qos m.granted

theorem tagged_of {recs : List Rec} {o : Option NormalMsg} {p : PubPacket}
    (h : (o, p) ∈ recs.flatMap (Rec.tagged cfg .v3)) : SourceOf o p := by
  rw [List.mem_flatMap] at h
  obtain ⟨r, _, hr⟩ := h
  simp only [Rec.tagged, List.mem_map, Prod.mk.injEq] at hr
  obtain ⟨q, hq, rfl, rfl⟩ := hr
  simp only [Rec.messages, List.mem_filterMap] at hq
  obtain ⟨i, hi, hm⟩ := hq
  have hi' : i = .message q := by
    cases i <;> simp [Input.message?] at hm
    rw [hm]
  subst hi'
  unfold Rec.inputs at hi
  unfold Rec.taken
  cases hev : r.ev with
  | packet a n pk =>
    rw [hev] at hi
    simp only at hi ⊢
    split at hi
    · cases pk <;> simp [InPkt.inputs] at hi
      exact retainedDueV3_retain hi
    · cases hi
  | normal m =>
    rw [hev] at hi
    simp only at hi ⊢
    split at hi
    · rename_i hc
      rw [if_pos hc]
      simp [dueOf] at hi
      exact dueV3_parts hi
    · cases hi
  | offline m =>
    rw [hev] at hi
    simp only at hi ⊢
    split at hi
    · cases hi
    · rename_i hc
      rw [if_neg hc]
      simp [dueOf] at hi
      exact dueV3_parts hi.1
  | passed => rw [hev] at hi; cases hi
  | lost => rw [hev] at hi; cases hi
  | resume => rw [hev] at hi; simp at hi

/-- The messages taken on these connections, with the tasks that sent them. -/
def takes (chain : Chain) (evs : List Event) : List (TaskId × NormalMsg) :=
  evs.filterMap fun e =>
    match e with
    | .took t _ src m => if (chain.get t).isSome then some (src, m) else none
    | _ => none

theorem takenIn_obsOf (chain : Chain) (evs : List Event) :
    takenIn (obsOf chain evs) = (takes chain evs).map Prod.snd := by
  induction evs with
  | nil => rfl
  | cons e evs ih =>
    have he : obsOf chain (e :: evs) = Event.obs chain e ++ obsOf chain evs := rfl
    have ht : takes chain (e :: evs) = takes chain [e] ++ takes chain evs := by
      unfold takes
      rw [← List.filterMap_append]
      rfl
    rw [he, takenIn_append, ih, ht, List.map_append]
    congr 1
    have hn : ∀ {α : Type} (l : List α) (f : α → Obs), (∀ a m, f a ≠ .took m) →
        takenIn (l.map f) = [] := by
      intro α l f hf
      refine filterMap_none _ _ _ fun a => ?_
      have := hf a
      cases hfa : f a <;> simp [hfa] at this ⊢
    cases e with
    | took t d src m =>
      cases hc : chain.get t with
      | none => simp [Event.obs, Event.task, takes, takenIn, hc]
      | some c => simp [Event.obs, Event.task, takes, takenIn, hc]
    | routed t ms =>
      unfold Event.obs
      split
      · rfl
      · exact hn _ _ (fun _ _ h => by cases h)
    | sent t ms =>
      unfold Event.obs
      split
      · rfl
      · exact hn _ _ (fun _ _ h => by cases h)
    | _ =>
      unfold Event.obs
      split <;> rfl

theorem takes_from {chain : Chain} {id : ClientId} (h : TookAs chain evs id) (u : TaskId) :
    ((takes chain evs).filterMap fun e => if e.1 = u then some e.2 else none).Sublist
      (tookFrom u id evs) := by
  induction evs with
  | nil => exact List.Sublist.refl _
  | cons e evs ih =>
    have ih := ih fun t d src m hm => h t d src m (List.mem_cons_of_mem _ hm)
    unfold takes tookFrom at ih ⊢
    rw [List.filterMap_cons, List.filterMap_cons]
    cases e with
    | took t d src m =>
      simp only
      cases hc : chain.get t with
      | none =>
        simp only [Option.isSome_none, Bool.false_eq_true, if_false]
        split
        · exact ih
        · exact ih.cons _
      | some c =>
        have hd := h t d src m (List.mem_cons_self ..) (by rw [hc]; simp)
        subst hd
        simp only [Option.isSome_some, if_true, List.filterMap_cons, true_and]
        by_cases hsrc : src = u
        · simp only [hsrc, if_true]
          exact ih.cons_cons _
        · simp only [hsrc, if_false]
          exact ih
    | _ => exact ih

/-- Give the messages the tasks that sent them. -/
def attach : List (Option NormalMsg) → List (TaskId × NormalMsg) → List Origin
  | [], _ => []
  | none :: l, tk => none :: attach l tk
  | some _ :: l, e :: tk => some e :: attach l tk
  | some _ :: _, [] => []

theorem attach_spec (l : List (Option NormalMsg)) (tk : List (TaskId × NormalMsg))
    (h : l.filterMap id = tk.map Prod.snd) :
    (attach l tk).map (Option.map Prod.snd) = l ∧ (attach l tk).filterMap id = tk := by
  induction l generalizing tk with
  | nil =>
    cases tk with
    | nil => exact ⟨rfl, rfl⟩
    | cons a tk => simp at h
  | cons o l ih =>
    cases o with
    | none =>
      obtain ⟨h1, h2⟩ := ih tk (by simpa using h)
      exact ⟨by simp [attach, h1], by simp [attach, h2]⟩
    | some m =>
      cases tk with
      | nil => simp at h
      | cons e tk =>
        simp at h
        obtain ⟨h1, h2⟩ := ih tk (by simpa using h.2)
        exact ⟨by simp [attach, h1, h.1], by simp [attach, h2]⟩

theorem lives_order {chain : Chain} {d : ClientId} (hl : Lives cfg ext .v3 (obsOf chain evs) p)
    (ht : TookAs chain evs d) :
    ∃ src, Along ComesFrom src ((sentIn (obsOf chain evs)).filter OutPkt.isFirst) ∧
      ∀ u, (copiesOf u src).Sublist (tookFrom u d evs) := by
  obtain ⟨i, id', c, sevs, recs, h1, h2, _⟩ := hl
  have hsent : sentIn (obsOf chain evs) = recs.flatMap (·.res.out) := by
    rw [h2]
    exact sentIn_recs recs
  have htaken : recs.filterMap Rec.taken = (takes chain evs).map Prod.snd := by
    rw [← takenIn_obsOf, h2]
    exact (takenIn_recs recs).symm
  obtain ⟨xs, hx1, hx2⟩ := C57_fifo_v3 h1
  have hx2 := hx2.trans List.filter_sublist
  rw [← tagged_snd, List.sublist_map_iff] at hx2
  obtain ⟨tl, htl, hfirst⟩ := hx2
  have hal := along_firstSent hx1 (fun o ho => (List.mem_filter.1 ho).2)
  rw [hfirst] at hal
  have hal := hal.map_left
  have hsub := (htl.filterMap Prod.fst).trans (tagged_fst recs)
  rw [htaken, List.sublist_map_iff] at hsub
  obtain ⟨tk, htk, hfst⟩ := hsub
  obtain ⟨ha1, ha2⟩ := attach_spec (tl.map Prod.fst) tk (by rw [List.filterMap_map]; exact hfst)
  refine ⟨attach (tl.map Prod.fst) tk, ?_, fun u => ?_⟩
  · rw [hsent]
    have key : Along (fun (o : Option NormalMsg) (q : OutPkt) => ∃ w, q = .publish w ∧
        match o with
        | none => w.retain = true
        | some m => w.topic = m.topic ∧ w.payload = m.payload ∧ w.retain = m.retain ∧
          w.qosPid.qos = min m.qos m.granted) (tl.map Prod.fst)
        ((recs.flatMap (·.res.out)).filter OutPkt.isFirst) := by
      refine Along.map (hal.imp fun a b ha h => ?_)
      obtain ⟨w, rfl, e1, e2, e3, e4⟩ := h
      refine ⟨w, rfl, ?_⟩
      obtain ⟨o, q⟩ := a
      have := tagged_of (htl.mem ha)
      cases o with
      | none => rw [e3]; exact this
      | some m => rw [e1, e2, e3, e4]; exact this
    rw [← ha1] at key
    refine key.map_left.imp fun o b _ h => ?_
    obtain ⟨w, rfl, h⟩ := h
    cases o with
    | none => exact h
    | some e => exact h
  · refine List.Sublist.trans ?_ (takes_from ht u)
    have : copiesOf u (attach (tl.map Prod.fst) tk) =
        ((attach (tl.map Prod.fst) tk).filterMap id).filterMap
          fun e => if e.1 = u then some e.2 else none := by
      unfold copiesOf
      rw [List.filterMap_filterMap]
      rfl
    rw [this, ha2]
    exact htk.filterMap _

/-! ## The present session of a client identifier -/

theorem sinceNew_rest (l rest : List Obs) (h : ∀ o ∈ rest, ∀ c, o ≠ .connected false c) :
    rest.foldl Obs.since l = l ++ rest := by
  induction rest generalizing l with
  | nil => simp
  | cons o rest ih =>
    have : Obs.since l o = l ++ [o] := by
      unfold Obs.since
      split
      · rename_i c; exact absurd rfl (h _ (List.mem_cons_self ..) c)
      · rfl
    rw [List.foldl_cons, this, ih _ fun o' ho' => h o' (List.mem_cons_of_mem _ ho')]
    simp

theorem obs_not_new (r : Rec) : ∀ o ∈ r.obs, ∀ c, o ≠ .connected false c := by
  rintro o ho c rfl
  unfold Rec.obs at ho
  rw [List.mem_append, List.mem_append, List.mem_append, List.mem_append] at ho
  rcases ho with ho | ho | ho | ho | ho
  · cases hev : r.ev <;> rw [hev] at ho <;> simp at ho
  all_goals
    rw [List.mem_map] at ho
    obtain ⟨_, _, ho⟩ := ho
    cases ho

theorem Lives.sinceNew (h : Lives cfg ext pr obs p) (past : List Obs) :
    sinceNew (past ++ obs) = obs := by
  obtain ⟨i, id, c, sevs, recs, _, rfl, _⟩ := h
  unfold Akasa.sinceNew
  rw [List.foldl_append, List.foldl_cons]
  show (recs.flatMap Rec.obs).foldl _ [Obs.connected false c] = _
  rw [sinceNew_rest]
  · rfl
  · intro o ho
    rw [List.mem_flatMap] at ho
    obtain ⟨r, _, ho⟩ := ho
    exact obs_not_new r o ho

theorem lifeOf_chain {i : Str} {chain : Chain} (hl : Lives cfg ext pr (obsOf chain evs) p)
    (hp : Part w i chain evs) : lifeOf w i evs = obsOf chain evs := by
  obtain ⟨past, h⟩ := hp
  unfold lifeOf
  rw [h]
  exact hl.sinceNew past

end Akasa
