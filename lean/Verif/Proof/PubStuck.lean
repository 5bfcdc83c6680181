import Verif.Proof.PubRun
/-! # A message with QoS 2 that is never completed (MQTT 3) -/
namespace Akasa

variable {cfg : Config} {ext : Ext} {pr : Proto} {good : Prop} {live : Bool} {k : Pid}
variable {q2 : FMap Pid Nat} {r : Publisher}

/-- The client waits for PUBCOMP, and the session does not know the packet identifier. -/
structure Stuck (k : Pid) (p : Publish) (q2 : FMap Pid Nat) (r : Publisher) : Prop where
  unknown : q2.get k = none
  level : p.qosPid = .level2 k
  waiting : r.waiting.filter (onPid k) = [(p, true)]
  down : r.down.filter (OutPkt.on k) = []
  up : ∀ x ∈ r.up, x.on k = true → x = .pubrel k

theorem stuck_settles {p : Publish} : Settles (Stuck k p q2) where
  arrive := by
    intro r o rest hd h
    have hdown := h.down
    rw [hd, List.filter_eq_nil_iff] at hdown
    have hrest : rest.filter (OutPkt.on k) = [] := by
      rw [List.filter_eq_nil_iff]
      exact fun a ha => hdown a (List.mem_cons_of_mem _ ha)
    have ho := hdown o (List.mem_cons_self ..)
    cases o with
    | puback j c =>
      have hj : k ≠ j := fun e => ho (by simp [OutPkt.on, e])
      exact ⟨h.unknown, h.level, (filter_ne_level (l := .level1 j) rfl hj).trans h.waiting, hrest, h.up⟩
    | pubcomp j c =>
      have hj : k ≠ j := fun e => ho (by simp [OutPkt.on, e])
      exact ⟨h.unknown, h.level, (filter_ne_level (l := .level2 j) rfl hj).trans h.waiting, hrest, h.up⟩
    | pubrec j c =>
      have hj : k ≠ j := fun e => ho (by simp [OutPkt.on, e])
      simp only [Publisher.arrive]
      split
      · refine ⟨h.unknown, h.level, ?_, hrest, ?_⟩
        · simp only
          rw [filter_mark, h.waiting]
          simp
        · intro x hx hxk
          rcases List.mem_append.1 hx with hx | hx
          · exact h.up x hx hxk
          · rw [List.mem_singleton.1 hx] at hxk
            simp only [InPkt.on, decide_eq_true_eq] at hxk
            exact absurd hxk.symm hj
      · exact ⟨h.unknown, h.level, (filter_ne_level (l := .level2 j) rfl hj).trans h.waiting, hrest,
          h.up⟩
    | _ => exact ⟨h.unknown, h.level, h.waiting, hrest, h.up⟩
  hand := by
    intro r q j hp hd hu h
    have hne : q.qosPid.pid? ≠ some k := by
      intro e
      rw [e] at hp
      cases hp
      have hm : (p, true) ∈ r.waiting.filter (onPid k) := by rw [h.waiting]; simp
      exact hu _ (List.mem_filter.1 hm).1 (by rw [h.level]; rfl)
    refine ⟨h.unknown, h.level, ?_, h.down, ?_⟩
    · simp only [Publisher.hand, List.filter_append]
      rw [h.waiting, List.filter_cons_of_neg (by simp [onPid, hne])]
      rfl
    · intro x hx hxk
      rcases List.mem_append.1 hx with hx | hx
      · exact h.up x hx hxk
      · rw [List.mem_singleton.1 hx] at hxk
        simp only [InPkt.on, decide_eq_true_eq] at hxk
        exact absurd hxk hne

/-- Other packet identifiers do not matter. -/
theorem reads_else {rec : Rec} (hr : Reads ext pr rec) {x : InPkt} (hx : rec.received = some x)
    (hpx : x.publishes = true) (hk : x.on k = false) :
    rec.post.session.qos2.get k = rec.pre.session.qos2.get k ∧
      rec.res.out.filter (OutPkt.on k) = [] := by
  rw [filter_on]
  have on2 : ∀ {p : Publish} {j : Pid}, p.qosPid.pid? = some j → x = .publish p → j ≠ k := by
    rintro p j hp rfl e
    subst e
    rw [(on_publish hp).1] at hk
    cases hk
  cases hr with
  | resume c he => exact absurd he (received_resume hx c)
  | other he hx' => rw [hx' x hx] at hpx; cases hpx
  | reject x' hx' hp hq ha hr ht => rw [ha, hq]; exact ⟨rfl, rfl⟩
  | one p j code m hx' hp hq ha hr hm =>
    rw [hx] at hx'
    have := on2 (by rw [hp]; rfl) (Option.some.inj hx')
    rw [ha, hq]
    exact ⟨rfl, by simp [OutPkt.on, this]⟩
  | inUse p j prev hpr hx' hp hg hne hq ha hr =>
    rw [hx] at hx'
    have := on2 (by rw [hp]; rfl) (Option.some.inj hx')
    rw [ha, hq]
    exact ⟨rfl, by simp [OutPkt.on, this]⟩
  | repeated p j hx' hp hd hg hq ha hr =>
    rw [hx] at hx'
    have := on2 (by rw [hp]; rfl) (Option.some.inj hx')
    rw [ha, hq]
    exact ⟨rfl, by simp [OutPkt.on, this]⟩
  | late p j hx' hp hd hg hq ha hr =>
    rw [hx] at hx'
    have := on2 (by rw [hp]; rfl) (Option.some.inj hx')
    rw [ha, hq, FMap.get_insert_ne _ _ this]
    exact ⟨rfl, by simp [OutPkt.on, this]⟩
  | two p j code m hx' hp hd hg hq ha hc hr hm =>
    rw [hx] at hx'
    have := on2 (by rw [hp]; rfl) (Option.some.inj hx')
    rw [ha, hq, FMap.get_insert_ne _ _ this]
    exact ⟨rfl, by simp [OutPkt.on, this]⟩
  | release j code hx' hv hq ha hr =>
    rw [hx] at hx'
    cases hx'
    have : j ≠ k := fun e => by simp [InPkt.on, e] at hk
    rw [ha, hq, FMap.get_erase_ne _ this]
    exact ⟨rfl, by simp [OutPkt.on, this]⟩

/-- PUBREL with a packet identifier that the session does not know (MQTT 3). -/
theorem reads_unknown {rec : Rec} (hr : Reads ext .v3 rec) (hx : rec.received = some (.pubrel k))
    (hk : rec.pre.session.qos2.get k = none) :
    rec.post.session.qos2 = rec.pre.session.qos2 ∧ rec.res.out.filter OutPkt.isAck = [] ∧
      rec.post.talking = false := by
  cases hr with
  | resume c he => exact absurd he (received_resume hx c)
  | other he hx' => have := hx' _ hx; cases this
  | reject x' hx' hp hq ha hr ht => exact ⟨hq, ha, ht⟩
  | one p j code m hx' => rw [hx] at hx'; cases hx'
  | inUse p j prev hpr => cases hpr
  | repeated p j hx' => rw [hx] at hx'; cases hx'
  | late p j hx' => rw [hx] at hx'; cases hx'
  | two p j code m hx' => rw [hx] at hx'; cases hx'
  | release j code hx' hv =>
    rw [hx] at hx'
    cases hx'
    have := hv rfl
    rw [hk] at this
    cases this

theorem stuck_after {p : Publish} {rec : Rec} (hr : Reads ext .v3 rec) {r' : Publisher}
    (h : Stuck k p rec.pre.session.qos2 r) (ha : PubAfter rec r r') :
    Stuck k p rec.post.session.qos2 r' := by
  cases ha with
  | resume c he =>
    cases hr with
    | resume c' he' hq ha hr =>
      rw [hq]
      refine ⟨h.unknown, h.level, h.waiting, by simp only; rw [filter_on, ha]; rfl, ?_⟩
      intro x hx hxk
      have : x ∈ (r.waiting.map sentAgain).filter (InPkt.on k) := List.mem_filter.2 ⟨hx, hxk⟩
      rw [filter_sentAgain, h.waiting, List.map_singleton, sentAgain_true h.level] at this
      exact List.mem_singleton.1 this
    | other he' => exact absurd he (he' c)
    | reject x hx => exact absurd he (received_resume hx c)
    | one p k code m hx => exact absurd he (received_resume hx c)
    | inUse p k prev hpr hx => exact absurd he (received_resume hx c)
    | repeated p k hx => exact absurd he (received_resume hx c)
    | late p k hx => exact absurd he (received_resume hx c)
    | two p k code m hx => exact absurd he (received_resume hx c)
    | release k code hx => exact absurd he (received_resume hx c)
  | read x rest hx hp hup =>
    have hup' : ∀ y ∈ rest, y.on k = true → y = .pubrel k := fun y hy =>
      h.up y (by rw [hup]; exact List.mem_cons_of_mem _ hy)
    cases hk : x.on k with
    | false =>
      obtain ⟨k1, k2⟩ := reads_else hr hx hp hk
      refine ⟨k1.trans h.unknown, h.level, h.waiting, ?_, hup'⟩
      simp only
      rw [List.filter_append, h.down, k2]; rfl
    | true =>
      obtain rfl := h.up x (by rw [hup]; simp) hk
      obtain ⟨k1, k2, _⟩ := reads_unknown hr hx h.unknown
      refine ⟨by rw [k1]; exact h.unknown, h.level, h.waiting, ?_, hup'⟩
      simp only
      rw [List.filter_append, h.down, filter_on, k2]; rfl
  | other he hx =>
    cases hr with
    | resume c' he' => exact absurd he' (he c')
    | other _ _ hq ha hr ht =>
      rw [hq]
      refine ⟨h.unknown, h.level, h.waiting, ?_, h.up⟩
      simp only
      rw [List.filter_append, h.down, filter_on, ha]; rfl
    | reject x hx' hp => rw [hx x hx'] at hp; cases hp
    | one p k code m hx' hp => have := hx _ hx'; simp [InPkt.publishes, hp] at this
    | inUse p k prev hpr hx' hp => have := hx _ hx'; simp [InPkt.publishes, hp] at this
    | repeated p k hx' hp => have := hx _ hx'; simp [InPkt.publishes, hp] at this
    | late p k hx' hp => have := hx _ hx'; simp [InPkt.publishes, hp] at this
    | two p k code m hx' hp => have := hx _ hx'; simp [InPkt.publishes, hp] at this
    | release k code hx' => have := hx _ hx'; cases this

theorem stuck_run {q : Publish} {p : Peer} {recs : List Rec} (hrun : IsRun cfg ext .v3 p recs)
    {r' : Publisher} (h : Stuck k q p.session.qos2 r)
    (hm : Publisher.Moves r (recs.flatMap Rec.obs) r') :
    Stuck k q (endOf p recs).session.qos2 r' ∧
      ∀ rec ∈ recs, rec.received = some (.pubrel k) → rec.post.talking = false := by
  induction recs generalizing p r with
  | nil => exact ⟨stuck_settles.still hm h, (fun rec h => by cases h)⟩
  | cons rec recs ih =>
    obtain ⟨rfl, h1, h2⟩ := hrun
    rw [List.flatMap_cons] at hm
    obtain ⟨r1, m1, m2⟩ := pub_moves_append hm
    obtain ⟨k1, k2⟩ := ih h2 (stuck_settles.step stuck_settles m1 h fun _ _ k1 k2 =>
      stuck_after (reads h1) k1 k2) m2
    refine ⟨k1, fun rec' hr hx => ?_⟩
    rcases List.mem_cons.1 hr with rfl | hr
    · exact (reads_unknown (reads h1) hx h.unknown).2.2
    · exact k2 rec' hr hx

/-- A connection that is accepted later. -/
theorem split_connected {recs : List Rec} {obs1 obs2 : List Obs} {c : ConnParams}
    (h : recs.flatMap Rec.obs = obs1 ++ .connected true c :: obs2) :
    ∃ recs1 rec recs2, recs = recs1 ++ rec :: recs2 ∧ obs1 = recs1.flatMap Rec.obs ∧
      rec.ev = .resume c ∧ obs2 = rec.rest ++ recs2.flatMap Rec.obs := by
  induction recs generalizing obs1 with
  | nil => cases obs1 <;> cases h
  | cons rec recs ih =>
    rw [List.flatMap_cons] at h
    have hin : ∀ a b : List Obs, (∀ o ∈ a, ∀ c', o ≠ .connected true c') →
        a ++ b = obs1 ++ .connected true c :: obs2 →
        ∃ obs, obs1 = a ++ obs ∧ b = obs ++ .connected true c :: obs2 := by
      intro a b ha he
      rcases List.append_eq_append_iff.1 he with ⟨l, h1, h2⟩ | ⟨l, h1, h2⟩
      · exact ⟨l, h1, h2⟩
      · cases l with
        | nil => exact ⟨[], by rw [h1]; simp, h2.symm⟩
        | cons o l =>
          rw [List.cons_append, List.cons.injEq] at h2
          exact absurd h2.1.symm (ha o (by rw [h1]; simp) c)
    have hplain : ∀ o ∈ rec.rest, ∀ c', o ≠ .connected true c' := by
      intro o ho c' e
      have := rest_plain rec o ho
      rw [e] at this
      cases this
    have hrec : ∀ obs, obs1 = rec.obs ++ obs → recs.flatMap Rec.obs = obs ++ .connected true c :: obs2 →
        ∃ recs1 rec' recs2, rec :: recs = recs1 ++ rec' :: recs2 ∧ obs1 = recs1.flatMap Rec.obs ∧
          rec'.ev = .resume c ∧ obs2 = rec'.rest ++ recs2.flatMap Rec.obs := by
      intro obs h1 h2
      obtain ⟨recs1, rec', recs2, k1, k2, k3, k4⟩ := ih h2
      exact ⟨rec :: recs1, rec', recs2, by rw [k1]; rfl, by rw [h1, k2, List.flatMap_cons], k3, k4⟩
    by_cases he : ∃ c', rec.ev = .resume c'
    · obtain ⟨c', he⟩ := he
      rw [obs_resume he] at h
      cases obs1 with
      | nil =>
        rw [List.cons_append, List.nil_append, List.cons.injEq] at h
        obtain ⟨h1, h2⟩ := h
        cases h1
        exact ⟨[], rec, recs, rfl, rfl, he, h2.symm⟩
      | cons o obs1 =>
        rw [List.cons_append, List.cons_append, List.cons.injEq] at h
        obtain ⟨rfl, h2⟩ := h
        rcases List.append_eq_append_iff.1 h2 with ⟨l, k1, k2⟩ | ⟨l, k1, k2⟩
        · exact hrec l (by rw [obs_resume he, k1]; rfl) k2
        · cases l with
          | nil => exact hrec [] (by rw [obs_resume he, k1]; simp) k2.symm
          | cons o l =>
            rw [List.cons_append, List.cons.injEq] at k2
            exact absurd k2.1.symm (hplain o (by rw [k1]; simp) c)
    · have he : ∀ c', rec.ev ≠ .resume c' := fun c hc => he ⟨c, hc⟩
      have hobs : ∀ o ∈ rec.obs, ∀ c', o ≠ .connected true c' := by
        cases hx : rec.received with
        | none => rw [obs_idle hx he]; exact hplain
        | some x =>
          rw [obs_reads hx]
          intro o ho c' e
          rcases List.mem_cons.1 ho with rfl | ho
          · cases e
          · exact hplain o ho c' e
      obtain ⟨obs, k1, k2⟩ := hin _ _ hobs h
      exact hrec obs k1 k2

/-- PUBCOMP is on its way: the client waits for it, and the session has forgotten the identifier. -/
theorem stuck_of_lost (h : Lines ext pr good live q2 r) {code : Reason}
    (hc : .pubcomp k code ∈ r.down) :
    ∃ p, p.qosPid = .level2 k ∧ r.waiting.filter (onPid k) = [(p, true)] ∧ q2.get k = none := by
  have hk := h k
  have hm : OutPkt.pubcomp k code ∈ r.down.filter (OutPkt.on k) :=
    List.mem_filter.2 ⟨hc, by simp [OutPkt.on]⟩
  generalize r.waiting.filter (onPid k) = w at hk ⊢
  generalize r.up.filter (InPkt.on k) = u at hk
  generalize r.down.filter (OutPkt.on k) = d at hk hm
  generalize q2.get k = q at hk ⊢
  cases hk with
  | free hq => cases hm
  | quiet hp hb hl hq => cases hm
  | pub hp hq hd => cases hm
  | ack hp hq => cases List.mem_singleton.1 hm
  | recd hp hq hc => cases List.mem_singleton.1 hm
  | rel hp hq => cases hm
  | comp hp hq => exact ⟨_, hp, rfl, hq⟩

/-! ## Repetitions that are not recognized -/

/-- The packet is not about this packet identifier. -/
theorem keeps_known {p : Peer} {recs : List Rec} (hrun : IsRun cfg ext pr p recs)
    (hno : ∀ rec ∈ recs, ∀ x, rec.received = some x → x.publishes = true → x.on k = false) :
    (endOf p recs).session.qos2.get k = p.session.qos2.get k := by
  induction recs generalizing p with
  | nil => rfl
  | cons rec recs ih =>
    obtain ⟨rfl, h1, h2⟩ := hrun
    refine (ih h2 fun r hr => hno r (List.mem_cons_of_mem _ hr)).trans ?_
    have hr := reads h1
    cases hx : rec.received with
    | none =>
      cases hr with
      | resume c he hq => rw [hq]
      | other he hx' hq => rw [hq]
      | reject x hx' => rw [hx] at hx'; cases hx'
      | one p k code m hx' => rw [hx] at hx'; cases hx'
      | inUse p k prev hpr hx' => rw [hx] at hx'; cases hx'
      | repeated p k hx' => rw [hx] at hx'; cases hx'
      | late p k hx' => rw [hx] at hx'; cases hx'
      | two p k code m hx' => rw [hx] at hx'; cases hx'
      | release k code hx' => rw [hx] at hx'; cases hx'
    | some x =>
      cases hp : x.publishes with
      | true => exact (reads_else hr hx hp (hno rec (List.mem_cons_self ..) x hx hp)).1
      | false =>
        cases hr with
        | resume c he hq => rw [hq]
        | other he hx' hq => rw [hq]
        | reject x' hx' hp' => rw [hx] at hx'; cases hx'; rw [hp] at hp'; cases hp'
        | one p k code m hx' hl => rw [hx] at hx'; cases hx'; simp [InPkt.publishes, hl] at hp
        | inUse p k prev hpr hx' hl => rw [hx] at hx'; cases hx'; simp [InPkt.publishes, hl] at hp
        | repeated p k hx' hl => rw [hx] at hx'; cases hx'; simp [InPkt.publishes, hl] at hp
        | late p k hx' hl => rw [hx] at hx'; cases hx'; simp [InPkt.publishes, hl] at hp
        | two p k code m hx' hl => rw [hx] at hx'; cases hx'; simp [InPkt.publishes, hl] at hp
        | release k code hx' => rw [hx] at hx'; cases hx'; cases hp

/-- The answer to the first transmission of a message with QoS 2. -/
theorem reads_first {rec : Rec} (hr : Reads ext pr rec) {p : Publish}
    (hx : rec.received = some (.publish p)) (hp : p.qosPid = .level2 k) (hd : p.dup = false)
    {code : Reason} (hc : .pubrec k code ∈ rec.res.out) (ht : code.takes = true) :
    rec.post.session.qos2.get k = some (ext.hash p) := by
  have hm : .pubrec k code ∈ rec.res.out.filter OutPkt.isAck := List.mem_filter.2 ⟨hc, rfl⟩
  cases hr with
  | resume c he => exact absurd he (received_resume hx c)
  | other he hx' => have := hx' _ hx; simp [InPkt.publishes, hp] at this
  | reject x' hx' hp hq ha hr ht => rw [ha] at hm; cases hm
  | one p' j code m hx' hp' =>
    rw [hx] at hx'; cases hx'; rw [hp] at hp'; cases hp'
  | inUse p' j prev hpr hx' hp' hg hne hq ha hr =>
    rw [ha] at hm
    cases List.mem_singleton.1 hm
    cases ht
  | repeated p' j hx' hp' hd' => rw [hx] at hx'; cases hx'; rw [hd] at hd'; cases hd'
  | late p' j hx' hp' hd' => rw [hx] at hx'; cases hx'; rw [hd] at hd'; cases hd'
  | two p' j code m hx' hp' hd' hg hq =>
    rw [hx] at hx'; cases hx'; rw [hp] at hp'; cases hp'
    rw [hq, FMap.get_insert, if_pos rfl]
  | release j code hx' => rw [hx] at hx'; cases hx'

/-- A repetition with another hash. -/
theorem reads_refused {rec : Rec} (hr : Reads ext pr rec) {p : Publish}
    (hx : rec.received = some (.publish p)) (hp : p.qosPid = .level2 k) {h : Nat}
    (hk : rec.pre.session.qos2.get k = some h) (hne : ext.hash p ≠ h) :
    rec.res.routed = [] ∧ (rec.post.talking = false ∨
      pr = .v5 ∧ rec.res.out.filter OutPkt.isAck = [.pubrec k .packetIdentifierInUse]) := by
  cases hr with
  | resume c he => exact absurd he (received_resume hx c)
  | other he hx' => have := hx' _ hx; simp [InPkt.publishes, hp] at this
  | reject x' hx' hp hq ha hr ht => exact ⟨hr, .inl ht⟩
  | one p' j code m hx' hp' =>
    rw [hx] at hx'; cases hx'; rw [hp] at hp'; cases hp'
  | inUse p' j prev hpr hx' hp' hg hne hq ha hr =>
    rw [hx] at hx'; cases hx'; rw [hp] at hp'; cases hp'
    exact ⟨hr, .inr ⟨hpr, ha⟩⟩
  | repeated p' j hx' hp' hd' hg =>
    rw [hx] at hx'; cases hx'; rw [hp] at hp'; cases hp'
    rw [hk] at hg
    cases hg
    exact absurd rfl hne
  | late p' j hx' hp' hd' hg =>
    rw [hx] at hx'; cases hx'; rw [hp] at hp'; cases hp'
    rw [hk] at hg; cases hg
  | two p' j code m hx' hp' hd' hg hq =>
    rw [hx] at hx'; cases hx'; rw [hp] at hp'; cases hp'
    rw [hk] at hg; cases hg
  | release j code hx' => rw [hx] at hx'; cases hx'

end Akasa
