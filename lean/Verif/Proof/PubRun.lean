import Verif.Proof.PubInv
/-! # Runs of a session, the network and a client that publishes -/
namespace Akasa

variable {cfg : Config} {ext : Ext} {pr : Proto} {good : Prop} {live : Bool} {k : Pid}
variable {q2 : FMap Pid Nat} {r : Publisher}

/-! ## The moves of the client -/

theorem pub_moves_cons {o : Obs} {obs : List Obs} {r' : Publisher}
    (hm : Publisher.Moves r (o :: obs) r') :
    ∃ r1 r2, Publisher.Moves r [] r1 ∧ r1.sees o = some r2 ∧ Publisher.Moves r2 obs r' := by
  generalize he : o :: obs = l at hm
  induction hm with
  | done r => cases he
  | arrive hd hm ih =>
    obtain ⟨r1, r2, h1, h2⟩ := ih he
    exact ⟨r1, r2, .arrive hd h1, h2⟩
  | hand hp hd hu hm ih =>
    obtain ⟨r1, r2, h1, h2⟩ := ih he
    exact ⟨r1, r2, .hand hp hd hu h1, h2⟩
  | see hs hm ih => cases he; exact ⟨_, _, .done _, hs, hm⟩

theorem pub_moves_append {a b : List Obs} {r' : Publisher} (hm : Publisher.Moves r (a ++ b) r') :
    ∃ m, Publisher.Moves r a m ∧ Publisher.Moves m b r' := by
  induction a generalizing r with
  | nil => exact ⟨r, .done r, hm⟩
  | cons o a ih =>
    obtain ⟨r1, r2, h1, h2, h3⟩ := pub_moves_cons hm
    obtain ⟨m, h4, h5⟩ := ih h3
    refine ⟨m, ?_, h5⟩
    clear hm h3 h5 ih
    generalize he : ([] : List Obs) = l at h1
    induction h1 with
    | done r => exact .see h2 h4
    | arrive hd hm ih => exact .arrive hd (ih h2 he)
    | hand hp hd hu hm ih => exact .hand hp hd hu (ih h2 he)
    | see hs hm ih => cases he

/-- Nothing the client has to do with, except for packets that are sent to it. -/
def Obs.passes : Obs → Bool
  | .connected _ _ => false
  | .received _ => false
  | _ => true

theorem pub_arrive_down (r : Publisher) (d : List OutPkt) (o : OutPkt) :
    Publisher.arrive { r with down := d } o = { Publisher.arrive r o with down := d } := by
  cases o with
  | pubrec j c => simp only [Publisher.arrive]; split <;> rfl
  | _ => rfl

/-- What is kept when packets arrive and messages are published. -/
structure Settles (P : Publisher → Prop) : Prop where
  arrive : ∀ (r : Publisher) (o : OutPkt) (rest : List OutPkt), r.down = o :: rest → P r →
    P (Publisher.arrive { r with down := rest } o)
  hand : ∀ (r : Publisher) (p : Publish) (j : Pid), p.qosPid.pid? = some j → p.dup = false →
    r.unused j → P r → P (r.hand p)

theorem Settles.plain {P : Publisher → Prop} (hP : Settles P) {obs : List Obs} {r' : Publisher}
    (hm : Publisher.Moves r obs r') (ho : ∀ o ∈ obs, o.passes = true)
    (h : P { r with down := r.down ++ sentIn obs }) : P r' := by
  induction hm with
  | done r =>
    have he : ({ r with down := r.down ++ sentIn [] } : Publisher) = r := by
      show ({ r with down := r.down ++ [] } : Publisher) = r
      rw [List.append_nil]
    rw [he] at h
    exact h
  | @arrive r r' o rest obs hd hm ih =>
    refine ih ho ?_
    have := hP.arrive _ o (rest ++ sentIn obs) (by simp [hd]) h
    rw [pub_arrive_down] at this ⊢
    rw [pub_arrive_down] at this
    exact this
  | @hand r r' p j obs hp hd hu hm ih =>
    exact ih ho (hP.hand { r with down := r.down ++ sentIn obs } p j hp hd hu h)
  | @see r r1 r' o obs hs hm ih =>
    have ho1 := ho o (List.mem_cons_self ..)
    refine ih (fun o' h' => ho o' (List.mem_cons_of_mem _ h')) ?_
    cases o with
    | connected b c => cases ho1
    | received x => cases ho1
    | sent x =>
      cases hs
      have he : sentIn (.sent x :: obs) = x :: sentIn obs := rfl
      rw [he] at h
      simpa using h
    | took x => cases hs; exact h
    | routed m => cases hs; exact h

theorem Settles.still {P : Publisher → Prop} (hP : Settles P) {r' : Publisher}
    (hm : Publisher.Moves r [] r') (h : P r) : P r' := by
  refine hP.plain hm (by simp) ?_
  have he : ({ r with down := r.down ++ sentIn [] } : Publisher) = r := by
    show ({ r with down := r.down ++ [] } : Publisher) = r
    rw [List.append_nil]
  rw [he]
  exact h

/-- What is seen of a step after the packet that is read. -/
def Rec.rest (r : Rec) : List Obs :=
  r.taken.toList.map .took ++ (r.res.routed.map .routed ++ r.res.out.map .sent)

theorem rest_plain (r : Rec) : ∀ o ∈ r.rest, o.passes = true := by
  intro o ho
  unfold Rec.rest at ho
  rcases List.mem_append.1 ho with ho | ho
  · obtain ⟨_, _, rfl⟩ := List.mem_map.1 ho; rfl
  · rcases List.mem_append.1 ho with ho | ho
    · obtain ⟨_, _, rfl⟩ := List.mem_map.1 ho; rfl
    · obtain ⟨_, _, rfl⟩ := List.mem_map.1 ho; rfl

theorem rest_sent (r : Rec) : sentIn r.rest = r.res.out := by
  unfold sentIn Rec.rest
  rw [List.filterMap_append, List.filterMap_append, List.filterMap_map, List.filterMap_map,
    List.filterMap_map]
  have h0 : ∀ {α : Type} (l : List α) (f : α → Option OutPkt), (∀ a, f a = none) →
      l.filterMap f = [] := by
    intro α l f hf
    rw [List.filterMap_eq_nil_iff]; intro a _; exact hf a
  rw [h0 r.taken.toList, h0 r.res.routed, List.nil_append, List.nil_append]
  · show r.res.out.filterMap some = _
    exact List.filterMap_some
  · exact fun _ => rfl
  · exact fun _ => rfl

theorem obs_resume {rec : Rec} {c : ConnParams} (h : rec.ev = .resume c) :
    rec.obs = .connected true c :: rec.rest := by
  unfold Rec.obs Rec.rest
  have : rec.received = none := by unfold Rec.received; rw [h]
  rw [this, h]
  rfl

theorem obs_reads {rec : Rec} {x : InPkt} (h : rec.received = some x) :
    rec.obs = .received x :: rec.rest := by
  have he := received_resume h
  unfold Rec.obs Rec.rest
  rw [h]
  cases hev : rec.ev with
  | resume c => exact absurd hev (he c)
  | _ => rfl

theorem obs_idle {rec : Rec} (h : rec.received = none) (he : ∀ c, rec.ev ≠ .resume c) :
    rec.obs = rec.rest := by
  unfold Rec.obs Rec.rest
  rw [h]
  cases hev : rec.ev with
  | resume c => exact absurd hev (he c)
  | _ => rfl

theorem received_talking {rec : Rec} {x : InPkt} (h : rec.received = some x) :
    rec.pre.talking = true := by
  unfold Rec.received at h
  split at h
  · split at h
    · assumption
    · cases h
  · cases h

/-- The client when a step of the session is over, with the packets sent to it on their way. -/
inductive PubAfter (rec : Rec) (r : Publisher) : Publisher → Prop
  | resume (c : ConnParams) (he : rec.ev = .resume c) :
      PubAfter rec r { r with
        down := rec.res.out, up := r.waiting.map sentAgain, missed := r.missed ++ firstTwos r.up }
  | read (x : InPkt) (rest : List InPkt) (hx : rec.received = some x) (hp : x.publishes = true)
      (hup : r.up = x :: rest) : PubAfter rec r { r with up := rest, down := r.down ++ rec.res.out }
  | other (he : ∀ c, rec.ev ≠ .resume c) (hx : ∀ x, rec.received = some x → x.publishes = false) :
      PubAfter rec r { r with down := r.down ++ rec.res.out }

/-- Steps: it is enough to look at the client when the step is over. -/
theorem Settles.step {P Q : Publisher → Prop} (hP : Settles P) (hQ : Settles Q) {rec : Rec}
    {r' : Publisher} (hm : Publisher.Moves r rec.obs r') (h : P r)
    (hstep : ∀ r1 r2, P r1 → PubAfter rec r1 r2 → Q r2) : Q r' := by
  by_cases he : ∃ c, rec.ev = .resume c
  · obtain ⟨c, he⟩ := he
    rw [obs_resume he] at hm
    obtain ⟨r1, r2, m1, m2, m3⟩ := pub_moves_cons hm
    have h1 := hP.still m1 h
    simp only [Publisher.sees, Option.some.injEq] at m2
    subst m2
    refine hQ.plain m3 (rest_plain rec) ?_
    rw [rest_sent]
    exact hstep _ _ h1 (.resume c he)
  · have he : ∀ c, rec.ev ≠ .resume c := fun c hc => he ⟨c, hc⟩
    cases hx : rec.received with
    | none =>
      rw [obs_idle hx he] at hm
      refine hQ.plain hm (rest_plain rec) ?_
      rw [rest_sent]
      exact hstep _ _ h (.other he (fun x h => by rw [hx] at h; cases h))
    | some x =>
      rw [obs_reads hx] at hm
      obtain ⟨r1, r2, m1, m2, m3⟩ := pub_moves_cons hm
      have h1 := hP.still m1 h
      refine hQ.plain m3 (rest_plain rec) ?_
      rw [rest_sent]
      simp only [Publisher.sees] at m2
      split at m2
      · rename_i hp
        split at m2
        · cases m2
        · rename_i y rest hup
          split at m2
          · rename_i hy
            subst hy
            cases m2
            exact hstep _ _ h1 (.read _ rest hx hp hup)
          · cases m2
      · rename_i hp
        cases m2
        refine hstep _ _ h1 (.other he fun y hy => ?_)
        rw [hx] at hy
        cases hy
        exact eq_false_of_ne_true hp

/-! ## The invariant -/

/-- All that is known of the client, the connection and the session. -/
structure Pubs (ext : Ext) (pr : Proto) (good : Prop) (live : Bool) (q2 : FMap Pid Nat)
    (R : List SendPub) (r : Publisher) : Prop where
  lines : Lines ext pr good live q2 r
  tidy : Tidy r
  safe : SafeTwos pr R r
  full : good → r.missed = [] → AllTwos pr R r
  ones : Ones pr live R r

theorem pub_arrive_missed (r : Publisher) (o : OutPkt) : (Publisher.arrive r o).missed = r.missed := by
  cases o with
  | pubrec j c => simp only [Publisher.arrive]; split <;> rfl
  | _ => rfl

theorem pubs_settles {R : List SendPub} : Settles (Pubs ext pr good live q2 R) where
  arrive := fun r o rest hd h =>
    ⟨h.lines.arrive hd, h.tidy.arrive o rest, h.safe.arrive o rest,
      (fun hg hm => (h.full hg (by rw [pub_arrive_missed] at hm; exact hm)).arrive o rest),
      h.ones.arrive hd⟩
  hand := fun r p j hp hd hu h =>
    ⟨h.lines.hand hp hd hu, h.tidy.hand hp hd, h.safe.hand hd,
      (fun hg hm => (h.full hg hm).hand hd), h.ones.hand h.lines hp hd hu⟩

/-- No first transmission of a message with QoS 2 makes the broker end the connection. -/
def Rec.accepts (r : Rec) : Prop :=
  ∀ p, r.received = some (.publish p) → p.qosPid.qos = 2 → p.dup = false → r.post.talking = true

theorem pubs_after {R : List SendPub} {rec : Rec} (hr : Reads ext pr rec)
    (hgood : good → pr = .v5 → HashIgnoresDup ext) (hacc : good → rec.accepts) {r' : Publisher}
    (h : Pubs ext pr good rec.pre.talking rec.pre.session.qos2 R r) (ha : PubAfter rec r r') :
    Pubs ext pr good rec.post.talking rec.post.session.qos2 (R ++ rec.res.routed) r' := by
  cases ha with
  | resume c he =>
    cases hr with
    | resume c' he' hq ha hr =>
      rw [hr, List.append_nil, hq]
      refine ⟨h.lines.connect _ ha _, h.tidy, h.safe.connect _ _, fun hg hm => ?_,
        h.ones.connect h.tidy _ ha _⟩
      obtain ⟨m1, m2⟩ := List.append_eq_nil_iff.1 hm
      exact (h.full hg m1).connect m2 _ _
    | other he' => exact absurd he (he' c)
    | reject x hx => exact absurd he (received_resume hx c)
    | one p k code m hx => exact absurd he (received_resume hx c)
    | inUse p k prev hpr hx => exact absurd he (received_resume hx c)
    | repeated p k hx => exact absurd he (received_resume hx c)
    | late p k hx => exact absurd he (received_resume hx c)
    | two p k code m hx => exact absurd he (received_resume hx c)
    | release k code hx => exact absurd he (received_resume hx c)
  | read x rest hx hp hup =>
    have hpre := received_talking hx
    refine ⟨h.lines.step hr hgood hx hp hup hpre, h.tidy, h.safe.step hr hx hp hup _,
      fun hg hm => ?_, h.ones.step hr hx hp hup hpre h.lines⟩
    exact (h.full hg hm).step hr hx hp hup hg h.lines
      (fun p e => hacc hg p (by rw [hx, e])) _
  | other he hx =>
    cases hr with
    | resume c' he' => exact absurd he' (he c')
    | other _ _ hq ha hr ht =>
      rw [hq]
      exact ⟨h.lines.other ht _ ha, h.tidy, h.safe.other hr _,
        (fun hg hm => (h.full hg hm).other hr _), h.ones.other ht hr _ ha⟩
    | reject x hx' hp => rw [hx x hx'] at hp; cases hp
    | one p k code m hx' hp => have := hx _ hx'; simp [InPkt.publishes, hp] at this
    | inUse p k prev hpr hx' hp => have := hx _ hx'; simp [InPkt.publishes, hp] at this
    | repeated p k hx' hp => have := hx _ hx'; simp [InPkt.publishes, hp] at this
    | late p k hx' hp => have := hx _ hx'; simp [InPkt.publishes, hp] at this
    | two p k code m hx' hp => have := hx _ hx'; simp [InPkt.publishes, hp] at this
    | release k code hx' => have := hx _ hx'; cases this

theorem pubs_run {p : Peer} {recs : List Rec} (hrun : IsRun cfg ext pr p recs)
    (hgood : good → pr = .v5 → HashIgnoresDup ext) (hacc : good → ∀ r ∈ recs, r.accepts)
    {R : List SendPub} {r' : Publisher} (h : Pubs ext pr good p.talking p.session.qos2 R r)
    (hm : Publisher.Moves r (recs.flatMap Rec.obs) r') :
    Pubs ext pr good (endOf p recs).talking (endOf p recs).session.qos2
      (R ++ recs.flatMap (·.res.routed)) r' := by
  induction recs generalizing p R r with
  | nil =>
    rw [List.flatMap_nil, List.append_nil]
    exact pubs_settles.still hm h
  | cons rec recs ih =>
    obtain ⟨rfl, h1, h2⟩ := hrun
    rw [List.flatMap_cons] at hm ⊢
    obtain ⟨r1, m1, m2⟩ := pub_moves_append hm
    rw [← List.append_assoc]
    refine ih h2 (fun hg r hr => hacc hg r (List.mem_cons_of_mem _ hr)) ?_ m2
    exact pubs_settles.step pubs_settles m1 h fun _ _ k1 k2 =>
      pubs_after (reads h1) hgood (fun hg => hacc hg rec (List.mem_cons_self ..)) k1 k2

theorem pubs_start (cfg : Config) (i : Str) (id : ClientId) (c : ConnParams) :
    Pubs ext pr good ({ session := Session.start cfg pr i id c } : Peer).talking
      (Session.start cfg pr i id c).qos2 [] {} := by
  have hq : (Session.start cfg pr i id c).qos2 = [] := by cases pr <;> rfl
  rw [hq]
  refine ⟨fun k => .free fun _ => rfl, (fun e he => by cases he), ⟨[], .nil, .slnil⟩,
    fun _ _ => ⟨[], .nil, rfl⟩, ⟨[], [], [], rfl, ⟨[], .slnil, .nil⟩, rfl, (fun b hb => by cases hb),
      fun _ => ⟨[], rfl⟩⟩⟩

/-- The messages passed on. -/
theorem passedOn_seen (q : QoS) (c : ConnParams) (recs : List Rec) :
    passedOn q (seenOf c recs) = ofQos q (recs.flatMap (·.res.routed)) := by
  have hone : ∀ rec : Rec, passedOn q rec.obs = ofQos q rec.res.routed := by
    intro rec
    have hmap : ∀ {α : Type} (l : List α) (f : α → Obs), (∀ a m, f a ≠ .routed m) →
        passedOn q (l.map f) = [] := by
      intro α l f hf
      unfold passedOn
      rw [List.filterMap_map, List.filterMap_eq_nil_iff]
      intro a _
      simp only [Function.comp_apply]
      split
      · rename_i m h; exact absurd h (hf a m)
      · rfl
    have happ : ∀ a b : List Obs, passedOn q (a ++ b) = passedOn q a ++ passedOn q b := by
      intro a b; unfold passedOn; rw [List.filterMap_append]
    have hr : passedOn q (rec.res.routed.map .routed) = ofQos q rec.res.routed := by
      unfold passedOn ofQos
      rw [List.filterMap_map]
      induction rec.res.routed with
      | nil => rfl
      | cons m l ih =>
        rw [List.filterMap_cons, List.filter_cons, ih]
        simp only [Function.comp_apply]
        by_cases h : m.qos = q <;> simp [h]
    unfold Rec.obs
    rw [happ, happ, happ, happ, hmap _ Obs.received (fun _ _ h => by cases h),
      hmap _ Obs.took (fun _ _ h => by cases h), hmap _ Obs.sent (fun _ _ h => by cases h), hr]
    split <;> simp [passedOn]
  unfold seenOf
  show passedOn q (recs.flatMap Rec.obs) = _
  induction recs with
  | nil => rfl
  | cons rec recs ih =>
    rw [List.flatMap_cons, List.flatMap_cons, ofQos_append, ← hone, ← ih]
    unfold passedOn
    rw [List.filterMap_append]

/-! ## A client that starts with nothing -/

/-- Before the session starts, the client may publish; that is forgotten with the first connection. -/
theorem pub_start {c : ConnParams} {obs : List Obs} {r' : Publisher}
    (hm : Publisher.Moves {} (.connected false c :: obs) r') : Publisher.Moves {} obs r' := by
  obtain ⟨r1, r2, m1, m2, m3⟩ := pub_moves_cons hm
  cases m2
  exact m3

end Akasa
