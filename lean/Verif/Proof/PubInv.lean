import Verif.Proof.PubLine
import Verif.Proof.LifeUse
/-! # What was passed on, as long as the client publishes by the rules -/
namespace Akasa

variable {ext : Ext} {pr : Proto} {good : Prop} {live : Bool} {k : Pid}
variable {q2 : FMap Pid Nat} {r : Publisher}

/-! ## QoS 2 -/

theorem firstTwos_append (a b : List InPkt) : firstTwos (a ++ b) = firstTwos a ++ firstTwos b := by
  unfold firstTwos; rw [List.filterMap_append]

theorem sentAgain_cases (e : Publish × Bool) :
    (∃ k, sentAgain e = .pubrel k) ∨ sentAgain e = .publish { e.1 with dup := true } := by
  unfold sentAgain
  split
  · exact .inl ⟨_, rfl⟩
  · exact .inr rfl

theorem firstTwos_again (w : List (Publish × Bool)) : firstTwos (w.map sentAgain) = [] := by
  unfold firstTwos
  rw [List.filterMap_eq_nil_iff]
  intro x hx
  obtain ⟨e, _, rfl⟩ := List.mem_map.1 hx
  rcases sentAgain_cases e with ⟨k, h⟩ | h
  · rw [h]
  · rw [h]; simp

theorem twosOf_append (a b : List Publish) : twosOf (a ++ b) = twosOf a ++ twosOf b := by
  unfold twosOf; rw [List.filter_append]

/-- The messages with this QoS. -/
def ofQos (q : QoS) (R : List SendPub) : List SendPub := R.filter fun m => decide (m.qos = q)

theorem ofQos_append (q : QoS) (a b : List SendPub) : ofQos q (a ++ b) = ofQos q a ++ ofQos q b := by
  unfold ofQos; rw [List.filter_append]

theorem ofQos_none {q : QoS} {a : List SendPub} (h : ∀ m ∈ a, m.qos ≠ q) : ofQos q a = [] := by
  unfold ofQos
  rw [List.filter_eq_nil_iff]
  intro m hm
  simpa using h m hm

/-- What was passed on is part of what the client has published, and what is still on its way comes
after it. -/
def SafeTwos (pr : Proto) (R : List SendPub) (r : Publisher) : Prop :=
  ∃ ms, Along (IsPassed pr) ms (ofQos 2 R) ∧ (ms ++ firstTwos r.up).Sublist (twosOf r.handed)

/-- The same, and nothing is missing. -/
def AllTwos (pr : Proto) (R : List SendPub) (r : Publisher) : Prop :=
  ∃ ms, Along (IsPassed pr) ms (ofQos 2 R) ∧ twosOf r.handed = ms ++ firstTwos r.up

/-- The message with QoS 2 that is sent for the first time with a new packet. -/
theorem hand_twos {p : Publish} (hd : p.dup = false) :
    firstTwos [.publish p] = twosOf [p] := by
  unfold firstTwos twosOf
  by_cases h : p.qosPid.qos = 2 <;> simp [h, hd]

theorem SafeTwos.arrive {R : List SendPub} (h : SafeTwos pr R r) (o : OutPkt) (rest : List OutPkt) :
    SafeTwos pr R (Publisher.arrive { r with down := rest } o) := by
  obtain ⟨ms, h1, h2⟩ := h
  cases o with
  | pubrec j c =>
    simp only [Publisher.arrive]
    split
    · refine ⟨ms, h1, ?_⟩
      simp only [firstTwos_append]
      rw [show firstTwos [InPkt.pubrel j] = [] from rfl, List.append_nil]
      exact h2
    · exact ⟨ms, h1, h2⟩
  | _ => exact ⟨ms, h1, h2⟩

theorem AllTwos.arrive {R : List SendPub} (h : AllTwos pr R r) (o : OutPkt) (rest : List OutPkt) :
    AllTwos pr R (Publisher.arrive { r with down := rest } o) := by
  obtain ⟨ms, h1, h2⟩ := h
  cases o with
  | pubrec j c =>
    simp only [Publisher.arrive]
    split
    · refine ⟨ms, h1, ?_⟩
      simp only [firstTwos_append]
      rw [show firstTwos [InPkt.pubrel j] = [] from rfl, List.append_nil]
      exact h2
    · exact ⟨ms, h1, h2⟩
  | _ => exact ⟨ms, h1, h2⟩

theorem SafeTwos.hand {R : List SendPub} (h : SafeTwos pr R r) {p : Publish} (hd : p.dup = false) :
    SafeTwos pr R (r.hand p) := by
  obtain ⟨ms, h1, h2⟩ := h
  refine ⟨ms, h1, ?_⟩
  simp only [Publisher.hand, firstTwos_append, twosOf_append, hand_twos hd]
  rw [← List.append_assoc]
  exact h2.append (.refl _)

theorem AllTwos.hand {R : List SendPub} (h : AllTwos pr R r) {p : Publish} (hd : p.dup = false) :
    AllTwos pr R (r.hand p) := by
  obtain ⟨ms, h1, h2⟩ := h
  refine ⟨ms, h1, ?_⟩
  simp only [Publisher.hand, firstTwos_append, twosOf_append, hand_twos hd]
  rw [← List.append_assoc, h2]

theorem along_snoc {α β : Type} {S : α → β → Prop} {as : List α} {bs : List β} {a : α} {b : β}
    (h : Along S as bs) (hab : S a b) : Along S (as ++ [a]) (bs ++ [b]) := by
  induction h with
  | nil => exact .cons hab .nil
  | cons h1 _ ih => exact .cons h1 ih

theorem firstTwos_cons (x : InPkt) (rest : List InPkt) :
    firstTwos (x :: rest) = firstTwos [x] ++ firstTwos rest := firstTwos_append [x] rest

theorem first_two {p : Publish} (hp : p.qosPid = .level2 k) (hd : p.dup = false) :
    firstTwos [.publish p] = [p] := by
  simp [firstTwos, hp, hd, QosPid.qos]

theorem first_again {p : Publish} (hd : p.dup = true) : firstTwos [.publish p] = [] := by
  simp [firstTwos, hd]

theorem first_one {p : Publish} (hp : p.qosPid = .level1 k) : firstTwos [.publish p] = [] := by
  have : ¬ ((QosPid.level1 k).qos = 2) := qos_level1_ne k
  simp [firstTwos, hp, this]

theorem passed_qos {p : Publish} {m : SendPub} (h : IsPassed pr p m) (hp : p.qosPid = .level2 k) :
    m.qos = 2 := by rw [h.1, hp]; rfl

theorem passed_qos1 {p : Publish} {m : SendPub} (h : IsPassed pr p m) (hp : p.qosPid = .level1 k) :
    m.qos = 1 := by rw [h.1, hp]; rfl

/-- The first packet is read, and what is passed on for it. -/
theorem two_steps {rec : Rec} (hr : Reads ext pr rec) {x : InPkt} (hx : rec.received = some x)
    (hpx : x.publishes = true) :
    (∃ p m, firstTwos [x] = [p] ∧ ofQos 2 rec.res.routed = [m] ∧ IsPassed pr p m) ∨
    (ofQos 2 rec.res.routed = [] ∧ (firstTwos [x] = [] ∨
      ∃ p k, x = .publish p ∧ p.qosPid = .level2 k ∧ p.dup = false ∧
        (rec.post.talking = false ∨
          (pr = .v5 ∧ ∃ prev, rec.pre.session.qos2.get k = some prev)))) := by
  have nil : ofQos 2 [] = [] := rfl
  have one : ∀ m : SendPub, m.qos = 1 → ofQos 2 [m] = [] := fun m hm => by
    simp [ofQos, hm]
  cases hr with
  | resume c he hq ha hr => exact absurd he (received_resume hx c)
  | other he hx' hq ha hr ht => rw [hx' x hx] at hpx; cases hpx
  | reject x' hx' hp hq ha hr ht =>
    rw [hx] at hx'; cases hx'
    rw [hr]
    refine .inr ⟨rfl, ?_⟩
    cases x with
    | publish p =>
      cases hl : p.qosPid with
      | level0 => simp [InPkt.publishes, hl] at hp
      | level1 k => exact .inl (first_one hl)
      | level2 k =>
        cases hd : p.dup
        · exact .inr ⟨p, k, rfl, hl, hd, .inl ht⟩
        · exact .inl (first_again hd)
    | _ => exact .inl rfl
  | one p k code m hx' hp hq ha hr hm =>
    rw [hx] at hx'; cases hx'
    rw [hr]
    exact .inr ⟨one m (passed_qos1 hm hp), .inl (first_one hp)⟩
  | inUse p k prev hpr hx' hp hg hne hq ha hr =>
    rw [hx] at hx'; cases hx'
    rw [hr]
    refine .inr ⟨rfl, ?_⟩
    cases hd : p.dup
    · exact .inr ⟨p, k, rfl, hp, hd, .inr ⟨hpr, prev, hg⟩⟩
    · exact .inl (first_again hd)
  | repeated p k hx' hp hd hg hq ha hr =>
    rw [hx] at hx'; cases hx'
    rw [hr]
    exact .inr ⟨rfl, .inl (first_again hd)⟩
  | late p k hx' hp hd hg hq ha hr =>
    rw [hx] at hx'; cases hx'
    rw [hr]
    exact .inr ⟨rfl, .inl (first_again hd)⟩
  | two p k code m hx' hp hd hg hq ha hc hr hm =>
    rw [hx] at hx'; cases hx'
    rw [hr]
    refine .inl ⟨p, m, first_two hp hd, ?_, hm⟩
    simp [ofQos, passed_qos hm hp]
  | release k code hx' hv hq ha hr =>
    rw [hx] at hx'; cases hx'
    rw [hr]
    exact .inr ⟨rfl, .inl rfl⟩

theorem SafeTwos.step {R : List SendPub} {rec : Rec} (hr : Reads ext pr rec) {x : InPkt}
    {rest : List InPkt} (hx : rec.received = some x) (hpx : x.publishes = true)
    (hup : r.up = x :: rest) (h : SafeTwos pr R r) (down : List OutPkt) :
    SafeTwos pr (R ++ rec.res.routed) { r with up := rest, down := down } := by
  obtain ⟨ms, h1, h2⟩ := h
  rw [hup, firstTwos_cons] at h2
  unfold SafeTwos
  rw [ofQos_append]
  rcases two_steps hr hx hpx with ⟨p, m, e1, e2, e3⟩ | ⟨e1, e2⟩
  · rw [e1] at h2
    rw [e2]
    exact ⟨ms ++ [p], along_snoc h1 e3, by simpa using h2⟩
  · rw [e1, List.append_nil]
    exact ⟨ms, h1, ((List.Sublist.refl ms).append (List.sublist_append_right _ _)).trans h2⟩

theorem AllTwos.step {R : List SendPub} {rec : Rec} (hr : Reads ext pr rec) {x : InPkt}
    {rest : List InPkt} (hx : rec.received = some x) (hpx : x.publishes = true)
    (hup : r.up = x :: rest) (hgood : good)
    (hl : Lines ext pr good rec.pre.talking rec.pre.session.qos2 r)
    (hrej : ∀ p, x = .publish p → p.qosPid.qos = 2 → p.dup = false → rec.post.talking = true)
    (h : AllTwos pr R r) (down : List OutPkt) :
    AllTwos pr (R ++ rec.res.routed) { r with up := rest, down := down } := by
  obtain ⟨ms, h1, h2⟩ := h
  rw [hup, firstTwos_cons] at h2
  unfold AllTwos
  rw [ofQos_append]
  rcases two_steps hr hx hpx with ⟨p, m, e1, e2, e3⟩ | ⟨e1, e2⟩
  · rw [e1] at h2
    rw [e2]
    exact ⟨ms ++ [p], along_snoc h1 e3, by simpa using h2⟩
  · rw [e1, List.append_nil]
    rcases e2 with e2 | ⟨p, k, rfl, e2, e3, e4⟩
    · rw [e2, List.nil_append] at h2
      exact ⟨ms, h1, h2⟩
    · exfalso
      rcases e4 with e4 | ⟨_, prev, e4⟩
      · rw [hrej p rfl (by rw [e2]; rfl) e3] at e4; cases e4
      · have hk := hl k
        rw [hup, List.filter_cons_of_pos (by simp [InPkt.on, e2, QosPid.pid?]), e4] at hk
        generalize r.waiting.filter (onPid k) = w at hk
        generalize r.down.filter (OutPkt.on k) = d at hk
        generalize rest.filter (InPkt.on k) = u at hk
        cases hk with
        | pub hp hq hd => cases hd hgood e3

theorem SafeTwos.other {R R' : List SendPub} (h : SafeTwos pr R r) (hR : ∀ m ∈ R', m.qos = 0)
    (down : List OutPkt) : SafeTwos pr (R ++ R') { r with down := down } := by
  unfold SafeTwos
  rw [ofQos_append, ofQos_none (a := R') (fun m hm => by rw [hR m hm]; decide), List.append_nil]
  exact h

theorem AllTwos.other {R R' : List SendPub} (h : AllTwos pr R r) (hR : ∀ m ∈ R', m.qos = 0)
    (down : List OutPkt) : AllTwos pr (R ++ R') { r with down := down } := by
  unfold AllTwos
  rw [ofQos_append, ofQos_none (a := R') (fun m hm => by rw [hR m hm]; decide), List.append_nil]
  exact h

theorem SafeTwos.connect {R : List SendPub} (h : SafeTwos pr R r) (down : List OutPkt)
    (missed : List Publish) :
    SafeTwos pr R { r with down := down, up := r.waiting.map sentAgain, missed := missed } := by
  obtain ⟨ms, h1, h2⟩ := h
  refine ⟨ms, h1, ?_⟩
  simp only [firstTwos_again, List.append_nil]
  exact (List.sublist_append_left _ _).trans h2

theorem AllTwos.connect {R : List SendPub} (h : AllTwos pr R r) (hm : firstTwos r.up = [])
    (down : List OutPkt) (missed : List Publish) :
    AllTwos pr R { r with down := down, up := r.waiting.map sentAgain, missed := missed } := by
  obtain ⟨ms, h1, h2⟩ := h
  refine ⟨ms, h1, ?_⟩
  simp only [firstTwos_again, List.append_nil]
  rw [hm, List.append_nil] at h2
  exact h2

/-! ## QoS 1 -/

/-- The messages with QoS 1 among these packets. -/
def onesUp (up : List InPkt) : List Publish :=
  up.filterMap fun x =>
    match x with
    | .publish p => if p.qosPid.qos = 1 then some { p with dup := false } else none
    | _ => none

theorem onesUp_append (a b : List InPkt) : onesUp (a ++ b) = onesUp a ++ onesUp b := by
  unfold onesUp; rw [List.filterMap_append]

theorem onesUp_cons (x : InPkt) (rest : List InPkt) : onesUp (x :: rest) = onesUp [x] ++ onesUp rest :=
  onesUp_append [x] rest

theorem onesOf_append (a b : List Publish) : onesOf (a ++ b) = onesOf a ++ onesOf b := by
  unfold onesOf; rw [List.filter_append]

/-- The messages with QoS 1 that are not completed. -/
def onesWaiting (w : List (Publish × Bool)) : List Publish := onesOf (w.map (·.1))

theorem onesWaiting_append (a b : List (Publish × Bool)) :
    onesWaiting (a ++ b) = onesWaiting a ++ onesWaiting b := by
  unfold onesWaiting; rw [List.map_append, onesOf_append]

theorem onesWaiting_cons (e : Publish × Bool) (w : List (Publish × Bool)) :
    onesWaiting (e :: w) = onesOf [e.1] ++ onesWaiting w := by
  unfold onesWaiting; rw [List.map_cons, ← onesOf_append]; rfl

/-- The messages of the client as they are kept. -/
def Tidy (r : Publisher) : Prop :=
  ∀ e ∈ r.waiting, e.1.dup = false ∧ (e.2 = true → e.1.qosPid.qos = 2) ∧
    e.1.qosPid.pid?.isSome = true

theorem Tidy.arrive (h : Tidy r) (o : OutPkt) (rest : List OutPkt) :
    Tidy (Publisher.arrive { r with down := rest } o) := by
  cases o with
  | puback j c => exact fun e he => h e (List.mem_filter.1 he).1
  | pubcomp j c => exact fun e he => h e (List.mem_filter.1 he).1
  | pubrec j c =>
    unfold Tidy
    simp only [Publisher.arrive]
    split
    · intro e he
      simp only at he
      obtain ⟨x, hx, rfl⟩ := List.mem_map.1 he
      split
      · rename_i hl
        exact ⟨(h x hx).1, (fun _ => by rw [hl]; rfl), (h x hx).2.2⟩
      · exact h x hx
    · exact fun e he => h e (List.mem_filter.1 he).1
  | _ => exact h

theorem Tidy.hand (h : Tidy r) {p : Publish} {j : Pid} (hp : p.qosPid.pid? = some j)
    (hd : p.dup = false) : Tidy (r.hand p) := by
  intro e he
  rcases List.mem_append.1 he with he | he
  · exact h e he
  · rw [List.mem_singleton.1 he]
    exact ⟨hd, (fun h => by cases h), by rw [hp]; rfl⟩

theorem onesUp_again {w : List (Publish × Bool)}
    (h : ∀ e ∈ w, e.1.dup = false ∧ (e.2 = true → e.1.qosPid.qos = 2)) :
    onesUp (w.map sentAgain) = onesWaiting w := by
  induction w with
  | nil => rfl
  | cons e w ih =>
    rw [List.map_cons, onesUp_cons, onesWaiting_cons, ih fun e he => h e (List.mem_cons_of_mem _ he)]
    congr 1
    obtain ⟨p, b⟩ := e
    obtain ⟨h1, h2⟩ := h (p, b) (List.mem_cons_self ..)
    simp only at h1 h2
    cases b with
    | false =>
      rw [sentAgain_false]
      have he : ({ p with dup := false } : Publish) = p := by rw [← h1]
      by_cases h1 : p.qosPid.qos = 1
      · simp [onesUp, onesOf, h1, he]
      · simp [onesUp, onesOf, h1]
    | true =>
      cases hl : p.qosPid with
      | level2 k =>
        rw [sentAgain_true hl]
        have : ¬ ((QosPid.level2 k).qos = 1) := by intro h; cases h
        simp [onesUp, onesOf, hl, this]
      | level0 => rw [hl] at h2; cases h2 rfl
      | level1 k => rw [hl] at h2; cases h2 rfl

/-- `A` was passed on in this order, perhaps with repetitions. -/
def Within (pr : Proto) (A : List Publish) (R : List SendPub) : Prop :=
  ∃ ms, ms.Sublist R ∧ Along (IsPassed pr) A ms

theorem Within.mono {A : List Publish} {R R' : List SendPub} (h : Within pr A R) :
    Within pr A (R ++ R') := by
  obtain ⟨ms, h1, h2⟩ := h
  exact ⟨ms, h1.trans (List.sublist_append_left _ _), h2⟩

theorem Within.snoc {A : List Publish} {R : List SendPub} {p : Publish} {m : SendPub}
    (h : Within pr A R) (hm : IsPassed pr p m) : Within pr (A ++ [p]) (R ++ [m]) := by
  obtain ⟨ms, h1, h2⟩ := h
  exact ⟨ms ++ [m], h1.append (.refl _), along_snoc h2 hm⟩

/-- The messages with QoS 1 are passed on in order; those which are not passed on yet are waiting. -/
def Ones (pr : Proto) (live : Bool) (R : List SendPub) (r : Publisher) : Prop :=
  ∃ A W B, onesOf r.handed = A ++ B ∧ Within pr A (ofQos 1 R) ∧ onesWaiting r.waiting = W ++ B ∧
    (∀ b ∈ B, ∀ k c, b.qosPid = .level1 k → .puback k c ∉ r.down) ∧
    (live = true → ∃ X, onesUp r.up = X ++ B)

theorem onesWaiting_filter (w : List (Publish × Bool)) (l : QosPid) :
    onesWaiting (w.filter fun e => decide (e.1.qosPid ≠ l)) =
      (onesWaiting w).filter fun p => decide (p.qosPid ≠ l) := by
  induction w with
  | nil => rfl
  | cons e w ih =>
    rw [onesWaiting_cons, List.filter_append, ← ih, List.filter_cons]
    split
    · rename_i h
      rw [onesWaiting_cons]
      congr 1
      unfold onesOf
      by_cases h1 : e.1.qosPid.qos = 1 <;> simp_all
    · rename_i h
      have h : e.1.qosPid = l := by simpa using h
      rw [show List.filter (fun p => decide (p.qosPid ≠ l)) (onesOf [e.1]) = [] by
        unfold onesOf
        by_cases h1 : e.1.qosPid.qos = 1 <;> simp_all]
      rw [List.nil_append]

theorem onesWaiting_mark (w : List (Publish × Bool)) (l : QosPid) :
    onesWaiting (w.map fun e => if e.1.qosPid = l then (e.1, true) else e) = onesWaiting w := by
  unfold onesWaiting
  rw [List.map_map]
  congr 1
  refine List.map_congr_left fun e _ => ?_
  simp only [Function.comp_apply]
  split <;> rfl

theorem onesWaiting_level2 (w : List (Publish × Bool)) (j : Pid) :
    onesWaiting (w.filter fun e => decide (e.1.qosPid ≠ .level2 j)) = onesWaiting w := by
  rw [onesWaiting_filter, List.filter_eq_self]
  intro p hp
  have := (List.mem_filter.1 hp).2
  refine decide_eq_true fun h => ?_
  rw [h] at this
  cases of_decide_eq_true this

theorem Ones.arrive {R : List SendPub} (h : Ones pr live R r) {o : OutPkt} {rest : List OutPkt}
    (hd : r.down = o :: rest) : Ones pr live R (Publisher.arrive { r with down := rest } o) := by
  obtain ⟨A, W, B, h1, h2, h3, h4, h5⟩ := h
  rw [hd] at h4
  have h4' : ∀ b ∈ B, ∀ k c, b.qosPid = .level1 k → OutPkt.puback k c ∉ rest :=
    fun b hb k c hk hc => h4 b hb k c hk (List.mem_cons_of_mem _ hc)
  cases o with
  | puback j c =>
    refine ⟨A, W.filter fun p => decide (p.qosPid ≠ .level1 j), B, h1, h2, ?_, h4', h5⟩
    simp only [Publisher.arrive]
    rw [onesWaiting_filter, h3, List.filter_append]
    congr 1
    rw [List.filter_eq_self]
    intro b hb
    exact decide_eq_true fun h => h4 b hb j c h (List.mem_cons_self ..)
  | pubcomp j c =>
    refine ⟨A, W, B, h1, h2, ?_, h4', h5⟩
    simp only [Publisher.arrive]
    rw [onesWaiting_level2]; exact h3
  | pubrec j c =>
    unfold Ones
    simp only [Publisher.arrive]
    split
    · refine ⟨A, W, B, h1, h2, ?_, h4', fun hl => ?_⟩
      · simp only; rw [onesWaiting_mark]; exact h3
      · obtain ⟨X, hX⟩ := h5 hl
        refine ⟨X, ?_⟩
        simp only
        rw [onesUp_append, show onesUp [InPkt.pubrel j] = [] from rfl, List.append_nil]
        exact hX
    · refine ⟨A, W, B, h1, h2, ?_, h4', h5⟩
      simp only
      rw [onesWaiting_level2]; exact h3
  | _ => exact ⟨A, W, B, h1, h2, h3, h4', h5⟩

theorem onesUp_single {p : Publish} (hd : p.dup = false) : onesUp [.publish p] = onesOf [p] := by
  have he : ({ p with dup := false } : Publish) = p := by rw [← hd]
  by_cases h : p.qosPid.qos = 1
  · simp [onesUp, onesOf, h, he]
  · simp [onesUp, onesOf, h]

theorem puback_on {d : List OutPkt} {c : Reason} (h : .puback k c ∈ d) :
    OutPkt.puback k c ∈ d.filter (OutPkt.on k) :=
  List.mem_filter.2 ⟨h, by simp [OutPkt.on]⟩

theorem Ones.hand {R : List SendPub} (h : Ones pr live R r)
    (hl : Lines ext pr good live q2 r) {p : Publish} {j : Pid}
    (hp : p.qosPid.pid? = some j) (hd : p.dup = false) (hu : r.unused j) :
    Ones pr live R (r.hand p) := by
  obtain ⟨A, W, B, h1, h2, h3, h4, h5⟩ := h
  refine ⟨A, W, B ++ onesOf [p], ?_, h2, ?_, ?_, fun hl => ?_⟩
  · simp only [Publisher.hand, onesOf_append]; rw [h1, List.append_assoc]
  · simp only [Publisher.hand, onesWaiting_append]; rw [h3, List.append_assoc]; rfl
  · intro b hb k c hk hc
    rcases List.mem_append.1 hb with hb | hb
    · exact h4 b hb k c hk hc
    · have hb := (List.mem_filter.1 hb).1
      rw [List.mem_singleton.1 hb] at hk
      rw [hk] at hp
      cases hp
      have hk := hl j
      have hw : r.waiting.filter (onPid j) = [] := by
        rw [List.filter_eq_nil_iff]
        intro e he hc
        simp only [onPid, decide_eq_true_eq] at hc
        exact hu e he hc
      have hc := puback_on hc
      rw [hw] at hk
      generalize r.up.filter (InPkt.on j) = u at hk
      change _ ∈ r.down.filter (OutPkt.on j) at hc
      generalize r.down.filter (OutPkt.on j) = d at hk hc
      cases hk with
      | free hq => cases hc
  · obtain ⟨X, hX⟩ := h5 hl
    refine ⟨X, ?_⟩
    simp only [Publisher.hand]
    rw [onesUp_append, hX, onesUp_single hd, List.append_assoc]

theorem Ones.connect {live' : Bool} {R : List SendPub} (h : Ones pr live R r) (ht : Tidy r)
    (down : List OutPkt) (hdown : down.filter OutPkt.isAck = []) (missed : List Publish) :
    Ones pr live' R { r with down := down, up := r.waiting.map sentAgain, missed := missed } := by
  obtain ⟨A, W, B, h1, h2, h3, h4, h5⟩ := h
  refine ⟨A, W, B, h1, h2, h3, ?_, fun _ => ⟨W, ?_⟩⟩
  · intro b _ k c _ hc
    have : OutPkt.puback k c ∈ down.filter OutPkt.isAck := List.mem_filter.2 ⟨hc, rfl⟩
    rw [hdown] at this
    cases this
  · simp only
    rw [onesUp_again fun e he => ⟨(ht e he).1, (ht e he).2.1⟩, h3]

theorem Ones.other {live' : Bool} {R R' : List SendPub} (h : Ones pr live R r)
    (hl : live' = true → live = true) (hR : ∀ m ∈ R', m.qos = 0)
    (out : List OutPkt) (hout : out.filter OutPkt.isAck = []) :
    Ones pr live' (R ++ R') { r with down := r.down ++ out } := by
  obtain ⟨A, W, B, h1, h2, h3, h4, h5⟩ := h
  refine ⟨A, W, B, h1, ?_, h3, ?_, fun h => h5 (hl h)⟩
  · rw [ofQos_append, ofQos_none (a := R') (fun m hm => by rw [hR m hm]; decide), List.append_nil]
    exact h2
  · intro b hb k c hk hc
    rcases List.mem_append.1 hc with hc | hc
    · exact h4 b hb k c hk hc
    · have : OutPkt.puback k c ∈ out.filter OutPkt.isAck := List.mem_filter.2 ⟨hc, rfl⟩
      rw [hout] at this
      cases this

/-- The first packet is read, and what is passed on for it. -/
theorem one_steps {rec : Rec} (hr : Reads ext pr rec) {x : InPkt} (hx : rec.received = some x)
    (hpx : x.publishes = true) :
    (∃ p k c m, x = .publish p ∧ p.qosPid = .level1 k ∧ ofQos 1 rec.res.routed = [m] ∧
      IsPassed pr p m ∧ rec.res.out.filter OutPkt.isAck = [.puback k c]) ∨
    ((∀ k c, .puback k c ∉ rec.res.out) ∧ (onesUp [x] = [] ∨ rec.post.talking = false)) := by
  have no : ∀ l, rec.res.out.filter OutPkt.isAck = l → (∀ k c, OutPkt.puback k c ∉ l) →
      ∀ k c, OutPkt.puback k c ∉ rec.res.out := fun l hl h k c hc =>
    h k c (by rw [← hl]; exact List.mem_filter.2 ⟨hc, rfl⟩)
  have up2 : ∀ {p : Publish} {k : Pid}, p.qosPid = .level2 k → onesUp [.publish p] = [] := by
    intro p k hp
    have : ¬ ((QosPid.level2 k).qos = 1) := by intro h; cases h
    simp [onesUp, hp, this]
  cases hr with
  | resume c he hq ha hr => exact absurd he (received_resume hx c)
  | other he hx' hq ha hr ht => rw [hx' x hx] at hpx; cases hpx
  | reject x' hx' hp hq ha hr ht => exact .inr ⟨no _ ha (by simp), .inr ht⟩
  | one p k code m hx' hp hq ha hr hm =>
    rw [hx] at hx'; cases hx'
    refine .inl ⟨p, k, code, m, rfl, hp, ?_, hm, ha⟩
    rw [hr]
    simp [ofQos, passed_qos1 hm hp]
  | inUse p k prev hpr hx' hp hg hne hq ha hr =>
    rw [hx] at hx'; cases hx'
    exact .inr ⟨no _ ha (by simp), .inl (up2 hp)⟩
  | repeated p k hx' hp hd hg hq ha hr =>
    rw [hx] at hx'; cases hx'
    exact .inr ⟨no _ ha (by simp), .inl (up2 hp)⟩
  | late p k hx' hp hd hg hq ha hr =>
    rw [hx] at hx'; cases hx'
    exact .inr ⟨no _ ha (by simp), .inl (up2 hp)⟩
  | two p k code m hx' hp hd hg hq ha hc hr hm =>
    rw [hx] at hx'; cases hx'
    exact .inr ⟨no _ ha (by simp), .inl (up2 hp)⟩
  | release k code hx' hv hq ha hr =>
    rw [hx] at hx'; cases hx'
    exact .inr ⟨no _ ha (by simp), .inl rfl⟩

theorem mem_onesUp {b : Publish} {up : List InPkt} (h : b ∈ onesUp up) (hb : b.qosPid = .level1 k) :
    up.filter (InPkt.on k) ≠ [] := by
  unfold onesUp at h
  obtain ⟨x, hx, h1⟩ := List.mem_filterMap.1 h
  cases x with
  | publish p =>
    simp only at h1
    split at h1
    · cases h1
      intro hc
      rw [List.filter_eq_nil_iff] at hc
      have hb : p.qosPid = .level1 k := hb
      exact hc _ hx (by simp [InPkt.on, hb, QosPid.pid?])
    · cases h1
  | _ => cases h1

theorem passed_undup {p : Publish} {m : SendPub} (h : IsPassed pr p m) :
    IsPassed pr { p with dup := false } m := h

theorem Ones.step {R : List SendPub} {rec : Rec} (hr : Reads ext pr rec) {x : InPkt}
    {rest : List InPkt} (hx : rec.received = some x) (hpx : x.publishes = true)
    (hup : r.up = x :: rest) (hpre : rec.pre.talking = true)
    (hl : Lines ext pr good rec.pre.talking rec.pre.session.qos2 r)
    (h : Ones pr rec.pre.talking R r) :
    Ones pr rec.post.talking (R ++ rec.res.routed)
      { r with up := rest, down := r.down ++ rec.res.out } := by
  obtain ⟨A, W, B, h1, h2, h3, h4, h5⟩ := h
  obtain ⟨X, hX⟩ := h5 hpre
  rw [hup, onesUp_cons] at hX
  unfold Ones
  rw [ofQos_append]
  rcases one_steps hr hx hpx with ⟨p, k, c, m, rfl, e1, e2, e3, e4⟩ | ⟨e1, e2⟩
  · have hone : onesUp [.publish p] = [{ p with dup := false }] := by
      simp [onesUp, e1, QosPid.qos]
    rw [hone] at hX
    rw [e2]
    -- no other packet with this identifier is on its way
    have hno : rest.filter (InPkt.on k) = [] := by
      have hk := hl k
      rw [hup, List.filter_cons_of_pos (by simp [InPkt.on, e1, QosPid.pid?])] at hk
      generalize r.waiting.filter (onPid k) = w at hk
      generalize r.down.filter (OutPkt.on k) = d at hk
      generalize rest.filter (InPkt.on k) = u at hk ⊢
      cases hk
      rfl
    have hk : ∀ b ∈ B, b ∈ onesUp rest → b.qosPid = .level1 k → False :=
      fun b _ hb hbk => mem_onesUp hb hbk hno
    have hdown : ∀ b ∈ B, b ∈ onesUp rest → ∀ k' c', b.qosPid = .level1 k' →
        .puback k' c' ∉ r.down ++ rec.res.out := by
      intro b hb hbr k' c' hk' hc
      rcases List.mem_append.1 hc with hc | hc
      · exact h4 b hb k' c' hk' hc
      · have : OutPkt.puback k' c' ∈ rec.res.out.filter OutPkt.isAck := List.mem_filter.2 ⟨hc, rfl⟩
        rw [e4, List.mem_singleton] at this
        cases this
        exact hk b hb hbr hk'
    cases X with
    | cons y X =>
      rw [List.cons_append, List.cons_append, List.nil_append, List.cons.injEq] at hX
      refine ⟨A, W, B, h1, h2.mono, h3, ?_, fun _ => ⟨X, hX.2⟩⟩
      intro b hb
      exact hdown b hb (by rw [hX.2]; exact List.mem_append_right _ hb)
    | nil =>
      rw [List.cons_append, List.nil_append, List.nil_append] at hX
      subst hX
      refine ⟨A ++ [{ p with dup := false }], W ++ [{ p with dup := false }], onesUp rest, ?_,
        h2.snoc (passed_undup e3), ?_, ?_, fun _ => ⟨[], rfl⟩⟩
      · rw [h1, List.append_assoc]; rfl
      · rw [h3, List.append_assoc]; rfl
      · intro b hb
        exact hdown b (List.mem_cons_of_mem _ hb) hb
  · have hdown : ∀ b ∈ B, ∀ k c, b.qosPid = .level1 k → .puback k c ∉ r.down ++ rec.res.out := by
      intro b hb k c hk hc
      rcases List.mem_append.1 hc with hc | hc
      · exact h4 b hb k c hk hc
      · exact e1 k c hc
    refine ⟨A, W, B, h1, h2.mono, h3, hdown, fun ht => ?_⟩
    rcases e2 with e2 | e2
    · rw [e2, List.nil_append] at hX
      exact ⟨X, hX⟩
    · rw [e2] at ht; cases ht

end Akasa
