import Verif.Proof.PubReads
/-! # The exchange about one packet identifier, between a client that publishes and a session -/
namespace Akasa

variable {ext : Ext} {pr : Proto} {good : Prop} {live : Bool} {k : Pid}

/-- The packet belongs to the exchange about this packet identifier. -/
def InPkt.on (k : Pid) : InPkt → Bool
  | .publish p => decide (p.qosPid.pid? = some k)
  | .pubrel j => decide (j = k)
  | _ => false

/-- The answer belongs to the exchange about this packet identifier. -/
def OutPkt.on (k : Pid) : OutPkt → Bool
  | .puback j _ => decide (j = k)
  | .pubrec j _ => decide (j = k)
  | .pubcomp j _ => decide (j = k)
  | _ => false

/-- The message has this packet identifier. -/
def onPid (k : Pid) (e : Publish × Bool) : Bool := decide (e.1.qosPid.pid? = some k)

/-- What the session may know of the packet identifier of this message. -/
def Known (ext : Ext) (pr : Proto) (k : Pid) (p : Publish) (q : Option Nat) : Prop :=
  q = none ∨ (p.qosPid = .level2 k ∧ (pr = .v5 → q = some (ext.hash p)))

/-- The states of the exchange about a packet identifier: what the client waits for, what is on its
way, and what the session knows. -/
inductive Line (ext : Ext) (pr : Proto) (good : Prop) (live : Bool) (k : Pid) :
    List (Publish × Bool) → List InPkt → List OutPkt → Option Nat → Prop
  | free {q : Option Nat} (hq : good → q = none) : Line ext pr good live k [] [] [] q
  | quiet {p : Publish} {b : Bool} {q : Option Nat} (hp : p.qosPid.pid? = some k)
      (hb : b = true → p.qosPid = .level2 k) (hl : live = false) (hq : good → Known ext pr k p q) :
      Line ext pr good live k [(p, b)] [] [] q
  | pub {p : Publish} {d : Bool} {q : Option Nat} (hp : p.qosPid.pid? = some k)
      (hq : good → Known ext pr k p q) (hd : good → d = false → q = none) :
      Line ext pr good live k [(p, false)] [.publish { p with dup := d }] [] q
  | ack {p : Publish} {c : Reason} {q : Option Nat} (hp : p.qosPid = .level1 k)
      (hq : good → q = none) : Line ext pr good live k [(p, false)] [] [.puback k c] q
  | recd {p : Publish} {c : Reason} {q : Option Nat} (hp : p.qosPid = .level2 k)
      (hq : good → Known ext pr k p q) (hc : good → c.takes = true) :
      Line ext pr good live k [(p, false)] [] [.pubrec k c] q
  | rel {p : Publish} {q : Option Nat} (hp : p.qosPid = .level2 k)
      (hq : good → Known ext pr k p q) : Line ext pr good live k [(p, true)] [.pubrel k] [] q
  | comp {p : Publish} {c : Reason} {q : Option Nat} (hp : p.qosPid = .level2 k) (hq : q = none) :
      Line ext pr good live k [(p, true)] [] [.pubcomp k c] q

/-- All exchanges between a client and a session. -/
def Lines (ext : Ext) (pr : Proto) (good : Prop) (live : Bool) (q2 : FMap Pid Nat)
    (r : Publisher) : Prop :=
  ∀ k, Line ext pr good live k (r.waiting.filter (onPid k)) (r.up.filter (InPkt.on k))
    (r.down.filter (OutPkt.on k)) (q2.get k)

variable {q2 : FMap Pid Nat} {r : Publisher}

theorem Line.weaken {live' : Bool} {w : List (Publish × Bool)} {u : List InPkt} {d : List OutPkt}
    {q : Option Nat} (hl : live' = true → live = true) (h : Line ext pr good live k w u d q) :
    Line ext pr good live' k w u d q := by
  cases h with
  | free hq => exact .free hq
  | quiet hp hb hl' hq =>
    refine .quiet hp hb ?_ hq
    cases live'
    · rfl
    · rw [hl rfl] at hl'; cases hl'
  | pub hp hq hd => exact .pub hp hq hd
  | ack hp hq => exact .ack hp hq
  | recd hp hq hc => exact .recd hp hq hc
  | rel hp hq => exact .rel hp hq
  | comp hp hq => exact .comp hp hq

theorem on_of_not_ack {o : OutPkt} (h : o.isAck = false) : o.on k = false := by
  cases o <;> first | rfl | cases h

theorem filter_on (out : List OutPkt) (k : Pid) :
    out.filter (OutPkt.on k) = (out.filter OutPkt.isAck).filter (OutPkt.on k) := by
  rw [List.filter_filter]
  congr 1
  funext o
  cases h : o.isAck
  · rw [on_of_not_ack h]; rfl
  · rw [Bool.and_true]

theorem filter_ne_level {w : List (Publish × Bool)} {j : Pid} {l : QosPid} (hl : l.pid? = some j)
    (h : k ≠ j) : (w.filter fun e => decide (e.1.qosPid ≠ l)).filter (onPid k) =
      w.filter (onPid k) := by
  rw [List.filter_filter]
  refine List.filter_congr fun e _ => ?_
  cases h1 : onPid k e
  · rfl
  · simp only [onPid, decide_eq_true_eq] at h1
    rw [Bool.true_and]
    refine decide_eq_true fun h2 => ?_
    rw [h2, hl] at h1
    cases h1
    exact h rfl

theorem filter_level_gone {w : List (Publish × Bool)} {j : Pid} {l : QosPid} {p : Publish} {b : Bool}
    (h : w.filter (onPid j) = [(p, b)]) (hp : p.qosPid = l) :
    (w.filter fun e => decide (e.1.qosPid ≠ l)).filter (onPid j) = [] := by
  have : (w.filter fun e => decide (e.1.qosPid ≠ l)).filter (onPid j) =
      (w.filter (onPid j)).filter fun e => decide (e.1.qosPid ≠ l) := by
    rw [List.filter_filter, List.filter_filter]
    congr 1; funext e; exact Bool.and_comm ..
  rw [this, h]
  simp [hp]

theorem filter_mark (w : List (Publish × Bool)) (l : QosPid) (k : Pid) :
    (w.map fun e => if e.1.qosPid = l then (e.1, true) else e).filter (onPid k) =
      (w.filter (onPid k)).map fun e => if e.1.qosPid = l then (e.1, true) else e := by
  rw [List.filter_map]
  congr 2
  funext e
  simp only [Function.comp_apply, onPid]
  split <;> rfl

/-- A packet arrives at the client. -/
theorem Lines.arrive (h : Lines ext pr good live q2 r) {o : OutPkt} {rest : List OutPkt}
    (hd : r.down = o :: rest) :
    Lines ext pr good live q2 (Publisher.arrive { r with down := rest } o) := by
  intro k
  have hk := h k
  rw [hd] at hk
  cases o with
  | puback j c =>
    simp only [Publisher.arrive]
    by_cases e : k = j
    · subst e
      rw [List.filter_cons_of_pos (by simp [OutPkt.on])] at hk
      generalize hw : r.waiting.filter (onPid k) = w at hk
      generalize hu : r.up.filter (InPkt.on k) = u at hk
      generalize hr : rest.filter (OutPkt.on k) = d at hk
      cases hk with
      | ack hp hq =>
        rw [filter_level_gone hw hp]
        exact .free hq
    · rw [filter_ne_level rfl e]
      rw [List.filter_cons_of_neg (by simp [OutPkt.on, Ne.symm e])] at hk
      exact hk
  | pubrec j c =>
    simp only [Publisher.arrive]
    by_cases hc : c.takes = true
    · rw [if_pos hc]
      simp only
      rw [filter_mark, List.filter_append]
      by_cases e : k = j
      · subst e
        rw [List.filter_cons_of_pos (by simp [OutPkt.on])] at hk
        rw [List.filter_cons_of_pos (by simp [InPkt.on]), List.filter_nil]
        generalize hw : r.waiting.filter (onPid k) = w at hk
        generalize hu : r.up.filter (InPkt.on k) = u at hk
        generalize hr : rest.filter (OutPkt.on k) = d at hk
        cases hk with
        | recd hp hq hc' =>
          rw [List.map_cons, List.map_nil, if_pos hp]
          exact .rel hp hq
      · rw [List.filter_cons_of_neg (by simp [OutPkt.on, Ne.symm e])] at hk
        rw [List.filter_cons_of_neg (by simp [InPkt.on, Ne.symm e]), List.filter_nil,
          List.append_nil]
        have : ((r.waiting.filter (onPid k)).map fun e =>
            if e.1.qosPid = .level2 j then (e.1, true) else e) = r.waiting.filter (onPid k) := by
          rw [List.map_congr_left (g := id), List.map_id]
          intro x hx
          have h1 := (List.mem_filter.1 hx).2
          simp only [onPid, decide_eq_true_eq] at h1
          rw [if_neg]
          · rfl
          · intro h2
            rw [h2] at h1
            cases h1
            exact e rfl
        rw [this]
        exact hk
    · rw [if_neg hc]
      simp only
      by_cases e : k = j
      · subst e
        rw [List.filter_cons_of_pos (by simp [OutPkt.on])] at hk
        generalize hw : r.waiting.filter (onPid k) = w at hk
        generalize hu : r.up.filter (InPkt.on k) = u at hk
        generalize hr : rest.filter (OutPkt.on k) = d at hk
        cases hk with
        | recd hp hq hc' =>
          rw [filter_level_gone hw hp]
          exact .free fun g => absurd (hc' g) hc
      · rw [filter_ne_level rfl e]
        rw [List.filter_cons_of_neg (by simp [OutPkt.on, Ne.symm e])] at hk
        exact hk
  | pubcomp j c =>
    simp only [Publisher.arrive]
    by_cases e : k = j
    · subst e
      rw [List.filter_cons_of_pos (by simp [OutPkt.on])] at hk
      generalize hw : r.waiting.filter (onPid k) = w at hk
      generalize hu : r.up.filter (InPkt.on k) = u at hk
      generalize hr : rest.filter (OutPkt.on k) = d at hk
      cases hk with
      | comp hp hq =>
        rw [filter_level_gone hw hp]
        exact .free fun _ => hq
    · rw [filter_ne_level rfl e]
      rw [List.filter_cons_of_neg (by simp [OutPkt.on, Ne.symm e])] at hk
      exact hk
  | _ =>
    rw [List.filter_cons_of_neg (by simp [OutPkt.on])] at hk
    exact hk

/-- The client publishes a message. -/
theorem Lines.hand (h : Lines ext pr good live q2 r) {p : Publish} {j : Pid}
    (hp : p.qosPid.pid? = some j) (hd : p.dup = false) (hu : r.unused j) :
    Lines ext pr good live q2 (r.hand p) := by
  intro k
  have hk := h k
  simp only [Publisher.hand, List.filter_append]
  by_cases e : k = j
  · subst e
    have hw : r.waiting.filter (onPid k) = [] := by
      rw [List.filter_eq_nil_iff]
      intro e he hc
      simp only [onPid, decide_eq_true_eq] at hc
      exact hu e he hc
    rw [List.filter_cons_of_pos (by simp [onPid, hp]),
      List.filter_cons_of_pos (by simp [InPkt.on, hp]), List.filter_nil, List.filter_nil]
    rw [hw] at hk ⊢
    generalize hu : r.up.filter (InPkt.on k) = u at hk ⊢
    generalize hr : r.down.filter (OutPkt.on k) = d at hk ⊢
    cases hk with
    | free hq =>
      have he : p = { p with dup := false } := by rw [← hd]
      rw [List.nil_append, List.nil_append]
      have := Line.pub (ext := ext) (pr := pr) (good := good) (live := live) (p := p) (d := false) hp
        (fun g => .inl (hq g)) (fun g _ => hq g)
      rw [← he] at this
      exact this
  · have hne : ¬ p.qosPid.pid? = some k := by rw [hp]; intro h; cases h; exact e rfl
    rw [List.filter_cons_of_neg (by simp [onPid, hne]),
      List.filter_cons_of_neg (by simp [InPkt.on, hne]), List.filter_nil, List.filter_nil,
      List.append_nil, List.append_nil]
    exact hk

theorem on_sentAgain (k : Pid) (e : Publish × Bool) : (sentAgain e).on k = onPid k e := by
  obtain ⟨p, b⟩ := e
  unfold sentAgain onPid
  simp only
  split
  · rename_i h; simp [h, InPkt.on, QosPid.pid?]
  · rfl

theorem filter_sentAgain (k : Pid) (w : List (Publish × Bool)) :
    (w.map sentAgain).filter (InPkt.on k) = (w.filter (onPid k)).map sentAgain := by
  rw [List.filter_map]
  congr 2
  funext e
  exact on_sentAgain k e

theorem sentAgain_false (p : Publish) : sentAgain (p, false) = .publish { p with dup := true } := by
  unfold sentAgain
  simp only
  split
  · rename_i h; cases h
  · rfl

theorem sentAgain_true {p : Publish} (h : p.qosPid = .level2 k) : sentAgain (p, true) = .pubrel k := by
  unfold sentAgain
  simp only [h]

/-- A new connection. -/
theorem Lines.connect {live' : Bool} (h : Lines ext pr good live q2 r) (out : List OutPkt)
    (hout : out.filter OutPkt.isAck = []) (missed : List Publish) :
    Lines ext pr good live' q2
      { r with down := out, up := r.waiting.map sentAgain, missed := missed } := by
  intro k
  have hk := h k
  simp only
  rw [filter_on, hout, List.filter_nil, filter_sentAgain]
  generalize hw : r.waiting.filter (onPid k) = w at hk ⊢
  generalize hu : r.up.filter (InPkt.on k) = u at hk
  generalize hr : r.down.filter (OutPkt.on k) = d at hk
  cases hk with
  | free hq => exact .free hq
  | @quiet p b q hp hb hl hq =>
    rw [List.map_cons, List.map_nil]
    cases b
    · rw [sentAgain_false]
      exact .pub hp hq (fun _ h => by cases h)
    · rw [sentAgain_true (hb rfl)]
      exact .rel (hb rfl) hq
  | pub hp hq hd =>
    rw [List.map_cons, List.map_nil, sentAgain_false]
    exact .pub hp hq (fun _ h => by cases h)
  | ack hp hq =>
    rw [List.map_cons, List.map_nil, sentAgain_false]
    exact .pub (by rw [hp]; rfl) (fun g => .inl (hq g)) (fun _ h => by cases h)
  | recd hp hq hc =>
    rw [List.map_cons, List.map_nil, sentAgain_false]
    exact .pub (by rw [hp]; rfl) hq (fun _ h => by cases h)
  | rel hp hq =>
    rw [List.map_cons, List.map_nil, sentAgain_true hp]
    exact .rel hp hq
  | comp hp hq =>
    rw [List.map_cons, List.map_nil, sentAgain_true hp]
    exact .rel hp (fun _ => .inl hq)

/-- A step in which nothing of the exchanges is read. -/
theorem Lines.other {live' : Bool} (h : Lines ext pr good live q2 r) (hl : live' = true → live = true)
    (out : List OutPkt) (hout : out.filter OutPkt.isAck = []) :
    Lines ext pr good live' q2 { r with down := r.down ++ out } := by
  intro k
  simp only
  rw [List.filter_append, filter_on out, hout, List.filter_nil, List.append_nil]
  exact (h k).weaken hl

/-- What holds when the first packet is read and answered. -/
theorem Lines.read {live' : Bool} {q2' : FMap Pid Nat} {x : InPkt} {rest : List InPkt}
    (h : Lines ext pr good live q2 r) (hl : live' = true → live = true) (hup : r.up = x :: rest)
    (j : Pid) (hx : x.on j = true) (hxo : ∀ k, k ≠ j → x.on k = false)
    (hq : ∀ k, k ≠ j → q2'.get k = q2.get k)
    (out acks : List OutPkt) (hout : out.filter OutPkt.isAck = acks)
    (hao : ∀ o ∈ acks, ∀ k, k ≠ j → o.on k = false) (hao' : ∀ o ∈ acks, o.on j = true)
    (hj : ∀ w d, r.waiting.filter (onPid j) = w → r.down.filter (OutPkt.on j) = d →
      Line ext pr good live j w (x :: rest.filter (InPkt.on j)) d (q2.get j) →
      Line ext pr good live' j w (rest.filter (InPkt.on j)) (d ++ acks) (q2'.get j)) :
    Lines ext pr good live' q2' { r with up := rest, down := r.down ++ out } := by
  intro k
  have hk := h k
  rw [hup] at hk
  simp only
  rw [List.filter_append, filter_on out, hout]
  by_cases e : k = j
  · subst e
    rw [List.filter_cons_of_pos hx] at hk
    have : acks.filter (OutPkt.on k) = acks := List.filter_eq_self.2 hao'
    rw [this]
    exact hj _ _ rfl rfl hk
  · have : acks.filter (OutPkt.on k) = [] := by
      rw [List.filter_eq_nil_iff]
      intro o ho
      rw [hao o ho k e]
      decide
    rw [this, List.append_nil, hq k e]
    rw [List.filter_cons_of_neg (by rw [hxo k e]; decide)] at hk
    exact hk.weaken hl

theorem publishes_on {x : InPkt} (h : x.publishes = true) :
    ∃ j, x.on j = true ∧ ∀ k, k ≠ j → x.on k = false := by
  cases x with
  | publish p =>
    simp only [InPkt.publishes, decide_eq_true_eq] at h
    cases hp : p.qosPid with
    | level0 => exact absurd hp h
    | level1 j =>
      exact ⟨j, by simp [InPkt.on, hp, QosPid.pid?], fun k hk => by
        simp [InPkt.on, hp, QosPid.pid?, Ne.symm hk]⟩
    | level2 j =>
      exact ⟨j, by simp [InPkt.on, hp, QosPid.pid?], fun k hk => by
        simp [InPkt.on, hp, QosPid.pid?, Ne.symm hk]⟩
  | pubrel j => exact ⟨j, by simp [InPkt.on], fun k hk => by simp [InPkt.on, Ne.symm hk]⟩
  | _ => cases h

theorem on_publish {p : Publish} {j : Pid} (h : p.qosPid.pid? = some j) :
    (InPkt.publish p).on j = true ∧ ∀ k, k ≠ j → (InPkt.publish p).on k = false :=
  ⟨by simp [InPkt.on, h], fun k hk => by simp [InPkt.on, h, Ne.symm hk]⟩

/-- A step in which a packet of an exchange is read. -/
theorem Lines.step {x : InPkt} {rest : List InPkt} {rec : Rec} (hr : Reads ext pr rec)
    (hgood : good → pr = .v5 → HashIgnoresDup ext)
    (hx : rec.received = some x) (hpx : x.publishes = true) (hup : r.up = x :: rest)
    (hpre : rec.pre.talking = true)
    (h : Lines ext pr good rec.pre.talking rec.pre.session.qos2 r) :
    Lines ext pr good rec.post.talking rec.post.session.qos2
      { r with up := rest, down := r.down ++ rec.res.out } := by
  have hl : rec.post.talking = true → rec.pre.talking = true := fun _ => hpre
  cases hr with
  | resume c he hq ha hr => exact absurd he (received_resume hx c)
  | other he hx' hq ha hr ht => rw [hx' x hx] at hpx; cases hpx
  | reject x' hx' hp hq ha hr ht =>
    rw [hx] at hx'
    cases hx'
    obtain ⟨j, h1, h2⟩ := publishes_on hp
    rw [hq]
    refine h.read hl hup j h1 h2 (fun _ _ => rfl) _ _ ha (fun _ h => by cases h)
      (fun _ h => by cases h) ?_
    intro w d _ _ hk
    rw [ht, List.append_nil]
    clear hp hpx
    generalize rest.filter (InPkt.on j) = u at hk ⊢
    cases hk with
    | pub hp hq hd => exact .quiet hp (fun h => by cases h) rfl hq
    | rel hp hq => exact .quiet (by rw [hp]; rfl) (fun _ => hp) rfl hq
  | one p j code m hx' hp hq ha hr hm =>
    rw [hx] at hx'
    cases hx'
    obtain ⟨h1, h2⟩ := on_publish (p := p) (j := j) (by rw [hp]; rfl)
    rw [hq]
    refine h.read hl hup j h1 h2 (fun _ _ => rfl) _ _ ha ?_ ?_ ?_
    · intro o ho k hk; rw [List.mem_singleton.1 ho]; simp [OutPkt.on, Ne.symm hk]
    · intro o ho; rw [List.mem_singleton.1 ho]; simp [OutPkt.on]
    intro w d _ _ hk
    generalize rest.filter (InPkt.on j) = u at hk ⊢
    cases hk with
    | @pub p0 dd q hp0 hq hd =>
      refine .ack hp fun g => ?_
      rcases hq g with h | ⟨h, _⟩
      · exact h
      · rw [show p0.qosPid = .level1 j from hp] at h; cases h
  | inUse p j prev hpr hx' hp hg hne hq ha hr =>
    rw [hx] at hx'
    cases hx'
    obtain ⟨h1, h2⟩ := on_publish (p := p) (j := j) (by rw [hp]; rfl)
    rw [hq]
    refine h.read hl hup j h1 h2 (fun _ _ => rfl) _ _ ha ?_ ?_ ?_
    · intro o ho k hk; rw [List.mem_singleton.1 ho]; simp [OutPkt.on, Ne.symm hk]
    · intro o ho; rw [List.mem_singleton.1 ho]; simp [OutPkt.on]
    intro w d _ _ hk
    generalize rest.filter (InPkt.on j) = u at hk ⊢
    cases hk with
    | @pub p0 dd q hp0 hq hd =>
      refine .recd hp hq fun g => ?_
      exfalso
      rcases hq g with h | ⟨_, h⟩
      · rw [hg] at h; cases h
      · rw [h hpr] at hg
        cases hg
        exact hne (hgood g hpr p0 dd)
  | repeated p j hx' hp hd hg hq ha hr =>
    rw [hx] at hx'
    cases hx'
    obtain ⟨h1, h2⟩ := on_publish (p := p) (j := j) (by rw [hp]; rfl)
    rw [hq]
    refine h.read hl hup j h1 h2 (fun _ _ => rfl) _ _ ha ?_ ?_ ?_
    · intro o ho k hk; rw [List.mem_singleton.1 ho]; simp [OutPkt.on, Ne.symm hk]
    · intro o ho; rw [List.mem_singleton.1 ho]; simp [OutPkt.on]
    intro w d _ _ hk
    generalize rest.filter (InPkt.on j) = u at hk ⊢
    cases hk with
    | @pub p0 dd q hp0 hq hd => exact .recd hp hq fun _ => rfl
  | late p j hx' hp hd hg hq ha hr =>
    rw [hx] at hx'
    cases hx'
    obtain ⟨h1, h2⟩ := on_publish (p := p) (j := j) (by rw [hp]; rfl)
    refine h.read hl hup j h1 h2 (fun k hk => ?_) _ _ ha ?_ ?_ ?_
    · rw [hq, FMap.get_insert, if_neg (Ne.symm hk)]
    · intro o ho k hk; rw [List.mem_singleton.1 ho]; simp [OutPkt.on, Ne.symm hk]
    · intro o ho; rw [List.mem_singleton.1 ho]; simp [OutPkt.on]
    intro w d _ _ hk
    rw [hq, FMap.get_insert, if_pos rfl]
    generalize rest.filter (InPkt.on j) = u at hk ⊢
    cases hk with
    | @pub p0 dd q hp0 hq hd =>
      exact .recd hp (fun g => .inr ⟨hp, fun hpr => by rw [hgood g hpr p0 dd]⟩) fun _ => rfl
  | two p j code m hx' hp hd hg hq ha hc hr hm =>
    rw [hx] at hx'
    cases hx'
    obtain ⟨h1, h2⟩ := on_publish (p := p) (j := j) (by rw [hp]; rfl)
    refine h.read hl hup j h1 h2 (fun k hk => ?_) _ _ ha ?_ ?_ ?_
    · rw [hq, FMap.get_insert, if_neg (Ne.symm hk)]
    · intro o ho k hk; rw [List.mem_singleton.1 ho]; simp [OutPkt.on, Ne.symm hk]
    · intro o ho; rw [List.mem_singleton.1 ho]; simp [OutPkt.on]
    intro w d _ _ hk
    rw [hq, FMap.get_insert, if_pos rfl]
    generalize rest.filter (InPkt.on j) = u at hk ⊢
    cases hk with
    | @pub p0 dd q hp0 hq hd =>
      exact .recd hp (fun g => .inr ⟨hp, fun hpr => by rw [hgood g hpr p0 dd]⟩) fun _ => hc
  | release j code hx' hv hq ha hr =>
    rw [hx] at hx'
    cases hx'
    refine h.read hl hup j (by simp [InPkt.on]) (fun k hk => by simp [InPkt.on, Ne.symm hk])
      (fun k hk => ?_) _ _ ha ?_ ?_ ?_
    · rw [hq, FMap.get_erase_ne _ (Ne.symm hk)]
    · intro o ho k hk; rw [List.mem_singleton.1 ho]; simp [OutPkt.on, Ne.symm hk]
    · intro o ho; rw [List.mem_singleton.1 ho]; simp [OutPkt.on]
    intro w d _ _ hk
    generalize rest.filter (InPkt.on j) = u at hk ⊢
    cases hk with
    | rel hp hq' =>
      refine .comp hp ?_
      rw [hq, FMap.get_erase_self]

end Akasa
