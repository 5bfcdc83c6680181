import Verif.Proof.Once
/-! # The state of the queue, of the network and of the client -/
namespace Akasa

variable {cfg : Config} {ext : Ext} {pr : Proto} {exp : PubPacket → Option Nat}

/-- A message with this identifier is on its way. -/
def PubIn (l : List OutPkt) (k : Pid) : Prop := ∃ w, OutPkt.publish w ∈ l ∧ w.qosPid.pid? = some k

/-- A message with this identifier was passed on. -/
def GotIn (got : List Publish) (k : Pid) : Prop := ∃ w ∈ got, w.qosPid.pid? = some k

/-- The same for QoS 2. -/
def GotTwo (got : List Publish) (k : Pid) : Prop := ∃ w ∈ got, w.qosPid = .level2 k

/-- The packet has the message that got this identifier. -/
def Shown (pr : Proto) (D : List PubPacket) (k : Pid) (w : Publish) : Prop :=
  ∃ p d e, 1 ≤ k ∧ D[k - 1]? = some p ∧ p.qos ≠ 0 ∧ Carries pr (.publish k p d e) (.publish w)

theorem pubIn_nil (k : Pid) : ¬ PubIn [] k := by rintro ⟨w, h, _⟩; cases h

theorem pubIn_append {a b : List OutPkt} {k : Pid} : PubIn (a ++ b) k ↔ PubIn a k ∨ PubIn b k := by
  unfold PubIn
  simp only [List.mem_append]
  constructor
  · rintro ⟨w, h | h, h1⟩
    · exact .inl ⟨w, h, h1⟩
    · exact .inr ⟨w, h, h1⟩
  · rintro (⟨w, h, h1⟩ | ⟨w, h, h1⟩)
    · exact ⟨w, .inl h, h1⟩
    · exact ⟨w, .inr h, h1⟩

theorem pubIn_cons {o : OutPkt} {l : List OutPkt} {k : Pid} :
    PubIn (o :: l) k ↔ PubIn [o] k ∨ PubIn l k := pubIn_append (a := [o])

theorem pubIn_one {w : Publish} {k : Pid} : PubIn [.publish w] k ↔ w.qosPid.pid? = some k := by
  unfold PubIn
  constructor
  · rintro ⟨v, h, h1⟩
    cases List.mem_singleton.1 h
    exact h1
  · exact fun h => ⟨w, by simp, h⟩

theorem gotIn_append {a : List Publish} {w : Publish} {k : Pid} :
    GotIn (a ++ [w]) k ↔ GotIn a k ∨ w.qosPid.pid? = some k := by
  unfold GotIn
  simp only [List.mem_append, List.mem_singleton]
  constructor
  · rintro ⟨v, h | rfl, h1⟩
    · exact .inl ⟨v, h, h1⟩
    · exact .inr h1
  · rintro (⟨v, h, h1⟩ | h)
    · exact ⟨v, .inl h, h1⟩
    · exact ⟨w, .inr rfl, h⟩

theorem gotTwo_append {a : List Publish} {w : Publish} {k : Pid} :
    GotTwo (a ++ [w]) k ↔ GotTwo a k ∨ w.qosPid = .level2 k := by
  unfold GotTwo
  simp only [List.mem_append, List.mem_singleton]
  constructor
  · rintro ⟨v, h | rfl, h1⟩
    · exact .inl ⟨v, h, h1⟩
    · exact .inr h1
  · rintro (⟨v, h, h1⟩ | h)
    · exact ⟨v, .inl h, h1⟩
    · exact ⟨w, .inr rfl, h⟩

theorem GotTwo.got {a : List Publish} {k : Pid} (h : GotTwo a k) : GotIn a k := by
  obtain ⟨w, h, h1⟩ := h
  exact ⟨w, h, by rw [h1]; rfl⟩

theorem Shown.qosPid {D : List PubPacket} {k : Pid} {w : Publish} (h : Shown pr D k w) :
    ∃ p, D[k - 1]? = some p ∧ w.qosPid = p.qosPid k := by
  obtain ⟨p, d, e, _, h1, _, h3⟩ := h
  exact ⟨p, h1, h3.2.1⟩

theorem Shown.same {D : List PubPacket} {k : Pid} {v w : Publish} (h : Shown pr D k v)
    (h' : Shown pr D k w) : v.qosPid = w.qosPid := by
  obtain ⟨p, h1, h2⟩ := h.qosPid
  obtain ⟨q, k1, k2⟩ := h'.qosPid
  rw [h1] at k1
  cases k1
  rw [h2, k2]

theorem Shown.append {D D' : List PubPacket} {k : Pid} {w : Publish} (h : Shown pr D k w) :
    Shown pr (D ++ D') k w := by
  obtain ⟨p, d, e, h1, h2, h3⟩ := h
  refine ⟨p, d, e, h1, ?_, h3⟩
  rw [List.getElem?_append_left]
  · exact h2
  · exact (List.getElem?_eq_some_iff.1 h2).1

theorem Shown.le {D : List PubPacket} {k : Pid} {w : Publish} (h : Shown pr D k w) :
    1 ≤ k ∧ k ≤ D.length := by
  obtain ⟨p, d, e, h1, h2, h3⟩ := h
  have := (List.getElem?_eq_some_iff.1 h2).1
  exact ⟨h1, Nat.le_of_pred_lt this⟩

theorem firstsOf_snoc (got : List Publish) (w : Publish) : firstsOf (got ++ [w]) =
    if w.qosPid = .level0 ∨ ∃ v ∈ firstsOf got, v.qosPid = w.qosPid then firstsOf got
    else firstsOf got ++ [w] := by
  unfold firstsOf
  rw [List.foldl_append]
  rfl

theorem firstsOf_sub (got : List Publish) : ∀ w ∈ firstsOf got, w ∈ got ∧ w.qosPid ≠ .level0 := by
  induction got using snoc_induction with
  | nil => exact fun w h => by cases h
  | snoc got v ih =>
    intro w h
    rw [firstsOf_snoc] at h
    split at h
    · exact ⟨List.mem_append_left _ (ih w h).1, (ih w h).2⟩
    · rename_i hn
      rcases List.mem_append.1 h with h | h
      · exact ⟨List.mem_append_left _ (ih w h).1, (ih w h).2⟩
      · rw [List.mem_singleton] at h
        subst h
        exact ⟨by simp, fun h => hn (.inl h)⟩

theorem firstsOf_mem (got : List Publish) :
    ∀ w ∈ got, w.qosPid ≠ .level0 → ∃ v ∈ firstsOf got, v.qosPid = w.qosPid := by
  induction got using snoc_induction with
  | nil => exact fun w h => by cases h
  | snoc got v ih =>
    intro w h h0
    rw [firstsOf_snoc]
    rcases List.mem_append.1 h with h | h
    · obtain ⟨x, h1, h2⟩ := ih w h h0
      split
      · exact ⟨x, h1, h2⟩
      · exact ⟨x, List.mem_append_left _ h1, h2⟩
    · rw [List.mem_singleton] at h
      subst h
      split
      · rename_i hn
        rcases hn with hn | hn
        · exact absurd hn h0
        · exact hn
      · exact ⟨w, by simp, rfl⟩

theorem pid_ne0 {q : QosPid} {k : Pid} (h : q.pid? = some k) : q ≠ .level0 := by
  rintro rfl
  cases h

/-- The identifier of a packet, 0 if it has none. -/
def Publish.pid0 (w : Publish) : Pid := w.qosPid.pid?.getD 0

/-- The queue `s`, the messages `D` that have become due, the network and the client.  `keep`: no
message is dropped or expires; `live`: there is a connection. -/
structure Once (keep live : Bool) (pr : Proto) (D : List PubPacket) (s : Sender PubPacket)
    (r : Receiver) : Prop where
  next : s.nextPid = pidOf D.length
  sorted : s.pids.Pairwise (· < ·)
  range : ∀ k ∈ s.pids, 1 ≤ k ∧ k ≤ D.length
  entry : ∀ a l k p d, PStatus.new a l k p d ∈ s.pending.packets → D[k - 1]? = some p
  qos : ∀ p ∈ D, p.qos ≠ 0
  down : ∀ w, OutPkt.publish w ∈ r.down → ∀ k, w.qosPid.pid? = some k → Shown pr D k w
  got : ∀ w ∈ r.got, ∀ k, w.qosPid.pid? = some k → Shown pr D k w
  firsts : ((firstsOf r.got).map Publish.pid0).Pairwise (· < ·)
  once : twosOf (firstsOf r.got) = twosOf r.got
  begun : ∀ k ∈ r.begun, GotTwo r.got k
  freed : ∀ k, GotTwo r.got k → k ∉ r.begun → ¬ NewIn s.pending.packets k ∧ ¬ PubIn r.down k
  rel : ∀ a b k c, r.down = a ++ .pubrel k c :: b →
    ¬ NewIn s.pending.packets k ∧ ¬ PubIn b k ∧ GotTwo r.got k
  marked : ∀ l k, PStatus.pubrec l k ∈ s.pending.packets → GotTwo r.got k
  acked : ∀ k, InPkt.puback k ∈ r.up → GotIn r.got k
  received : ∀ k, InPkt.pubrec k ∈ r.up → GotTwo r.got k
  ahead : ∀ a b w j, r.down = a ++ .publish w :: b → w.qosPid.pid? = some j → ∀ k, 1 ≤ k → k < j →
    GotIn r.got k ∨ PubIn a k ∨ ¬ NewIn s.pending.packets k ∧ ¬ PubIn b k
  over : ∀ j, GotIn r.got j → ∀ k, 1 ≤ k → k < j →
    GotIn r.got k ∨ ¬ NewIn s.pending.packets k ∧ ¬ PubIn r.down k
  win : live = true → ∀ k, PubIn r.down k ∨ InPkt.pubrec k ∈ r.up ∨ InPkt.puback k ∈ r.up →
    ∀ e ∈ s.pending.packets.drop s.pending.maxInflight, e.pid? ≠ some k
  sent : live = true → ∀ a l k p d, PStatus.new a l k p d ∈ s.pending.packets → l ≠ 0 →
    GotIn r.got k ∨ PubIn r.down k
  kept : keep = true → ∀ k, 1 ≤ k → k ≤ D.length → NewIn s.pending.packets k ∨ GotIn r.got k
  plain : keep = true → ∀ p ∈ s.msgs, expiryOf pr p = none

variable {keep live : Bool} {D : List PubPacket} {s : Sender PubPacket} {r : Receiver}

/-! ## A packet arrives -/

theorem Once.arrived (h : Once keep live pr D s r) {o : OutPkt} {rest : List OutPkt}
    (hd : r.down = o :: rest) {r' : Receiver} (h1 : r'.down = rest)
    (hgot : r'.got = r.got ∨ ∃ w, o = .publish w ∧ r'.got = r.got ++ [w])
    (hnew : ∀ k, PubIn [o] k → GotIn r'.got k)
    (firsts : ((firstsOf r'.got).map Publish.pid0).Pairwise (· < ·))
    (once : twosOf (firstsOf r'.got) = twosOf r'.got)
    (begun : ∀ k ∈ r'.begun, GotTwo r'.got k)
    (freed : ∀ k, GotTwo r'.got k → k ∉ r'.begun → ¬ NewIn s.pending.packets k ∧ ¬ PubIn rest k)
    (acked : ∀ k, InPkt.puback k ∈ r'.up → InPkt.puback k ∈ r.up ∨ PubIn [o] k)
    (received : ∀ k, InPkt.pubrec k ∈ r'.up →
      InPkt.pubrec k ∈ r.up ∨ PubIn [o] k ∧ GotTwo r'.got k) :
    Once keep live pr D s r' := by
  have hmono : ∀ k, GotIn r.got k → GotIn r'.got k := by
    intro k hk
    rcases hgot with e | ⟨w, _, e⟩ <;> rw [e]
    · exact hk
    · exact gotIn_append.2 (.inl hk)
  have hmono2 : ∀ k, GotTwo r.got k → GotTwo r'.got k := by
    intro k hk
    rcases hgot with e | ⟨w, _, e⟩ <;> rw [e]
    · exact hk
    · exact gotTwo_append.2 (.inl hk)
  have hback : ∀ k, GotIn r'.got k → GotIn r.got k ∨ PubIn [o] k := by
    intro k hk
    rcases hgot with e | ⟨w, rfl, e⟩ <;> rw [e] at hk
    · exact .inl hk
    · exact (gotIn_append.1 hk).imp id pubIn_one.2
  have hsub : ∀ k, PubIn rest k → PubIn r.down k := fun k hk => by
    rw [hd]; exact pubIn_cons.2 (.inr hk)
  refine
    { next := h.next, sorted := h.sorted, range := h.range, entry := h.entry, qos := h.qos
      down := fun w hw => h.down w (by rw [hd]; rw [h1] at hw; exact List.mem_cons_of_mem _ hw)
      got := ?_
      firsts := firsts, once := once, begun := begun, freed := by rw [h1]; exact freed
      rel := ?_
      marked := fun l k hk => hmono2 k (h.marked l k hk)
      acked := ?_
      received := ?_
      ahead := ?_
      over := ?_
      win := ?_
      sent := ?_
      kept := fun hk k k1 k2 => (h.kept hk k k1 k2).imp id (hmono k)
      plain := h.plain }
  · intro w hw
    rcases hgot with e | ⟨v, rfl, e⟩ <;> rw [e] at hw
    · exact h.got w hw
    · rcases List.mem_append.1 hw with hw | hw
      · exact h.got w hw
      · rw [List.mem_singleton] at hw
        subst hw
        exact h.down w (by rw [hd]; simp)
  · intro a b k c hab
    rw [h1] at hab
    obtain ⟨k1, k2, k3⟩ := h.rel (o :: a) b k c (by rw [hd, hab]; rfl)
    exact ⟨k1, k2, hmono2 k k3⟩
  · intro k hk
    rcases acked k hk with hk | hk
    · exact hmono k (h.acked k hk)
    · exact hnew k hk
  · intro k hk
    rcases received k hk with hk | hk
    · exact hmono2 k (h.received k hk)
    · exact hk.2
  · intro a b w j hab hw k k1 k2
    rw [h1] at hab
    rcases h.ahead (o :: a) b w j (by rw [hd, hab]; rfl) hw k k1 k2 with hg | hg | hg
    · exact .inl (hmono k hg)
    · rcases pubIn_cons.1 hg with hg | hg
      · exact .inl (hnew k hg)
      · exact .inr (.inl hg)
    · exact .inr (.inr hg)
  · intro j hj k k1 k2
    rw [h1]
    rcases hback j hj with hj | hj
    · rcases h.over j hj k k1 k2 with hg | ⟨hg, hg'⟩
      · exact .inl (hmono k hg)
      · exact .inr ⟨hg, fun hp => hg' (hsub k hp)⟩
    · obtain ⟨w, hw, hj⟩ := hj
      rw [List.mem_singleton] at hw
      subst hw
      rcases h.ahead [] rest w j hd hj k k1 k2 with hg | hg | hg
      · exact .inl (hmono k hg)
      · exact absurd hg (pubIn_nil k)
      · exact .inr hg
  · intro hl k hk
    refine h.win hl k ?_
    rw [h1] at hk
    rcases hk with hk | hk | hk
    · exact .inl (hsub k hk)
    · rcases received k hk with hk | hk
      · exact .inr (.inl hk)
      · exact .inl (by rw [hd]; exact pubIn_cons.2 (.inl hk.1))
    · rcases acked k hk with hk | hk
      · exact .inr (.inr hk)
      · exact .inl (by rw [hd]; exact pubIn_cons.2 (.inl hk))
  · intro hl a l k p d hp h0
    rcases h.sent hl a l k p d hp h0 with hg | hg
    · exact .inl (hmono k hg)
    · rw [hd] at hg
      rw [h1]
      rcases pubIn_cons.1 hg with hg | hg
      · exact .inl (hnew k hg)
      · exact .inr hg

/-- The first arrivals stay in order. -/
theorem Once.firsts_snoc (h : Once keep live pr D s r) {w : Publish} (hw : OutPkt.publish w ∈ r.down) :
    ((firstsOf (r.got ++ [w])).map Publish.pid0).Pairwise (· < ·) := by
  rw [firstsOf_snoc]
  split
  · exact h.firsts
  · rename_i hn
    rw [not_or] at hn
    obtain ⟨h0, hn⟩ := hn
    obtain ⟨k, hk⟩ : ∃ k, w.qosPid.pid? = some k := by
      cases hq : w.qosPid with
      | level0 => exact absurd hq h0
      | level1 k => exact ⟨k, rfl⟩
      | level2 k => exact ⟨k, rfl⟩
    have hsw := h.down w hw k hk
    rw [List.map_append, List.pairwise_append]
    refine ⟨h.firsts, List.pairwise_singleton _ _, fun x hx y hy => ?_⟩
    obtain ⟨v, hv, rfl⟩ := List.mem_map.1 hx
    rw [List.map_singleton, List.mem_singleton] at hy
    subst hy
    obtain ⟨hvg, hv0⟩ := firstsOf_sub _ v hv
    obtain ⟨j, hj⟩ : ∃ j, v.qosPid.pid? = some j := by
      cases hq : v.qosPid with
      | level0 => exact absurd hq hv0
      | level1 k => exact ⟨k, rfl⟩
      | level2 k => exact ⟨k, rfl⟩
    have hsv := h.got v hvg j hj
    have e1 : v.pid0 = j := by simp [Publish.pid0, hj]
    have e2 : w.pid0 = k := by simp [Publish.pid0, hk]
    rw [e1, e2]
    rcases Nat.lt_trichotomy j k with hlt | heq | hgt
    · exact hlt
    · subst heq
      exact absurd ⟨v, hv, hsv.same hsw⟩ hn
    · exfalso
      rcases h.over j ⟨v, hvg, hj⟩ k hsw.le.1 hgt with ⟨v', hv', hk'⟩ | ⟨_, hp⟩
      · obtain ⟨x, hx, hx'⟩ := firstsOf_mem _ v' hv' (pid_ne0 hk')
        exact hn ⟨x, hx, hx'.trans ((h.got v' hv' k hk').same hsw)⟩
      · exact hp ⟨w, hw, hk⟩

theorem twosOf_snoc (l : List Publish) (w : Publish) :
    twosOf (l ++ [w]) = if w.qosPid.qos = 2 then twosOf l ++ [w] else twosOf l := by
  unfold twosOf
  rw [List.filter_append]
  by_cases h : w.qosPid.qos = 2 <;> simp [h]

theorem Once.arrive (h : Once keep live pr D s r) {o : OutPkt} {rest : List OutPkt}
    (hd : r.down = o :: rest) : Once keep live pr D s (Receiver.arrive { r with down := rest } o) := by
  have hsub : ∀ k, PubIn rest k → PubIn r.down k := fun k hk => by
    rw [hd]; exact pubIn_cons.2 (.inr hk)
  have hquiet : (∀ w, o ≠ .publish w) → (∀ k c, o ≠ .pubrel k c) →
      Once keep live pr D s { r with down := rest } := by
    intro h1 h2
    refine h.arrived hd rfl (.inl rfl) ?_ h.firsts h.once h.begun
      (fun k k1 k2 => ⟨(h.freed k k1 k2).1, fun hp => (h.freed k k1 k2).2 (hsub k hp)⟩)
      (fun k hk => .inl hk) (fun k hk => .inl hk)
    rintro k ⟨w, hw, _⟩
    exact absurd (List.mem_singleton.1 hw).symm (h1 w)
  cases o with
  | publish w =>
    have hmem : OutPkt.publish w ∈ r.down := by rw [hd]; simp
    have hf := h.firsts_snoc hmem
    simp only [Receiver.arrive]
    cases hq : w.qosPid with
    | level0 =>
      simp only
      have e1 : firstsOf (r.got ++ [w]) = firstsOf r.got := by
        rw [firstsOf_snoc, if_pos (.inl hq)]
      have e2 : twosOf (r.got ++ [w]) = twosOf r.got := by
        rw [twosOf_snoc, if_neg (by rw [hq]; decide)]
      have hg : ∀ k, GotTwo (r.got ++ [w]) k ↔ GotTwo r.got k := by
        intro k
        rw [gotTwo_append, hq]
        exact or_iff_left (fun h => by cases h)
      refine h.arrived hd rfl (.inr ⟨w, rfl, rfl⟩) ?_ hf (by simp only [e1, e2]; exact h.once)
        (fun k hk => (hg k).2 (h.begun k hk))
        (fun k k1 k2 => ?_) (fun k hk => .inl hk) (fun k hk => .inl hk)
      · intro k hk
        rw [pubIn_one, hq] at hk
        cases hk
      · have := h.freed k ((hg k).1 k1) k2
        exact ⟨this.1, fun hp => this.2 (hsub k hp)⟩
    | level1 pid =>
      simp only
      have hg : ∀ k, GotTwo (r.got ++ [w]) k ↔ GotTwo r.got k := by
        intro k
        rw [gotTwo_append, hq]
        exact or_iff_left (fun h => by cases h)
      refine h.arrived hd rfl (.inr ⟨w, rfl, rfl⟩) (fun k hk => ?_) hf ?_
        (fun k hk => (hg k).2 (h.begun k hk)) (fun k k1 k2 => ?_) (fun k hk => ?_) (fun k hk => ?_)
      · exact gotIn_append.2 (.inr (pubIn_one.1 hk))
      · have hn : ¬ w.qosPid.qos = 2 := by rw [hq]; exact (by decide : ¬ (1 : QoS) = 2)
        simp only
        rw [twosOf_snoc, if_neg hn, firstsOf_snoc]
        split
        · exact h.once
        · rw [twosOf_snoc, if_neg hn]; exact h.once
      · have := h.freed k ((hg k).1 k1) k2
        exact ⟨this.1, fun hp => this.2 (hsub k hp)⟩
      · simp only [List.mem_append, List.mem_singleton] at hk
        refine hk.imp id fun hk => ?_
        cases hk
        rw [pubIn_one, hq]
        rfl
      · simp only [List.mem_append, List.mem_singleton] at hk
        rcases hk with hk | hk
        · exact .inl hk
        · cases hk
    | level2 pid =>
      simp only
      have hpid : w.qosPid.pid? = some pid := by rw [hq]; rfl
      split
      · rename_i hb
        refine h.arrived hd rfl (.inl rfl) (fun k hk => ?_) h.firsts h.once h.begun
          (fun k k1 k2 => ⟨(h.freed k k1 k2).1, fun hp => (h.freed k k1 k2).2 (hsub k hp)⟩)
          (fun k hk => ?_) (fun k hk => ?_)
        · rw [pubIn_one, hpid] at hk
          cases hk
          exact (h.begun pid hb).got
        · simp only [List.mem_append, List.mem_singleton] at hk
          rcases hk with hk | hk
          · exact .inl hk
          · cases hk
        · simp only [List.mem_append, List.mem_singleton] at hk
          refine hk.imp id fun hk => ?_
          cases hk
          exact ⟨pubIn_one.2 hpid, h.begun _ hb⟩
      · rename_i hb
        have hno : ¬ GotTwo r.got pid := fun hg => (h.freed pid hg hb).2 ⟨w, hmem, hpid⟩
        refine h.arrived hd rfl (.inr ⟨w, rfl, rfl⟩) (fun k hk => ?_) hf ?_
          (fun k hk => ?_) (fun k k1 k2 => ?_) (fun k hk => ?_) (fun k hk => ?_)
        · exact gotIn_append.2 (.inr (pubIn_one.1 hk))
        · have hn : w.qosPid.qos = 2 := by rw [hq]; rfl
          simp only
          rw [twosOf_snoc, if_pos hn, firstsOf_snoc, if_neg, twosOf_snoc, if_pos hn, h.once]
          rintro (hx | ⟨v, hv, hx⟩)
          · rw [hq] at hx; cases hx
          · exact hno ⟨v, (firstsOf_sub _ v hv).1, hx.trans hq⟩
        · rcases List.mem_cons.1 hk with rfl | hk
          · exact gotTwo_append.2 (.inr hq)
          · exact gotTwo_append.2 (.inl (h.begun k hk))
        · simp only [List.mem_cons, not_or] at k2
          rcases gotTwo_append.1 k1 with k1 | k1
          · have := h.freed k k1 k2.2
            exact ⟨this.1, fun hp => this.2 (hsub k hp)⟩
          · rw [hq] at k1
            cases k1
            exact absurd rfl k2.1
        · simp only [List.mem_append, List.mem_singleton] at hk
          rcases hk with hk | hk
          · exact .inl hk
          · cases hk
        · simp only [List.mem_append, List.mem_singleton] at hk
          refine hk.imp id fun hk => ?_
          cases hk
          exact ⟨pubIn_one.2 hpid, gotTwo_append.2 (.inr hq)⟩
  | pubrel pid c =>
    simp only [Receiver.arrive]
    refine h.arrived hd rfl (.inl rfl) ?_ h.firsts h.once (fun k hk => ?_) (fun k k1 k2 => ?_)
      (fun k hk => ?_) (fun k hk => ?_)
    · rintro k ⟨w, hw, _⟩
      cases List.mem_singleton.1 hw
    · exact h.begun k (List.mem_filter.1 hk).1
    · by_cases hk : k = pid
      · subst hk
        obtain ⟨j1, j2, _⟩ := h.rel [] rest k c hd
        exact ⟨j1, j2⟩
      · have := h.freed k k1 (fun hb => k2 (List.mem_filter.2 ⟨hb, by simp [hk]⟩))
        exact ⟨this.1, fun hp => this.2 (hsub k hp)⟩
    · simp only [List.mem_append, List.mem_singleton] at hk
      rcases hk with hk | hk
      · exact .inl hk
      · cases hk
    · simp only [List.mem_append, List.mem_singleton] at hk
      rcases hk with hk | hk
      · exact .inl hk
      · cases hk
  | _ => exact hquiet (fun _ h => by cases h) (fun _ _ h => by cases h)

end Akasa
