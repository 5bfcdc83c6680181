import Verif.Proof.OnceInv
/-! # What the broker does, the network and the client -/
namespace Akasa

variable {cfg : Config} {ext : Ext} {pr : Proto}
variable {keep live : Bool} {D : List PubPacket} {s : Sender PubPacket} {r : Receiver}

/-! ## Packets that do not matter -/

theorem split_insert {α : Type} {a b a' b' : List α} {o x : α} (h : a ++ o :: b = a' ++ x :: b')
    (hne : o ≠ x) : (∃ c, a = a' ++ x :: c ∧ b' = c ++ o :: b) ∨
      ∃ c, a' = a ++ o :: c ∧ b = c ++ x :: b' := by
  rcases List.append_eq_append_iff.1 h with ⟨c, h1, h2⟩ | ⟨c, h1, h2⟩
  · cases c with
    | nil => cases h2; exact absurd rfl hne
    | cons y c => cases h2; exact .inr ⟨c, h1, rfl⟩
  · cases c with
    | nil => cases h2; exact absurd rfl hne
    | cons y c => cases h2; exact .inl ⟨c, h1, rfl⟩

theorem split_append {α : Type} {d os a b : List α} {x : α} (h : d ++ os = a ++ x :: b) :
    (∃ c, d = a ++ x :: c ∧ b = c ++ os) ∨ ∃ c, a = d ++ c ∧ os = c ++ x :: b := by
  rcases List.append_eq_append_iff.1 h with ⟨c, h1, h2⟩ | ⟨c, h1, h2⟩
  · exact .inr ⟨c, h1, h2⟩
  · cases c with
    | nil => exact .inr ⟨[], by rw [h1]; simp, by rw [h2]; simp⟩
    | cons y c => cases h2; exact .inl ⟨c, h1, rfl⟩

/-- The packet is neither a PUBLISH with QoS 1 or 2 nor a PUBREL. -/
def OutPkt.Quiet (o : OutPkt) : Prop := (∀ k, ¬ PubIn [o] k) ∧ ∀ k c, o ≠ .pubrel k c

theorem Once.insert {a b : List OutPkt} (h : Once keep live pr D s { r with down := a ++ b })
    {o : OutPkt} (ho : o.Quiet) : Once keep live pr D s { r with down := a ++ o :: b } := by
  have hp : ∀ (x y : List OutPkt) k, PubIn (x ++ o :: y) k ↔ PubIn (x ++ y) k := by
    intro x y k
    rw [pubIn_append, pubIn_append, pubIn_cons]
    constructor
    · rintro (h | h | h)
      · exact .inl h
      · exact absurd h (ho.1 k)
      · exact .inr h
    · rintro (h | h)
      · exact .inl h
      · exact .inr (.inr h)
  refine { h with down := ?_, freed := ?_, rel := ?_, ahead := ?_, over := ?_, win := ?_, sent := ?_ }
  · intro w hw k hk
    refine h.down w ?_ k hk
    simp only [List.mem_append, List.mem_cons] at hw ⊢
    rcases hw with hw | hw | hw
    · exact .inl hw
    · subst hw; exact absurd (pubIn_one.2 hk) (ho.1 k)
    · exact .inr hw
  · intro k k1 k2
    simp only [hp]
    exact h.freed k k1 k2
  · intro a' b' k c hab
    rcases split_insert hab (ho.2 k c) with ⟨e, h1, h2⟩ | ⟨e, h1, h2⟩
    · have := h.rel a' (e ++ b) k c (by simp only; rw [h1]; simp)
      rw [h2, hp]; exact this
    · exact h.rel (a ++ e) b' k c (by simp only; rw [h2]; simp)
  · intro a' b' w j hab hw k k1 k2
    have hne : o ≠ .publish w := fun e => by subst e; exact ho.1 j (pubIn_one.2 hw)
    rcases split_insert hab hne with ⟨e, h1, h2⟩ | ⟨e, h1, h2⟩
    · have := h.ahead a' (e ++ b) w j (by simp only; rw [h1]; simp) hw k k1 k2
      rw [h2, hp]; exact this
    · have := h.ahead (a ++ e) b' w j (by simp only; rw [h2]; simp) hw k k1 k2
      rw [h1, hp]; exact this
  · intro j hj k k1 k2
    simp only [hp]
    exact h.over j hj k k1 k2
  · intro hl k hk
    simp only [hp] at hk
    exact h.win hl k hk
  · intro hl a l k p d h1 h2
    simp only [hp]
    exact h.sent hl a l k p d h1 h2

theorem quiet_of_not_delivery {o : OutPkt} (h : o.isDelivery = false) : o.Quiet := by
  constructor
  · rintro k ⟨w, hw, _⟩
    rw [← List.mem_singleton.1 hw] at h
    cases h
  · rintro k c rfl
    cases h

theorem Once.unfilter (os : List OutPkt) {a : List OutPkt}
    (h : Once keep live pr D s { r with down := a ++ os.filter OutPkt.isDelivery }) :
    Once keep live pr D s { r with down := a ++ os } := by
  induction os generalizing a with
  | nil => exact h
  | cons o os ih =>
    rw [List.filter_cons] at h
    cases ho : o.isDelivery with
    | true =>
      simp only [ho, if_true] at h
      have := ih (a := a ++ [o]) (by simpa using h)
      simpa using this
    | false =>
      simp only [ho, Bool.false_eq_true, if_false] at h
      exact (ih h).insert (quiet_of_not_delivery ho)

/-! ## The rest of a step, as the client sees it -/

theorem arrive_down (r : Receiver) (d : List OutPkt) (o : OutPkt) :
    Receiver.arrive { r with down := d } o = { Receiver.arrive r o with down := d } := by
  cases o with
  | publish w =>
    simp only [Receiver.arrive]
    split
    · rfl
    · rfl
    · split <;> rfl
  | _ => rfl

/-- The packets sent. -/
def Obs.out? : Obs → Option OutPkt
  | .sent o => some o
  | _ => none

/-- Only messages and packets sent. -/
def Obs.plain : Obs → Bool
  | .sent _ => true
  | .took _ => true
  | .routed _ => true
  | _ => false

theorem Once.moves {obs : List Obs} {r' : Receiver} (hm : Receiver.Moves r obs r')
    (ho : ∀ o ∈ obs, o.plain = true)
    (h : Once keep live pr D s { r with down := r.down ++ obs.filterMap Obs.out? }) :
    Once keep live pr D s r' := by
  induction hm with
  | done r => simpa using h
  | @arrive r r' o rest obs hd hm ih =>
    refine ih ho ?_
    have h2 := h.arrive (o := o) (rest := rest ++ obs.filterMap Obs.out?) (by simp only; rw [hd]; rfl)
    rw [arrive_down] at h2 ⊢
    rw [arrive_down] at h2
    exact h2
  | @see r r1 r' o obs hs hm ih =>
    have ho' : ∀ o ∈ obs, o.plain = true := fun o h => ho o (List.mem_cons_of_mem _ h)
    have hp := ho o (List.mem_cons_self ..)
    refine ih ho' ?_
    cases o with
    | connected b c => cases hp
    | received p => cases hp
    | took m => cases hs; exact h
    | routed m => cases hs; exact h
    | sent x =>
      cases hs
      simpa [List.filterMap_cons, Obs.out?] using h

theorem Once.settle {r' : Receiver} (hm : Receiver.Moves r [] r') (h : Once keep live pr D s r) :
    Once keep live pr D s r' :=
  Once.moves hm (fun _ h => by cases h) (by simpa using h)

theorem moves_cons {o : Obs} {obs : List Obs} {r' : Receiver} (hm : Receiver.Moves r (o :: obs) r') :
    ∃ r1 r2, Receiver.Moves r [] r1 ∧ r1.sees o = some r2 ∧ Receiver.Moves r2 obs r' := by
  generalize he : o :: obs = l at hm
  induction hm with
  | done r => cases he
  | arrive hd hm ih =>
    obtain ⟨r1, r2, h1, h2⟩ := ih he
    exact ⟨r1, r2, .arrive hd h1, h2⟩
  | see hs hm ih => cases he; exact ⟨_, _, .done _, hs, hm⟩

theorem moves_append {a b : List Obs} {r' : Receiver} (hm : Receiver.Moves r (a ++ b) r') :
    ∃ m, Receiver.Moves r a m ∧ Receiver.Moves m b r' := by
  induction a generalizing r with
  | nil => exact ⟨r, .done r, hm⟩
  | cons o a ih =>
    obtain ⟨r1, r2, h1, h2, h3⟩ := moves_cons hm
    obtain ⟨m, h4, h5⟩ := ih h3
    refine ⟨m, ?_, h5⟩
    clear hm h3 h5 ih
    generalize he : ([] : List Obs) = l at h1
    induction h1 with
    | done r => exact .see h2 h4
    | arrive hd hm ih => exact .arrive hd (ih h2 he)
    | see hs hm ih => cases he

/-! ## Operations on the queue -/

theorem entry_unique {l : List (PStatus PubPacket)} (hnd : (l.filterMap PStatus.pid?).Nodup)
    {e e' : PStatus PubPacket} (he : e ∈ l) (he' : e' ∈ l) {k : Pid} (h : e.pid? = some k)
    (h' : e'.pid? = some k) : e = e' := by
  induction l with
  | nil => cases he
  | cons x l ih =>
    have hnd' : (l.filterMap PStatus.pid?).Nodup :=
      ((List.sublist_cons_self x l).filterMap _).nodup hnd
    have hown : ∀ y ∈ l, y.pid? = some k → x.pid? ≠ some k := by
      intro y hy hyk hx
      rw [List.filterMap_cons, hx] at hnd
      exact (List.nodup_cons.1 hnd).1 (List.mem_filterMap.2 ⟨y, hy, hyk⟩)
    rcases List.mem_cons.1 he with rfl | he1 <;> rcases List.mem_cons.1 he' with rfl | he2
    · rfl
    · exact absurd h (hown _ he2 h')
    · exact absurd h' (hown _ he1 h)
    · exact ih hnd' he1 he2

theorem Once.pidLe (h : Once keep live pr D s r) {k : Pid} (hk : PubIn r.down k ∨ GotIn r.got k) :
    1 ≤ k ∧ k ≤ D.length := by
  rcases hk with ⟨w, h1, h2⟩ | ⟨w, h1, h2⟩
  · exact (h.down w h1 k h2).le
  · exact (h.got w h1 k h2).le

/-- The queue gets smaller, answers get lost. -/
theorem Once.shrink (h : Once keep live pr D s r) {s' : Sender PubPacket} {r' : Receiver}
    {live' : Bool} (hdown : r'.down = r.down) (hgot : r'.got = r.got) (hbegun : r'.begun = r.begun)
    (hup : ∀ x ∈ r'.up, x ∈ r.up) (next : s'.nextPid = s.nextPid) (sorted : s'.pids.Sublist s.pids)
    (new : ∀ a l k p d, PStatus.new a l k p d ∈ s'.pending.packets →
      ∃ a' l' d', PStatus.new a' l' k p d' ∈ s.pending.packets)
    (marked : ∀ l k, PStatus.pubrec l k ∈ s'.pending.packets → GotTwo r.got k)
    (hlive : live' = true → live = true ∧
      (∀ e ∈ s'.pending.packets.drop s'.pending.maxInflight, ∀ k, e.pid? = some k →
        ∃ e ∈ s.pending.packets.drop s.pending.maxInflight, e.pid? = some k) ∧
      ∀ a l k p d, PStatus.new a l k p d ∈ s'.pending.packets →
        PStatus.new a l k p d ∈ s.pending.packets)
    (kept : keep = true → ∀ k, NewIn s.pending.packets k →
      NewIn s'.pending.packets k ∨ GotIn r.got k) :
    Once keep live' pr D s' r' := by
  have hnew : ∀ k, NewIn s'.pending.packets k → NewIn s.pending.packets k := by
    rintro k ⟨a, l, p, d, hk⟩
    obtain ⟨a', l', d', hk⟩ := new a l k p d hk
    exact ⟨a', l', p, d', hk⟩
  refine
    { next := next.trans h.next, sorted := h.sorted.sublist sorted
      range := fun k hk => h.range k (sorted.subset hk)
      entry := ?_, qos := h.qos
      down := by rw [hdown]; exact h.down
      got := by rw [hgot]; exact h.got
      firsts := by rw [hgot]; exact h.firsts
      once := by rw [hgot]; exact h.once
      begun := by rw [hgot, hbegun]; exact h.begun
      freed := ?_
      rel := ?_
      marked := by rw [hgot]; exact marked
      acked := fun k hk => by rw [hgot]; exact h.acked k (hup _ hk)
      received := fun k hk => by rw [hgot]; exact h.received k (hup _ hk)
      ahead := ?_
      over := ?_
      win := ?_
      sent := ?_
      kept := ?_
      plain := ?_ }
  · intro a l k p d hk
    obtain ⟨a', l', d', hk⟩ := new a l k p d hk
    exact h.entry _ _ _ _ _ hk
  · rw [hgot, hbegun, hdown]
    exact fun k k1 k2 => ⟨fun hn => (h.freed k k1 k2).1 (hnew k hn), (h.freed k k1 k2).2⟩
  · rw [hgot, hdown]
    intro a b k c hab
    obtain ⟨k1, k2, k3⟩ := h.rel a b k c hab
    exact ⟨fun hn => k1 (hnew k hn), k2, k3⟩
  · rw [hgot, hdown]
    intro a b w j hab hw k k1 k2
    rcases h.ahead a b w j hab hw k k1 k2 with hg | hg | hg
    · exact .inl hg
    · exact .inr (.inl hg)
    · exact .inr (.inr ⟨fun hn => hg.1 (hnew k hn), hg.2⟩)
  · rw [hgot, hdown]
    intro j hj k k1 k2
    rcases h.over j hj k k1 k2 with hg | hg
    · exact .inl hg
    · exact .inr ⟨fun hn => hg.1 (hnew k hn), hg.2⟩
  · intro hl k hk e he hek
    obtain ⟨l1, l2, _⟩ := hlive hl
    rw [hdown] at hk
    obtain ⟨e', he', hek'⟩ := l2 e he k hek
    exact h.win l1 k (hk.imp id (Or.imp (hup _) (hup _))) e' he' hek'
  · intro hl a l k p d hk h0
    obtain ⟨l1, _, l3⟩ := hlive hl
    rw [hgot, hdown]
    exact h.sent l1 a l k p d (l3 a l k p d hk) h0
  · intro hk k k1 k2
    rw [hgot]
    rcases h.kept hk k k1 k2 with hn | hn
    · exact kept hk k hn
    · exact .inr hn
  · intro hk p hp
    unfold Sender.msgs at hp
    obtain ⟨e, he, hpe⟩ := List.mem_filterMap.1 hp
    cases e with
    | new a l k q d =>
      cases hpe
      obtain ⟨a', l', d', he⟩ := new a l k p d he
      exact h.plain hk p (List.mem_filterMap.2 ⟨_, he, rfl⟩)
    | _ => cases hpe

theorem Once.weaken (h : Once keep live pr D s r) : Once keep false pr D s r :=
  { h with win := (fun h => by cases h), sent := (fun h => by cases h) }

theorem carries_parts {xs : List (Sent PubPacket)} {A B : List OutPkt} {o : OutPkt}
    (h : CarriesAll pr xs (A ++ o :: B)) :
    ∃ X x Y, xs = X ++ x :: Y ∧ CarriesAll pr X A ∧ Carries pr x o ∧ CarriesAll pr Y B := by
  induction A generalizing xs with
  | nil =>
    cases h with
    | cons h1 h2 => exact ⟨[], _, _, rfl, .nil, h1, h2⟩
  | cons y A ih =>
    cases h with
    | cons h1 h2 =>
      obtain ⟨X, x, Y, rfl, h3, h4, h5⟩ := ih h2
      exact ⟨_ :: X, x, Y, rfl, .cons h1 h3, h4, h5⟩

theorem carries_mem {xs : List (Sent PubPacket)} {os : List OutPkt} (h : CarriesAll pr xs os) :
    (∀ o ∈ os, ∃ x ∈ xs, Carries pr x o) ∧ ∀ x ∈ xs, ∃ o ∈ os, Carries pr x o := by
  induction h with
  | nil => exact ⟨(fun o h => by cases h), (fun o h => by cases h)⟩
  | cons h1 _ ih =>
    constructor
    · intro o ho
      rcases List.mem_cons.1 ho with rfl | ho
      · exact ⟨_, List.mem_cons_self .., h1⟩
      · obtain ⟨x, h2, h3⟩ := ih.1 o ho
        exact ⟨x, List.mem_cons_of_mem _ h2, h3⟩
    · intro x hx
      rcases List.mem_cons.1 hx with rfl | hx
      · exact ⟨_, List.mem_cons_self .., h1⟩
      · obtain ⟨x, h2, h3⟩ := ih.2 x hx
        exact ⟨x, List.mem_cons_of_mem _ h2, h3⟩

theorem carries_publish {x : Sent PubPacket} {w : Publish} (h : Carries pr x (.publish w)) :
    ∃ k p d e, x = .publish k p d e ∧ w.qosPid = p.qosPid k := by
  cases x with
  | publish k p d e => exact ⟨k, p, d, e, rfl, h.2.1⟩
  | pubrel k => cases h

theorem qosPid_pid {p : PubPacket} {k : Pid} (h : p.qos ≠ 0) : (p.qosPid k).pid? = some k := by
  rw [PubPacket.qosPid, if_neg h]
  split <;> rfl

/-- A pass while there is a connection. -/
theorem Once.pass (h : Once keep true pr D s r) {clk : Clock} {os : List OutPkt}
    (hc : CarriesAll pr (s.step (expiryOf pr) (.pass clk)).2 os) :
    Once keep true pr D (s.step (expiryOf pr) (.pass clk)).1 { r with down := r.down ++ os } := by
  have F := pass_facts (exp := expiryOf pr) (clk := clk) h.sorted
  generalize (s.step (expiryOf pr) (.pass clk)).1 = s' at F ⊢
  generalize (s.step (expiryOf pr) (.pass clk)).2 = xs at F hc
  have hnd := nodup_of_sorted h.sorted
  have hnew : ∀ k, NewIn s'.pending.packets k → NewIn s.pending.packets k := by
    rintro k ⟨a, l, p, d, hk⟩
    rcases F.entry a l k p d hk with hk | ⟨⟨l', d', hk⟩, _⟩
    · exact ⟨_, _, _, _, hk⟩
    · exact ⟨_, _, _, _, hk⟩
  have hq : ∀ {k p d e}, Sent.publish k p d e ∈ xs →
      D[k - 1]? = some p ∧ p.qos ≠ 0 ∧ 1 ≤ k := by
    intro k p d e hx
    obtain ⟨⟨a, l, h1⟩, _⟩ := F.sent k p d e hx
    have h2 := h.entry _ _ _ _ _ h1
    exact ⟨h2, h.qos p (List.mem_of_getElem? h2),
      (h.range k (List.mem_filterMap.2 ⟨_, h1, rfl⟩)).1⟩
  -- a PUBLISH on the wire and in the pass
  have hout : ∀ {w x k}, x ∈ xs → Carries pr x (.publish w) → w.qosPid.pid? = some k →
      ∃ p d e, x = .publish k p d e := by
    intro w x k hx hcx hw
    obtain ⟨k', p, d, e, rfl, h2⟩ := carries_publish hcx
    have := (hq hx).2.1
    rw [h2, qosPid_pid this] at hw
    cases hw
    exact ⟨p, d, e, rfl⟩
  have hpub : ∀ k, PubIn os k → ∃ p d e, Sent.publish k p d e ∈ xs := by
    rintro k ⟨w, hw, hk⟩
    obtain ⟨x, hx, hcx⟩ := (carries_mem hc).1 _ hw
    obtain ⟨p, d, e, rfl⟩ := hout hx hcx hk
    exact ⟨p, d, e, hx⟩
  have hpubs : ∀ {X : List (Sent PubPacket)} {A : List OutPkt}, CarriesAll pr X A →
      ∀ {k p d e}, Sent.publish k p d e ∈ X → Sent.publish k p d e ∈ xs → PubIn A k := by
    intro X A hX k p d e hx hxs
    obtain ⟨o, ho, hco⟩ := (carries_mem hX).2 _ hx
    cases o with
    | publish w =>
      refine ⟨w, ho, ?_⟩
      rw [hco.2.1]
      exact qosPid_pid (hq hxs).2.1
    | _ => cases hco
  have hnewpub : ∀ k, PubIn os k → NewIn s.pending.packets k := by
    intro k hk
    obtain ⟨p, d, e, hx⟩ := hpub k hk
    obtain ⟨⟨a, l, h1⟩, _⟩ := F.sent k p d e hx
    exact ⟨_, _, _, _, h1⟩
  refine
    { next := F.next.trans h.next, sorted := h.sorted.sublist F.sorted
      range := fun k hk => h.range k (F.sorted.subset hk)
      entry := ?_, qos := h.qos
      down := ?_
      got := h.got, firsts := h.firsts, once := h.once, begun := h.begun
      freed := ?_
      rel := ?_
      marked := fun l k hk => by
        obtain ⟨l', hk⟩ := F.marked l k hk
        exact h.marked l' k hk
      acked := h.acked
      received := h.received
      ahead := ?_
      over := ?_
      win := ?_
      sent := ?_
      kept := ?_
      plain := ?_ }
  · intro a l k p d hk
    rcases F.entry a l k p d hk with hk | ⟨⟨l', d', hk⟩, _⟩
    · exact h.entry _ _ _ _ _ hk
    · exact h.entry _ _ _ _ _ hk
  · intro w hw k hk
    rcases List.mem_append.1 hw with hw | hw
    · exact h.down w hw k hk
    · obtain ⟨x, hx, hcx⟩ := (carries_mem hc).1 _ hw
      obtain ⟨p, d, e, rfl⟩ := hout hx hcx hk
      obtain ⟨q1, q2, q3⟩ := hq hx
      exact ⟨p, d, e, q3, q1, q2, hcx⟩
  · intro k k1 k2
    obtain ⟨f1, f2⟩ := h.freed k k1 k2
    refine ⟨fun hn => f1 (hnew k hn), fun hp => ?_⟩
    rcases pubIn_append.1 hp with hp | hp
    · exact f2 hp
    · exact f1 (hnewpub k hp)
  · intro a b k c hab
    rcases split_append hab with ⟨e, h1, h2⟩ | ⟨e, h1, h2⟩
    · obtain ⟨k1, k2, k3⟩ := h.rel a e k c h1
      refine ⟨fun hn => k1 (hnew k hn), fun hp => ?_, k3⟩
      rw [h2] at hp
      rcases pubIn_append.1 hp with hp | hp
      · exact k2 hp
      · exact k1 (hnewpub k hp)
    · rw [h2] at hc
      obtain ⟨X, x, Y, hx, _, hcx, hY⟩ := carries_parts hc
      have hxr : x = .pubrel k := by
        cases x with
        | publish k' p d e => cases hcx
        | pubrel k' => rw [show k = k' from hcx]
      subst hxr
      obtain ⟨l, hl⟩ := F.rel k (by rw [hx]; simp)
      have hno : ¬ NewIn s.pending.packets k := by
        rintro ⟨a, n, p, d, hn⟩
        have := entry_unique hnd hl hn (k := k) rfl rfl
        cases this
      refine ⟨fun hn => hno (hnew k hn), fun hp => ?_, h.marked l k hl⟩
      refine hno (hnewpub k ?_)
      rw [h2]
      exact pubIn_append.2 (.inr (pubIn_cons.2 (.inr hp)))
  · intro a b w j hab hw k k1 k2
    rcases split_append hab with ⟨e, h1, h2⟩ | ⟨e, h1, h2⟩
    · rcases h.ahead a e w j h1 hw k k1 k2 with hg | hg | hg
      · exact .inl hg
      · exact .inr (.inl hg)
      · refine .inr (.inr ⟨fun hn => hg.1 (hnew k hn), fun hp => ?_⟩)
        rw [h2] at hp
        rcases pubIn_append.1 hp with hp | hp
        · exact hg.2 hp
        · exact hg.1 (hnewpub k hp)
    · by_cases hn : NewIn s'.pending.packets k
      · obtain ⟨a1, l1, p1, d1, hs1⟩ := hnew k hn
        by_cases h0 : l1 = 0
        · subst h0
          rw [h2] at hc
          obtain ⟨X, x, Y, hx, hX, hcx, _⟩ := carries_parts hc
          obtain ⟨p, d, e', rfl⟩ := hout (by rw [hx]; simp) hcx hw
          obtain ⟨p2, d2, e2, hm⟩ := F.first X Y j p d e' hx a1 k p1 d1 hs1 k2 hn
          refine .inr (.inl ?_)
          rw [h1]
          exact pubIn_append.2 (.inr (hpubs hX hm (by rw [hx]; exact List.mem_append_left _ hm)))
        · rcases h.sent rfl a1 l1 k p1 d1 hs1 h0 with hg | hg
          · exact .inl hg
          · refine .inr (.inl ?_)
            rw [h1]
            exact pubIn_append.2 (.inl hg)
      · refine .inr (.inr ⟨hn, fun hp => hn ?_⟩)
        have : PubIn os k := by rw [h2]; exact pubIn_append.2 (.inr (pubIn_cons.2 (.inr hp)))
        obtain ⟨p, d, e, hx⟩ := hpub k this
        exact (F.sent k p d e hx).2.1
  · intro j hj k k1 k2
    rcases h.over j hj k k1 k2 with hg | hg
    · exact .inl hg
    · refine .inr ⟨fun hn => hg.1 (hnew k hn), fun hp => ?_⟩
      rcases pubIn_append.1 hp with hp | hp
      · exact hg.2 hp
      · exact hg.1 (hnewpub k hp)
  · intro _ k hk e he
    rcases hk with hk | hk
    · rcases pubIn_append.1 hk with hk | hk
      · exact h.win rfl k (.inl hk) e (F.behind e he)
      · obtain ⟨p, d, e', hx⟩ := hpub k hk
        exact (F.sent k p d e' hx).2.2 e he
    · exact h.win rfl k (.inr hk) e (F.behind e he)
  · intro _ a l k p d hk h0
    rcases F.entry a l k p d hk with hk | ⟨_, d', e', hx⟩
    · rcases h.sent rfl a l k p d hk h0 with hg | hg
      · exact .inl hg
      · exact .inr (pubIn_append.2 (.inl hg))
    · exact .inr (pubIn_append.2 (.inr (hpubs hc hx hx)))
  · intro hk k k1 k2
    rcases h.kept hk k k1 k2 with hn | hn
    · exact .inl (F.kept (h.plain hk) k hn)
    · exact .inr hn
  · intro hk p hp
    unfold Sender.msgs at hp
    obtain ⟨e, he, hpe⟩ := List.mem_filterMap.1 hp
    cases e with
    | new a l k q d =>
      cases hpe
      rcases F.entry a l k p d he with he | ⟨⟨l', d', he⟩, _⟩
      · exact h.plain hk p (List.mem_filterMap.2 ⟨_, he, rfl⟩)
      · exact h.plain hk p (List.mem_filterMap.2 ⟨_, he, rfl⟩)
    | _ => cases hpe

/-- A pass of which nothing is sent. -/
theorem Once.passWeak (h : Once keep false pr D s r) {clk : Clock} :
    Once keep false pr D (s.step (expiryOf pr) (.pass clk)).1 r := by
  have F := pass_facts (exp := expiryOf pr) (clk := clk) h.sorted
  refine h.shrink rfl rfl rfl (fun _ h => h) F.next F.sorted ?_ ?_ (fun h => by cases h) ?_
  · intro a l k p d hk
    rcases F.entry a l k p d hk with hk | ⟨⟨l', d', hk⟩, _⟩
    · exact ⟨_, _, _, hk⟩
    · exact ⟨_, _, _, hk⟩
  · intro l k hk
    obtain ⟨l', hk⟩ := F.marked l k hk
    exact h.marked l' k hk
  · exact fun hk k hn => .inl (F.kept (h.plain hk) k hn)

/-- There is room for these messages. -/
structure Space (keep : Bool) (pr : Proto) (D : List PubPacket) (s : Sender PubPacket)
    (ds : List PubPacket) : Prop where
  qos : ∀ p ∈ ds, p.qos ≠ 0
  few : D.length + ds.length ≤ 65535
  plain : keep = true → ∀ p ∈ ds, expiryOf pr p = none
  space : keep = true → s.pending.packets.length + ds.length ≤ s.pending.maxPackets

theorem Space.tail {op : SendOp PubPacket} {ops : List (SendOp PubPacket)}
    (h : Space keep pr D s (delivered (op :: ops))) :
    Space keep pr (D ++ delivered [op]) (s.step (expiryOf pr) op).1 (delivered ops) := by
  rw [delivered_cons] at h
  have hm : (s.step (expiryOf pr) op).1.pending.maxPackets = s.pending.maxPackets :=
    (exec_params (expiryOf pr) s [op]).2.1
  have hl := step_len (exp := expiryOf pr) s op
  refine ⟨fun p hp => h.qos p (List.mem_append_right _ hp), ?_,
    fun hb p hp => h.plain hb p (List.mem_append_right _ hp), fun hb => ?_⟩
  · have := h.few
    rw [List.length_append] at this ⊢
    omega
  · have := h.space hb
    rw [List.length_append] at this
    rw [hm]
    omega

/-- A message becomes due. -/
theorem Once.deliver (h : Once keep live pr D s r) {now : Nat} {p : PubPacket} {ds : List PubPacket}
    (hr : Space keep pr D s (p :: ds)) :
    Once keep live pr (D ++ [p]) (s.step (expiryOf pr) (.deliver now p)).1 r := by
  have hfew := hr.few
  rw [List.length_cons] at hfew
  have hnext : s.nextPid = D.length + 1 := by
    rw [h.next]
    unfold pidOf
    rw [Nat.mod_eq_of_lt (by omega)]
  have hsub : s.pending.cleanComplete.packets.Sublist s.pending.packets := List.dropWhile_sublist _
  have hpids := clean_pids s.pending
  have hp0 := hr.qos p (by simp)
  have hps : (s.step (expiryOf pr) (.deliver now p)).1.pids = s.pids ∨
      (s.step (expiryOf pr) (.deliver now p)).1.pids = s.pids ++ [s.nextPid] := by
    unfold Sender.pids
    simp only [Sender.step, Pending.pushBack]
    split
    · exact .inl hpids
    · right
      simp only [List.filterMap_append, hpids]
      rfl
  have hout : ∀ e ∈ (s.step (expiryOf pr) (.deliver now p)).1.pending.packets.drop
      (s.step (expiryOf pr) (.deliver now p)).1.pending.maxInflight,
      e ∈ s.pending.packets.drop s.pending.maxInflight ∨ e = .new now 0 s.nextPid p false := by
    intro e he
    simp only [Sender.step, Pending.pushBack] at he
    split at he
    · exact .inl (drop_dropWhile_subset he)
    · simp only [List.drop_append, List.mem_append] at he
      rcases he with he | he
      · exact .inl (drop_dropWhile_subset he)
      · exact .inr (List.mem_singleton.1 (List.mem_of_mem_drop he))
  have hmem : ∀ e ∈ (s.step (expiryOf pr) (.deliver now p)).1.pending.packets,
      e ∈ s.pending.packets ∨ e = .new now 0 s.nextPid p false := by
    intro e he
    simp only [Sender.step, Pending.pushBack] at he
    split at he
    · exact .inl (hsub.subset he)
    · simp only [List.mem_append, List.mem_singleton] at he
      exact he.imp (fun h => hsub.subset h) id
  have hkeep : ∀ k, NewIn s.pending.packets k →
      NewIn (s.step (expiryOf pr) (.deliver now p)).1.pending.packets k := by
    rintro k ⟨a, l, q, d, hk⟩
    exact ⟨a, l, q, d, cleanPush_mem hk (fun h => by cases h)⟩
  have hroom : keep = true → PStatus.new now 0 s.nextPid p false ∈
      (s.step (expiryOf pr) (.deliver now p)).1.pending.packets := by
    intro hk
    have h1 := hr.space hk
    rw [List.length_cons] at h1
    have hd := hsub.length_le
    simp only [Sender.step, Pending.pushBack]
    rw [if_neg]
    · simp
    · show ¬ s.pending.maxPackets ≤ s.pending.cleanComplete.packets.length
      omega
  generalize hs' : (s.step (expiryOf pr) (.deliver now p)).1 = s' at *
  have hnew : ∀ k, k ≤ D.length → NewIn s'.pending.packets k → NewIn s.pending.packets k := by
    rintro k hk ⟨a, l, q, d, hn⟩
    rcases hmem _ hn with hn | hn
    · exact ⟨_, _, _, _, hn⟩
    · cases hn
      rw [hnext] at hk
      exact absurd hk (Nat.not_succ_le_self _)
  refine
    { next := ?_, sorted := ?_, range := ?_, entry := ?_, qos := ?_
      down := fun w hw k hk => (h.down w hw k hk).append
      got := fun w hw k hk => (h.got w hw k hk).append
      firsts := h.firsts, once := h.once, begun := h.begun
      freed := fun k k1 k2 => ⟨fun hn => (h.freed k k1 k2).1
        (hnew k (h.pidLe (.inr k1.got)).2 hn), (h.freed k k1 k2).2⟩
      rel := ?_
      marked := ?_
      acked := h.acked, received := h.received
      ahead := ?_
      over := ?_
      win := ?_
      sent := ?_
      kept := ?_
      plain := ?_ }
  · rw [← hs', List.length_append]
    exact step_nextPid (expiryOf pr) s (.deliver now p) h.next
  · rcases hps with e | e <;> rw [e]
    · exact h.sorted
    · rw [List.pairwise_append]
      refine ⟨h.sorted, List.pairwise_singleton _ _, fun x hx y hy => ?_⟩
      rw [List.mem_singleton.1 hy, hnext]
      exact Nat.lt_succ_of_le (h.range x hx).2
  · intro k hk
    rw [List.length_append, List.length_singleton]
    rcases hps with e | e <;> rw [e] at hk
    · exact ⟨(h.range k hk).1, Nat.le_succ_of_le (h.range k hk).2⟩
    · rcases List.mem_append.1 hk with hk | hk
      · exact ⟨(h.range k hk).1, Nat.le_succ_of_le (h.range k hk).2⟩
      · rw [List.mem_singleton.1 hk, hnext]
        exact ⟨Nat.succ_le_succ (Nat.zero_le _), Nat.le_refl _⟩
  · intro a l k q d hk
    rcases hmem _ hk with hk | hk
    · have := h.entry _ _ _ _ _ hk
      rw [List.getElem?_append_left]
      · exact this
      · exact (List.getElem?_eq_some_iff.1 this).1
    · cases hk
      rw [hnext, Nat.add_sub_cancel]
      simp
  · intro q hq
    rcases List.mem_append.1 hq with hq | hq
    · exact h.qos q hq
    · rw [List.mem_singleton.1 hq]; exact hp0
  · intro a b k c hab
    obtain ⟨k1, k2, k3⟩ := h.rel a b k c hab
    exact ⟨fun hn => k1 (hnew k (h.pidLe (.inr k3.got)).2 hn), k2, k3⟩
  · intro l k hk
    rcases hmem _ hk with hk | hk
    · exact h.marked l k hk
    · cases hk
  · intro a b w j hab hw k k1 k2
    have hj := (h.down w (by rw [hab]; simp) j hw).le.2
    rcases h.ahead a b w j hab hw k k1 k2 with hg | hg | hg
    · exact .inl hg
    · exact .inr (.inl hg)
    · exact .inr (.inr ⟨fun hn => hg.1 (hnew k (Nat.le_trans (Nat.le_of_lt k2) hj) hn), hg.2⟩)
  · intro j hj k k1 k2
    have hj' := (h.pidLe (.inr hj)).2
    rcases h.over j hj k k1 k2 with hg | hg
    · exact .inl hg
    · exact .inr ⟨fun hn => hg.1 (hnew k (Nat.le_trans (Nat.le_of_lt k2) hj') hn), hg.2⟩
  · intro hl k hk e he hek
    rcases hout e he with he | rfl
    · exact h.win hl k hk e he hek
    · cases hek
      have : s.nextPid ≤ D.length := by
        rcases hk with hk | hk | hk
        · exact (h.pidLe (.inl hk)).2
        · exact (h.pidLe (.inr (h.received _ hk).got)).2
        · exact (h.pidLe (.inr (h.acked _ hk))).2
      rw [hnext] at this
      exact absurd this (Nat.not_succ_le_self _)
  · intro hl a l k q d hk h0
    rcases hmem _ hk with hk | hk
    · exact h.sent hl a l k q d hk h0
    · cases hk
      exact absurd rfl h0
  · intro hk k k1 k2
    rw [List.length_append, List.length_singleton] at k2
    rcases Nat.lt_or_eq_of_le k2 with k2 | k2
    · exact (h.kept hk k k1 (Nat.le_of_lt_succ k2)).imp (hkeep k) id
    · refine .inl ⟨now, 0, p, false, ?_⟩
      have := hroom hk
      rw [hnext, ← k2] at this
      exact this
  · intro hk q hq
    unfold Sender.msgs at hq
    obtain ⟨e, he, hqe⟩ := List.mem_filterMap.1 hq
    rcases hmem e he with he | rfl
    · exact h.plain hk q (List.mem_filterMap.2 ⟨_, he, hqe⟩)
    · cases hqe
      exact hr.plain hk p (by simp)

theorem complete_sub {s : Sender PubPacket} {pid : Pid} {op : SendOp PubPacket}
    (hop : op = .puback pid ∨ op = .pubcomp pid ∨ ∃ now, op = .pubrec now pid) :
    (s.step (expiryOf pr) op).1.pids.Sublist s.pids ∧ (s.step (expiryOf pr) op).1.nextPid = s.nextPid := by
  have := step_pids_sublist (expiryOf pr) s op
  rcases hop with rfl | rfl | ⟨now, rfl⟩ <;>
    exact ⟨by simpa [delivered] using this, rfl⟩

/-- PUBACK is read. -/
theorem Once.puback (h : Once keep live pr D s r) {pid : Pid} (hg : GotIn r.got pid) {r' : Receiver}
    (hdown : r'.down = r.down) (hgot : r'.got = r.got) (hbegun : r'.begun = r.begun)
    (hup : ∀ x ∈ r'.up, x ∈ r.up) :
    Once keep live pr D (s.step (expiryOf pr) (.puback pid)).1 r' := by
  obtain ⟨c1, c2⟩ := complete_sub (pr := pr) (s := s) (op := .puback pid) (.inl rfl)
  obtain ⟨g1, g2⟩ := complete_getD s.pending pid 1
  have hmem : ∀ e ∈ (s.step (expiryOf pr) (.puback pid)).1.pending.packets,
      e = .complete ∨ e ∈ s.pending.packets := fun e he => mem_complete_new he
  have hnew : ∀ a l k p d, PStatus.new a l k p d ∈
      (s.step (expiryOf pr) (.puback pid)).1.pending.packets →
      PStatus.new a l k p d ∈ s.pending.packets := by
    intro a l k p d hk
    rcases hmem _ hk with hk | hk
    · cases hk
    · exact hk
  refine h.shrink hdown hgot hbegun hup c2 c1 (fun a l k p d hk => ⟨_, _, _, hnew _ _ _ _ _ hk⟩) ?_
    (fun hl => ⟨hl, ?_, hnew⟩) ?_
  · intro l k hk
    rcases hmem _ hk with hk | hk
    · cases hk
    · exact h.marked l k hk
  · intro e he k hk
    have hm : (s.step (expiryOf pr) (.puback pid)).1.pending.maxInflight = s.pending.maxInflight := g2
    rw [hm] at he
    have he : e ∈ (s.pending.complete pid 1).1.packets.drop s.pending.maxInflight := he
    rw [complete_drop] at he
    exact ⟨e, he, hk⟩
  · rintro _ k ⟨a, l, p, d, hk⟩
    by_cases hkp : k = pid
    · subst hkp; exact .inr hg
    · exact .inl ⟨a, l, p, d, complete_mem hk (completeStatus_other rfl hkp)⟩

/-- PUBCOMP is read. -/
theorem Once.pubcomp (h : Once keep live pr D s r) {pid : Pid} {r' : Receiver}
    (hdown : r'.down = r.down) (hgot : r'.got = r.got) (hbegun : r'.begun = r.begun)
    (hup : ∀ x ∈ r'.up, x ∈ r.up) :
    Once keep live pr D (s.step (expiryOf pr) (.pubcomp pid)).1 r' := by
  obtain ⟨c1, c2⟩ := complete_sub (pr := pr) (s := s) (op := .pubcomp pid) (.inr (.inl rfl))
  obtain ⟨g1, g2⟩ := complete_getD s.pending pid 2
  have hmem : ∀ e ∈ (s.step (expiryOf pr) (.pubcomp pid)).1.pending.packets,
      e = .complete ∨ e ∈ s.pending.packets := fun e he => mem_complete_new he
  have hnew : ∀ a l k p d, PStatus.new a l k p d ∈
      (s.step (expiryOf pr) (.pubcomp pid)).1.pending.packets →
      PStatus.new a l k p d ∈ s.pending.packets := by
    intro a l k p d hk
    rcases hmem _ hk with hk | hk
    · cases hk
    · exact hk
  refine h.shrink hdown hgot hbegun hup c2 c1 (fun a l k p d hk => ⟨_, _, _, hnew _ _ _ _ _ hk⟩) ?_
    (fun hl => ⟨hl, ?_, hnew⟩) ?_
  · intro l k hk
    rcases hmem _ hk with hk | hk
    · cases hk
    · exact h.marked l k hk
  · intro e he k hk
    have hm : (s.step (expiryOf pr) (.pubcomp pid)).1.pending.maxInflight = s.pending.maxInflight := g2
    rw [hm] at he
    have he : e ∈ (s.pending.complete pid 2).1.packets.drop s.pending.maxInflight := he
    rw [complete_drop] at he
    exact ⟨e, he, hk⟩
  · rintro _ k ⟨a, l, p, d, hk⟩
    exact .inl ⟨a, l, p, d, complete_mem hk (by simp [completeStatus])⟩

/-- PUBREC is read. -/
theorem Once.pubrec (h : Once keep live pr D s r) {now : Nat} {pid : Pid} (hg : GotTwo r.got pid)
    {r' : Receiver} (hdown : r'.down = r.down) (hgot : r'.got = r.got) (hbegun : r'.begun = r.begun)
    (hup : ∀ x ∈ r'.up, x ∈ r.up) :
    Once keep live pr D (s.step (expiryOf pr) (.pubrec now pid)).1 r' := by
  obtain ⟨c1, c2⟩ := complete_sub (pr := pr) (s := s) (op := .pubrec now pid) (.inr (.inr ⟨_, rfl⟩))
  obtain ⟨g1, g2⟩ := pubrec_getD s.pending now pid
  have hmem : ∀ e ∈ (s.step (expiryOf pr) (.pubrec now pid)).1.pending.packets,
      e = .pubrec now pid ∨ e ∈ s.pending.packets := by
    intro e he
    have he : e ∈ (s.pending.pubrec now pid).1.packets := he
    rw [g1] at he
    rcases upd_mem (nodup_of_sorted h.sorted) pubrec_pid e he with ⟨he, _⟩ | ⟨e0, _, he⟩
    · exact .inr he
    · exact .inl (pubrecStatus_some he).1
  have hnew : ∀ a l k p d, PStatus.new a l k p d ∈
      (s.step (expiryOf pr) (.pubrec now pid)).1.pending.packets →
      PStatus.new a l k p d ∈ s.pending.packets := by
    intro a l k p d hk
    rcases hmem _ hk with hk | hk
    · cases hk
    · exact hk
  refine h.shrink hdown hgot hbegun hup c2 c1 (fun a l k p d hk => ⟨_, _, _, hnew _ _ _ _ _ hk⟩) ?_
    (fun hl => ⟨hl, ?_, hnew⟩) ?_
  · intro l k hk
    rcases hmem _ hk with hk | hk
    · cases hk; exact hg
    · exact h.marked l k hk
  · intro e he k hk
    have hm : (s.step (expiryOf pr) (.pubrec now pid)).1.pending.maxInflight =
      s.pending.maxInflight := g2
    rw [hm] at he
    have he : e ∈ (s.pending.pubrec now pid).1.packets.drop s.pending.maxInflight := he
    rw [pubrec_drop] at he
    exact ⟨e, he, hk⟩
  · rintro _ k ⟨a, l, p, d, hk⟩
    by_cases hkp : k = pid
    · subst hkp; exact .inr hg.got
    · exact .inl ⟨a, l, p, d, pubrec_mem hk (by simp [pubrecStatus, hkp])⟩

/-- PUBREL is sent. -/
theorem Once.pubrel (h : Once keep live pr D s r) {pid : Pid}
    (hn : ¬ NewIn s.pending.packets pid) (hg : GotTwo r.got pid) {o : OutPkt}
    (ho : ∃ c, o = .pubrel pid c) :
    Once keep live pr D s { r with down := r.down ++ [o] } := by
  obtain ⟨c, rfl⟩ := ho
  have hp : ∀ x k, PubIn (x ++ [OutPkt.pubrel pid c]) k ↔ PubIn x k := by
    intro x k
    rw [pubIn_append]
    refine or_iff_left ?_
    rintro ⟨w, hw, _⟩
    cases List.mem_singleton.1 hw
  refine { h with down := ?_, freed := ?_, rel := ?_, ahead := ?_, over := ?_, win := ?_, sent := ?_ }
  · intro w hw k hk
    refine h.down w ?_ k hk
    rcases List.mem_append.1 hw with hw | hw
    · exact hw
    · cases List.mem_singleton.1 hw
  · intro k k1 k2
    simp only [hp]
    exact h.freed k k1 k2
  · intro a b k c' hab
    rcases split_append hab with ⟨e, h1, h2⟩ | ⟨e, h1, h2⟩
    · rw [h2, hp]
      exact h.rel a e k c' h1
    · cases e with
      | nil =>
        cases h2
        exact ⟨hn, pubIn_nil _, hg⟩
      | cons y e => cases e <;> cases h2
  · intro a b w j hab hw k k1 k2
    rcases split_append hab with ⟨e, h1, h2⟩ | ⟨e, h1, h2⟩
    · rw [h2, hp]
      exact h.ahead a e w j h1 hw k k1 k2
    · cases e with
      | nil => cases h2
      | cons y e => cases e <;> cases h2
  · intro j hj k k1 k2
    simp only [hp]
    exact h.over j hj k k1 k2
  · intro hl k hk
    simp only [hp] at hk
    exact h.win hl k hk
  · intro hl a l k p d h1 h2
    simp only [hp]
    exact h.sent hl a l k p d h1 h2

/-- After PUBREC the message is not sent again. -/
theorem Once.released (h : Once keep true pr D s r) {now : Nat} {pid : Pid}
    (hu : InPkt.pubrec pid ∈ r.up) :
    ¬ NewIn (s.step (expiryOf pr) (.pubrec now pid)).1.pending.packets pid := by
  rintro ⟨a, l, p, d, he⟩
  have he : PStatus.new a l pid p d ∈ (s.pending.pubrec now pid).1.packets := he
  rw [(pubrec_getD s.pending now pid).1] at he
  rcases upd_mem (nodup_of_sorted h.sorted) pubrec_pid _ he with ⟨_, hor⟩ | ⟨e0, _, he⟩
  · rcases hor with hor | hor
    · simp [pubrecStatus] at hor
    · rw [drop_window] at hor
      exact h.win rfl pid (.inr (.inl hu)) _ hor rfl
  · cases (pubrecStatus_some he).1

/-- A new connection. -/
theorem Once.reconnect (h : Once keep live pr D s r) {m : Option Nat} :
    Once keep true pr D (s.step (expiryOf pr) (.reconnect m)).1 { r with down := [], up := [] } := by
  have hmem : ∀ e ∈ (s.step (expiryOf pr) (.reconnect m)).1.pending.packets,
      ∃ e' ∈ s.pending.packets, e = e'.reset := by
    intro e he
    rw [reconnect_packets, List.mem_map] at he
    obtain ⟨e', h1, h2⟩ := he
    exact ⟨e', h1, h2.symm⟩
  have hnew : ∀ a l k p d, PStatus.new a l k p d ∈
      (s.step (expiryOf pr) (.reconnect m)).1.pending.packets →
      l = 0 ∧ ∃ l', PStatus.new a l' k p d ∈ s.pending.packets := by
    intro a l k p d hk
    obtain ⟨e, he, h1⟩ := hmem _ hk
    cases e with
    | new a' l' k' p' d' => cases h1; exact ⟨rfl, _, he⟩
    | _ => cases h1
  have hpids : (s.step (expiryOf pr) (.reconnect m)).1.pids = s.pids := by
    unfold Sender.pids
    rw [reconnect_packets, filterMap_map_eq _ _ reset_pid]
  have hn : ∀ k, NewIn (s.step (expiryOf pr) (.reconnect m)).1.pending.packets k →
      NewIn s.pending.packets k := by
    rintro k ⟨a, l, p, d, hk⟩
    obtain ⟨_, l', hk⟩ := hnew _ _ _ _ _ hk
    exact ⟨_, _, _, _, hk⟩
  have hk' : ∀ k, NewIn s.pending.packets k →
      NewIn (s.step (expiryOf pr) (.reconnect m)).1.pending.packets k := by
    rintro k ⟨a, l, p, d, hk⟩
    refine ⟨a, 0, p, d, ?_⟩
    rw [reconnect_packets]
    exact List.mem_map.2 ⟨_, hk, rfl⟩
  refine
    { next := by rw [← h.next]; rfl
      sorted := by rw [hpids]; exact h.sorted
      range := by rw [hpids]; exact h.range
      entry := ?_, qos := h.qos
      down := (fun w hw => by cases hw)
      got := h.got, firsts := h.firsts, once := h.once, begun := h.begun
      freed := fun k k1 k2 => ⟨fun hx => (h.freed k k1 k2).1 (hn k hx), pubIn_nil k⟩
      rel := (fun a b k c hab => by cases a <;> cases hab)
      marked := ?_
      acked := (fun k hk => by cases hk)
      received := (fun k hk => by cases hk)
      ahead := (fun a b w j hab => by cases a <;> cases hab)
      over := ?_
      win := ?_
      sent := fun _ a l k p d hk h0 => absurd (hnew _ _ _ _ _ hk).1 h0
      kept := fun hk k k1 k2 => (h.kept hk k k1 k2).imp (hk' k) id
      plain := ?_ }
  · intro a l k p d hk
    obtain ⟨_, l', hk⟩ := hnew _ _ _ _ _ hk
    exact h.entry _ _ _ _ _ hk
  · intro l k hk
    obtain ⟨e, he, h1⟩ := hmem _ hk
    cases e with
    | pubrec l' k' => cases h1; exact h.marked _ _ he
    | _ => cases h1
  · intro j hj k k1 k2
    rcases h.over j hj k k1 k2 with hg | hg
    · exact .inl hg
    · exact .inr ⟨fun hx => hg.1 (hn k hx), pubIn_nil k⟩
  · rintro _ k (hk | hk | hk)
    · exact absurd hk (pubIn_nil k)
    · cases hk
    · cases hk
  · intro hk p hp
    unfold Sender.msgs at hp
    obtain ⟨e, he, hpe⟩ := List.mem_filterMap.1 hp
    cases e with
    | new a l k q d =>
      cases hpe
      obtain ⟨_, l', he⟩ := hnew _ _ _ _ _ he
      exact h.plain hk p (List.mem_filterMap.2 ⟨_, he, rfl⟩)
    | _ => cases hpe

end Akasa
