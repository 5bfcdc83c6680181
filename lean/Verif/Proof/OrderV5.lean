import Verif.Spec.OrderV5
import Verif.Proof.LifeUse
import Verif.Proof.Origin
/-! # The order of messages to MQTT 5 clients -/
namespace Akasa

variable {cfg : Config} {ext : Ext} {w w' : World} {evs e : List Event} {pr : Proto}
  {obs : List Obs} {p : Peer}

/-! ## Clocks of the queue -/

/-- The clocks are read one after the other. -/
def ClocksUpTo : Nat → List Clock → Nat → Prop
  | lo, [], hi => lo ≤ hi
  | lo, c :: l, hi => ∃ mid, Between lo mid c ∧ ClocksUpTo mid l hi

theorem ClocksUpTo.lower {lo lo' hi : Nat} {l : List Clock} (h : ClocksUpTo lo l hi)
    (hl : lo' ≤ lo) : ClocksUpTo lo' l hi := by
  cases l with
  | nil => exact Nat.le_trans hl h
  | cons c l =>
    obtain ⟨mid, h1, h2⟩ := h
    exact ⟨mid, fun k => ⟨Nat.le_trans hl (h1 k).1, (h1 k).2⟩, h2⟩

theorem Between.le {lo hi : Nat} {c : Clock} (h : Between lo hi c) : lo ≤ hi :=
  Nat.le_trans (h 0).1 (h 0).2

theorem ClocksUpTo.sublist {lo hi : Nat} {l l' : List Clock} (h : ClocksUpTo lo l hi)
    (hs : l'.Sublist l) : ClocksUpTo lo l' hi := by
  induction hs generalizing lo with
  | slnil => exact h
  | cons c _ ih =>
    obtain ⟨mid, h1, h2⟩ := h
    exact ih (h2.lower h1.le)
  | cons_cons c _ ih =>
    obtain ⟨mid, h1, h2⟩ := h
    exact ⟨mid, h1, ih h2⟩

theorem clocks_packet {hi last : Nat} {b : Nat → Nat} {clk : Nat → Clock} {after : Clock}
    (hb : ∀ i, Between (b i) (b (i + 1)) (clk i) ∧ b i ≤ last) (ha : Between last hi after)
    (n i : Nat) : ClocksUpTo (b i) ((List.range' i n).map clk ++ [after]) hi := by
  induction n generalizing i with
  | zero => exact ⟨hi, fun k => ⟨Nat.le_trans (hb i).2 (ha k).1, (ha k).2⟩, Nat.le_refl _⟩
  | succ n ih =>
    rw [List.range'_succ]
    exact ⟨b (i + 1), (hb i).1, ih (i + 1)⟩

theorem rec_clocks {r : Rec} {ops : List OutOp} {lo mid : Nat} (h : WorksOff cfg pr r ops)
    (hlo : lo ≤ mid) (ht : evTimes lo mid (r.env, r.before, r.ev)) :
    ClocksUpTo lo (passClocks ops) mid := by
  obtain ⟨n, hs⟩ := h.clocks
  unfold Rec.clocks at hs
  unfold evTimes at ht
  cases hev : r.ev with
  | packet after k pk =>
    rw [hev] at hs ht
    obtain ⟨b, last, h1, h2, h3⟩ := ht
    have := clocks_packet h2 h3 n 0
    rw [← List.range_eq_range'] at this
    exact (this.lower h1).sublist hs
  | normal m =>
    rw [hev] at hs ht
    exact ClocksUpTo.sublist (l := [r.env.clk 0]) ⟨mid, ht, Nat.le_refl _⟩ hs
  | resume c =>
    rw [hev] at hs ht
    exact ClocksUpTo.sublist (l := [r.env.clk 0]) ⟨mid, ht, Nat.le_refl _⟩ hs
  | _ =>
    rw [hev] at hs
    exact ClocksUpTo.sublist (l := []) hlo hs

theorem ClockMono.lower {lo lo' : Nat} {ops : List (SendOp PubPacket)} (h : ClockMono lo ops)
    (hl : lo' ≤ lo) : ClockMono lo' ops := by
  induction ops with
  | nil => trivial
  | cons op ops ih =>
    cases op with
    | pass clk =>
      obtain ⟨hi, h1, h2⟩ := h
      exact ⟨hi, fun k => ⟨Nat.le_trans hl (h1 k).1, (h1 k).2⟩, h2⟩
    | _ => exact ih h

theorem clockMono_of {lo hi : Nat} {ops : List OutOp} {rest : List (SendOp PubPacket)}
    (h : ClocksUpTo lo (passClocks ops) hi) (hr : ClockMono hi rest) :
    ClockMono lo (queueOps ops ++ rest) := by
  induction ops generalizing lo with
  | nil => exact hr.lower h
  | cons op ops ih =>
    cases op with
    | direct p => exact ih h
    | queue op =>
      cases op with
      | pass clk =>
        obtain ⟨mid, h1, h2⟩ := h
        exact ⟨mid, h1, ih h2⟩
      | _ => exact ih h

theorem Log.clocks {recs : List Rec} {ops : List OutOp} (h : Log cfg pr recs ops) {lo hi : Nat}
    (ht : EvsUpTo lo (recs.map fun r => (r.env, r.before, r.ev)) hi) :
    ClockMono lo (queueOps ops) := by
  induction h generalizing lo with
  | nil => trivial
  | cons hw _ ih =>
    obtain ⟨mid, h1, h2, h3⟩ := ht
    rw [queueOps_append]
    exact clockMono_of (rec_clocks hw h1 h2) (ih h3)

/-- The first transmissions of a session during which the clock does not go back. -/
theorem fifo_of_times {i : Str} {id : ClientId} {c : ConnParams}
    {sevs : List (Env × Global × SessEv)} {recs : List Rec} {hi : Nat}
    (hrun : ({ session := Session.start cfg pr i id c } : Peer).run cfg ext pr sevs = some recs)
    (ht : EvsUpTo 0 sevs hi) :
    ∃ xs, CarriesAll pr xs ((recs.flatMap (·.res.out)).filter OutPkt.isFirst) ∧
      (firstSent xs).Sublist
        ((recs.flatMap (Rec.messages cfg pr)).filter fun p => decide (p.qos ≠ 0)) := by
  have h := isRun_of_run hrun
  obtain ⟨ops, hl, _⟩ := log_of_isRun h
  obtain ⟨xs, h1, h2⟩ := hl.firsts h
  refine ⟨xs, h1, h2.trans ?_⟩
  rw [← hl.delivered_eq]
  show (firstSent ((Session.start cfg pr i id c).sender.outs (expiryOf pr) (queueOps ops))).Sublist _
  rw [start_sender]
  refine C13_fifo_v5 _ _ _ _ _ (hl.clocks (hi := hi) ?_)
  rw [rec_event hrun]
  exact ht

/-! ## Times of the whole broker -/

theorem timesUpTo_snoc {lo hi : Nat} {acts : List Act} {a : Act}
    (h : TimesUpTo lo (acts ++ [a]) hi) :
    ∃ mid, TimesUpTo lo acts mid ∧ mid ≤ hi ∧ a.times mid hi := by
  induction acts generalizing lo with
  | nil =>
    obtain ⟨mid, h1, h2, h3⟩ := h
    have h3 : mid ≤ hi := h3
    refine ⟨lo, Nat.le_refl lo, Nat.le_trans h1 h3, ?_⟩
    have hup : ∀ {c : Clock} {l : Nat}, Between l mid c → Between l hi c :=
      fun hb k => ⟨(hb k).1, Nat.le_trans (hb k).2 h3⟩
    cases a <;> first | trivial | exact hup h2 | skip
    obtain ⟨b, last, k1, k2, k3⟩ := h2
    exact ⟨b, last, k1, k2, hup k3⟩
  | cons b acts ih =>
    obtain ⟨m, h1, h2, h3⟩ := h
    obtain ⟨mid, h4, h5, h6⟩ := ih h3
    exact ⟨mid, ⟨m, h1, h2, h4⟩, h5, h6⟩

theorem evsUpTo_snoc {lo mid hi : Nat} {l : List (Env × Global × SessEv)}
    {x : Env × Global × SessEv} (h : EvsUpTo lo l mid) (hm : mid ≤ hi) (hx : evTimes mid hi x) :
    EvsUpTo lo (l ++ [x]) hi := by
  induction l generalizing lo with
  | nil =>
    have h : lo ≤ mid := h
    refine ⟨hi, Nat.le_trans h hm, ?_, Nat.le_refl hi⟩
    have hdown : ∀ {c : Clock} {t : Nat}, Between mid t c → Between lo t c :=
      fun hb k => ⟨Nat.le_trans h (hb k).1, (hb k).2⟩
    obtain ⟨env, g, ev⟩ := x
    cases ev <;> first | trivial | exact hdown hx | skip
    obtain ⟨b, last, k1, k2, k3⟩ := hx
    exact ⟨b, last, Nat.le_trans h k1, k2, k3⟩
  | cons y l ih =>
    obtain ⟨m, h1, h2, h3⟩ := h
    exact ⟨m, h1, h2, ih h3⟩

theorem EvsUpTo.upper {lo mid hi : Nat} {l : List (Env × Global × SessEv)} (h : EvsUpTo lo l mid)
    (hm : mid ≤ hi) : EvsUpTo lo l hi := by
  induction l generalizing lo with
  | nil => exact Nat.le_trans h hm
  | cons y l ih =>
    obtain ⟨m, h1, h2, h3⟩ := h
    exact ⟨m, h1, h2, ih h3⟩

/-- What a session meets was published, and the clock does not go back. -/
def Good.timed (w : World) (evs : List Event) (acts : List Act) : Good :=
  { Good.origin w evs with
    run := fun sevs => ∀ hi, TimesUpTo 0 acts hi → EvsUpTo 0 sevs hi
    start := fun hi _ => Nat.zero_le hi
    free := fun l env g ev hs hl hi ht => evsUpTo_snoc (hl hi ht) (Nat.le_refl hi) (by
      cases ev <;> first | trivial | cases hs) }

theorem timed_life {acts : List Act} (h : Reaches cfg ext acts w evs) :
    LifeIn (Good.timed w evs acts) cfg ext w evs := by
  refine LifeIn.runs (G := Good.timed w evs) h fun acts1 a acts2 w1 evs1 ha h1 => ?_
  subst ha
  obtain ⟨⟨rest, rfl⟩, hreq⟩ := run_prefix h1 h
  obtain ⟨h2, h3⟩ := origin_state h1
  obtain ⟨h4, h5⟩ := origin_mono (evs1 := evs1) (rest := rest) hreq
  refine ⟨⟨h4 _ h2, fun d q hq e he => h5 _ (h3 d q hq e he), ?_⟩, fun _ h => h, ?_, ?_⟩
  · cases a <;> first | trivial | exact ⟨trivial, trivial⟩
  · intro l hl hi ht
    obtain ⟨mid, k1, k2, _⟩ := timesUpTo_snoc ht
    exact (hl mid k1).upper k2
  · have key : ∀ (l : List (Env × Global × SessEv)) x, (∀ lo hi, a.times lo hi → evTimes lo hi x) →
        (Good.timed w (evs1 ++ rest) acts1).run l →
        (Good.timed w (evs1 ++ rest) (acts1 ++ [a])).run (l ++ [x]) := by
      intro l x hx hl hi ht
      obtain ⟨mid, k1, k2, k3⟩ := timesUpTo_snoc ht
      exact evsUpTo_snoc (hl mid k1) k2 (hx _ _ k3)
    cases a <;> first
      | trivial
      | exact fun l g hl => key l _ (fun _ _ h => h) hl
      | exact fun l g m hl => key l _ (fun _ _ h => h) hl

/-! ## Where the packets come from -/

theorem along_firstSentV5 {xs : List (Sent PubPacket)} {os : List OutPkt}
    (h : CarriesAll .v5 xs os) (ho : ∀ o ∈ os, o.isFirst = true) :
    Along (fun (p : PubPacket) o => ∃ w, o = .publish w ∧ w.about p.topic ∧
      w.payload = p.payload ∧ w.retain = p.retain ∧ w.qosPid.qos = p.qos ∧
      w.props = { p.props with
        messageExpiry := w.props.messageExpiry
        topicAlias := w.props.topicAlias }) (firstSent xs) os := by
  induction h with
  | nil => exact .nil
  | @cons x o xs os h1 _ ih =>
    have ih := ih fun o' ho' => ho o' (List.mem_cons_of_mem _ ho')
    have hfirst := ho o (List.mem_cons_self ..)
    cases o with
    | publish w =>
      cases x with
      | publish pid p dup expiry =>
        obtain ⟨h1, h2, h3, h4, h5, h6⟩ := h1
        simp only [OutPkt.isFirst, Bool.and_eq_true, Bool.not_eq_true'] at hfirst
        rw [hfirst.1] at h1
        subst h1
        refine .cons ⟨w, rfl, h5, h4, h3, ?_, ?_⟩ ih
        · rw [h2]
          exact qosPid_qos p pid
        · have : w.props.messageExpiry = expiry := by rw [h6]
          rw [this]; exact h6
      | pubrel pid => cases h1
    | _ => simp [OutPkt.isFirst] at hfirst

/-- The message due to an MQTT 5 client is this one. -/
def SourceOfV5 (evs : List Event) : Option NormalMsg → PubPacket → Prop
  | none, p => ∃ e ∈ published evs, e.2.retain = true ∧ p.topic = e.2.topic ∧
      p.payload = e.2.payload ∧ p.qos ≤ e.2.qos
  | some m, p => p.topic = m.topic ∧ p.payload = m.payload ∧ p.qos = min m.qos m.granted ∧
      (p.retain = true → m.retain = true) ∧
      p.props = { m.props with subscriptionIds := p.props.subscriptionIds }

theorem dueV5_parts {s : Session} {m : NormalMsg} {p : PubPacket} (h : dueV5 cfg s m = some p) :
    SourceOfV5 evs (some m) p := by
  unfold dueV5 at h
  split at h
  · cases h
  · split at h
    · cases h
    · cases h
      refine ⟨rfl, rfl, rfl, fun hr => ?_, rfl⟩
      simp only [Bool.and_eq_true] at hr
      exact hr.1.1

theorem retainedDueV5_source {g : Global} {s : Session} {id : Option Nat}
    (hg : (Good.origin w evs).retain g.retain) {ts : List (Str × SubOpts)} {earlier : List Str}
    {p : PubPacket} (h : p ∈ retainedDueV5 cfg g s id earlier ts) : SourceOfV5 evs none p := by
  induction ts generalizing earlier with
  | nil => cases h
  | cons t ts ih =>
    obtain ⟨F, o⟩ := t
    rw [retainedDueV5, List.mem_append] at h
    rcases h with h | h
    · unfold retainedV5 at h
      split at h
      · rw [List.mem_filterMap] at h
        obtain ⟨rc, h1, h2⟩ := h
        unfold retainedCopyV5 at h2
        split at h2
        · cases h2
        · split at h2
          · cases h2
          · cases h2
            obtain ⟨u, m, req, k1, k2, k3, k4, k5, k6, k7⟩ := stored_from hg h1
            exact ⟨(u, m), k1, k3, k4, k5, by rw [← k6]; exact Std.min_le_left⟩
      · cases h
    · exact ih h

theorem tagged_ofV5 {recs : List Rec}
    (hG : ∀ r ∈ recs, (Good.origin w evs).ev (r.env, r.before, r.ev)) {o : Option NormalMsg}
    {p : PubPacket} (h : (o, p) ∈ recs.flatMap (Rec.tagged cfg .v5)) : SourceOfV5 evs o p := by
  rw [List.mem_flatMap] at h
  obtain ⟨r, hmem, hr⟩ := h
  have hG := hG r hmem
  simp only [Rec.tagged, List.mem_map, Prod.mk.injEq] at hr
  obtain ⟨q, hq, rfl, rfl⟩ := hr
  simp only [Rec.messages, List.mem_filterMap] at hq
  obtain ⟨i, hi, hm⟩ := hq
  have hi' : i = .message q := by
    cases i <;> simp [Input.message?] at hm
    rw [hm]
  subst hi'
  unfold Rec.inputs at hi
  unfold Rec.taken
  cases hev : r.ev with
  | packet a n pk =>
    rw [hev] at hi
    simp only at hi ⊢
    split at hi
    · cases pk <;> simp [InPkt.inputs] at hi
      exact retainedDueV5_source hG.1 hi.2
    · cases hi
  | normal m =>
    rw [hev] at hi
    simp only at hi ⊢
    split at hi
    · rename_i hc
      rw [if_pos hc]
      simp [dueOf] at hi
      exact dueV5_parts hi
    · cases hi
  | offline m =>
    rw [hev] at hi
    simp only at hi ⊢
    split at hi
    · cases hi
    · rename_i hc
      rw [if_neg hc]
      simp [dueOf] at hi
      exact dueV5_parts hi.1
  | passed => rw [hev] at hi; cases hi
  | lost => rw [hev] at hi; cases hi
  | resume => rw [hev] at hi; simp at hi

theorem about_trans {w : Publish} {t t' : Str} (h : w.about t) (e : t = t') : w.about t' := e ▸ h

theorem lives_orderV5 {chain : Chain} {d : ClientId} {acts : List Act} {hi : Nat}
    (hl : LivesIn (Good.timed w evs acts) cfg ext .v5 (obsOf chain evs) p)
    (hti : TimesUpTo 0 acts hi) (ht : TookAs chain evs d) :
    ∃ src, Along (ComesFromV5 evs) src ((sentIn (obsOf chain evs)).filter OutPkt.isFirst) ∧
      ∀ u, (copiesOf u src).Sublist (tookFrom u d evs) := by
  obtain ⟨i, id', c, sevs, recs, h1, h2, _, h4, h5⟩ := hl
  have hsent : sentIn (obsOf chain evs) = recs.flatMap (·.res.out) := by
    rw [h2]
    exact sentIn_recs recs
  have htaken : recs.filterMap Rec.taken = (takes chain evs).map Prod.snd := by
    rw [← takenIn_obsOf, h2]
    exact (takenIn_recs recs).symm
  have hG : ∀ r ∈ recs, (Good.origin w evs).ev (r.env, r.before, r.ev) := by
    intro r hr
    refine h4 _ ?_
    rw [← rec_event h1]
    exact List.mem_map.2 ⟨r, hr, rfl⟩
  obtain ⟨xs, hx1, hx2⟩ := fifo_of_times h1 (h5 hi hti)
  have hx2 := hx2.trans List.filter_sublist
  rw [← tagged_snd, List.sublist_map_iff] at hx2
  obtain ⟨tl, htl, hfirst⟩ := hx2
  have hal := along_firstSentV5 hx1 (fun o ho => (List.mem_filter.1 ho).2)
  rw [hfirst] at hal
  have hal := hal.map_left
  have hsub := (htl.filterMap Prod.fst).trans (tagged_fst recs)
  rw [htaken, List.sublist_map_iff] at hsub
  obtain ⟨tk, htk, hfst⟩ := hsub
  obtain ⟨ha1, ha2⟩ := attach_spec (tl.map Prod.fst) tk (by rw [List.filterMap_map]; exact hfst)
  refine ⟨attach (tl.map Prod.fst) tk, ?_, fun u => ?_⟩
  · rw [hsent]
    have key : Along (fun (o : Option NormalMsg) (q : OutPkt) =>
        ComesFromV5 evs (o.map fun m => (0, m)) q) (tl.map Prod.fst)
        ((recs.flatMap (·.res.out)).filter OutPkt.isFirst) := by
      refine Along.map (hal.imp fun a b ha h => ?_)
      obtain ⟨w', rfl, e1, e2, e3, e4, e5⟩ := h
      obtain ⟨o, q⟩ := a
      have := tagged_ofV5 hG (htl.mem ha)
      cases o with
      | none =>
        obtain ⟨e, h1, h2, h3, h4, h5⟩ := this
        exact ⟨e, h1, h2, about_trans e1 h3, e2.trans h4, by rw [e4]; exact h5⟩
      | some m =>
        obtain ⟨h1, h2, h3, h4, h5⟩ := this
        refine ⟨about_trans e1 h1, e2.trans h2, e4.trans h3, fun hr => h4 (by rw [← e3]; exact hr),
          ?_⟩
        have hids : w'.props.subscriptionIds = q.props.subscriptionIds := by rw [e5]
        rw [hids, e5]
        show _ = _
        conv => lhs; rw [h5]
    rw [← ha1] at key
    refine key.map_left.imp fun o b _ h => ?_
    cases o with
    | none => exact h
    | some e => cases b <;> exact h
  · refine List.Sublist.trans ?_ (takes_from ht u)
    have : copiesOf u (attach (tl.map Prod.fst) tk) =
        ((attach (tl.map Prod.fst) tk).filterMap id).filterMap
          fun e => if e.1 = u then some e.2 else none := by
      unfold copiesOf
      rw [List.filterMap_filterMap]
      rfl
    rw [this, ha2]
    exact htk.filterMap _

end Akasa
