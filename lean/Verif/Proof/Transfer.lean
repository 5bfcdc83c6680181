import Verif.Spec.Transfer
import Verif.Proof.Fanout
import Verif.Proof.Util
/-!
# Lemmas for C44
-/
namespace Akasa

/-- What a kept entry still holds. -/
def linkTransit : Option Link → List NormalMsg
  | none => []
  | some l => l.slot.toList ++ l.msgs

def linkMsgs : Option Link → List NormalMsg
  | none => []
  | some l => l.msgs

theorem sendMsgs_spec (o : Nat → PollRes) (fl : Bool) (ms : List NormalMsg) :
    ∀ (k : Nat) (slot : Option NormalMsg),
      let r := sendMsgs o fl k ms slot
      r.consumed + (linkMsgs r.link).length = ms.length ∧
      (r.got ++ linkTransit r.link <+: slot.toList ++ ms) ∧
      ((∀ k, o k ≠ .gone) → r.got ++ linkTransit r.link = slot.toList ++ ms) := by
  induction ms with
  | nil =>
    intro k slot
    simp only [sendMsgs, pollSink]
    cases ho : o k with
    | accept => simp [linkMsgs, linkTransit]
    | gone =>
      simp only [linkMsgs, linkTransit]
      exact ⟨rfl, List.nil_prefix, fun h => absurd ho (h k)⟩
    | block => cases slot <;> simp [linkMsgs, linkTransit]
  | cons m ms ih =>
    intro k slot
    simp only [sendMsgs]
    have hready : ∀ got : List NormalMsg, got = slot.toList →
        let r := (if o (k + 1) = .gone then
            ({ link := none, consumed := 1 + ms.length, got } : LinkRes)
          else { link := (sendMsgs o fl (k + 2) ms (some m)).link
                 consumed := 1 + (sendMsgs o fl (k + 2) ms (some m)).consumed
                 got := got ++ (sendMsgs o fl (k + 2) ms (some m)).got })
        r.consumed + (linkMsgs r.link).length = (m :: ms).length ∧
        (r.got ++ linkTransit r.link <+: slot.toList ++ m :: ms) ∧
        ((∀ k, o k ≠ .gone) → r.got ++ linkTransit r.link = slot.toList ++ m :: ms) := by
      intro got hgot
      subst hgot
      split
      · rename_i hg
        simp only [linkMsgs, linkTransit, List.append_nil, List.length_nil, List.length_cons]
        exact ⟨by omega, List.prefix_append _ _, fun h => absurd hg (h _)⟩
      · obtain ⟨h1, h2, h3⟩ := ih (k + 2) (some m)
        simp only [List.append_assoc] at h2 h3 ⊢
        refine ⟨by simp only [List.length_cons]; omega, ?_, fun h => ?_⟩
        · rw [List.prefix_append_right_inj]
          simpa using h2
        · rw [h3 h]
          simp
    cases ho : o k with
    | accept => simpa only [pollSink] using hready slot.toList rfl
    | gone =>
      simp only [pollSink, linkMsgs, linkTransit, List.append_nil, List.length_nil,
        List.length_cons]
      exact ⟨by omega, List.nil_prefix, fun h => absurd ho (h k)⟩
    | block =>
      cases slot with
      | none => simpa only [pollSink] using hready [] rfl
      | some x => simp [pollSink, linkMsgs, linkTransit]

theorem visit_spec (o : Nat → PollRes) (l : Link) :
    (l.visit o).consumed + (linkMsgs (l.visit o).link).length = l.msgs.length ∧
    ((l.visit o).got ++ linkTransit (l.visit o).link <+: l.slot.toList ++ l.msgs) ∧
    ((∀ k, o k ≠ .gone) → (l.visit o).got ++ linkTransit (l.visit o).link = l.slot.toList ++ l.msgs) := by
  unfold Link.visit
  split
  · rename_i hc
    simp only [Bool.and_eq_true, List.isEmpty_iff] at hc
    simp only [pollSink, hc.2]
    cases ho : o 0 with
    | accept => simp [linkMsgs, linkTransit]
    | gone =>
      simp only [linkMsgs, linkTransit]
      exact ⟨rfl, List.nil_prefix, fun h => absurd ho (h 0)⟩
    | block =>
      cases hs : l.slot <;> simp [linkMsgs, linkTransit, hc.2]
  · exact sendMsgs_spec o l.flushed l.msgs 0 l.slot

/-- Every poll accepting: everything is taken, the entry is dropped. -/
theorem sendMsgs_accept (o : Nat → PollRes) (h : ∀ k, o k = .accept) (fl : Bool)
    (ms : List NormalMsg) : ∀ (k : Nat) (slot : Option NormalMsg),
      (sendMsgs o fl k ms slot).link = none := by
  induction ms with
  | nil => intro k slot; simp [sendMsgs, pollSink, h]
  | cons m ms ih => intro k slot; simp [sendMsgs, pollSink, h, ih]

theorem visit_accept (o : Nat → PollRes) (h : ∀ k, o k = .accept) (l : Link) :
    (l.visit o).link = none := by
  unfold Link.visit
  split
  · simp [pollSink, h]
  · exact sendMsgs_accept o h ..

theorem addressedTo_append (id : ClientId) (a b : List (ClientId × NormalMsg)) :
    addressedTo id (a ++ b) = addressedTo id a ++ addressedTo id b := by
  simp [addressedTo]

theorem copiesFor_append (id : ClientId) (a b : List TransferAct) :
    copiesFor id (a ++ b) = copiesFor id a ++ copiesFor id b := by
  induction a with
  | nil => rfl
  | cons x a ih => cases x <;> simp [copiesFor, ih]

/-! Maps built from a map. -/

section
variable {κ α β : Type} [DecidableEq κ]

omit [DecidableEq κ] in
theorem keys_filterMap_sublist (m : FMap κ α) (f : κ → α → Option β) :
    ((m.filterMap fun e => (f e.1 e.2).map fun b => (e.1, b)).map (·.1)).Sublist (m.map (·.1)) := by
  induction m with
  | nil => simp
  | cons e m ih =>
    simp only [List.filterMap_cons, List.map_cons]
    cases f e.1 e.2 with
    | none => exact ih.cons _
    | some b => exact ih.cons_cons _

theorem get_filterMap {m : FMap κ α} (hw : FMap.WF m) (f : κ → α → Option β) (k : κ) :
    FMap.get (m.filterMap fun e => (f e.1 e.2).map fun b => (e.1, b)) k =
      (FMap.get m k).bind (f k) := by
  induction m with
  | nil => simp
  | cons e m ih =>
    obtain ⟨k', v⟩ := e
    have hw' : FMap.WF m := by
      unfold FMap.WF FMap.keys at hw ⊢
      exact (List.nodup_cons.mp hw).2
    have hk : FMap.get m k' = none := by
      rw [FMap.get_eq_none_iff]
      unfold FMap.WF FMap.keys at hw
      exact (List.nodup_cons.mp hw).1
    rw [FMap.get_cons]
    by_cases e : k' = k
    · subst e
      rw [if_pos rfl]
      simp only [List.filterMap_cons]
      cases hf : f k' v with
      | none =>
        simp only [Option.map_none]
        rw [ih hw', hk]
        simp [hf]
      | some b =>
        simp only [Option.map_some]
        rw [FMap.get_cons, if_pos rfl]
        simp [hf]
    · rw [if_neg e]
      simp only [List.filterMap_cons]
      cases hf : f k' v with
      | none => simpa using ih hw'
      | some b =>
        simp only [Option.map_some]
        rw [FMap.get_cons, if_neg e]
        exact ih hw'

end

/-- Messages taken from one entry of a map, for one receiver. -/
theorem addressedTo_flatMap {m : FMap ClientId (List NormalMsg)} (hw : FMap.WF m)
    (f : ClientId → List NormalMsg → List NormalMsg) (id : ClientId) :
    addressedTo id (m.flatMap fun e => (f e.1 e.2).map fun x => (e.1, x)) =
      match m.get id with
      | none => []
      | some v => f id v := by
  induction m with
  | nil => simp [addressedTo]
  | cons e m ih =>
    obtain ⟨k', v⟩ := e
    have hw' : FMap.WF m := by
      unfold FMap.WF FMap.keys at hw ⊢
      exact (List.nodup_cons.mp hw).2
    have hk : FMap.get m k' = none := by
      rw [FMap.get_eq_none_iff]
      unfold FMap.WF FMap.keys at hw
      exact (List.nodup_cons.mp hw).1
    simp only [List.flatMap_cons, addressedTo_append]
    rw [ih hw', FMap.get_cons]
    by_cases e : k' = id
    · subst e
      rw [if_pos rfl, hk]
      simp [addressedTo, List.filter_map, Function.comp_def]
    · rw [if_neg e]
      simp [addressedTo, List.filter_map, Function.comp_def, e]

theorem queuedCopies_erase (b : FMap ClientId (List NormalMsg)) (hw : FMap.WF b) (k : ClientId) :
    queuedCopies (b.erase k) + ((b.get k).getD []).length = queuedCopies b := by
  induction b with
  | nil => simp [queuedCopies, FMap.erase]
  | cons e b ih =>
    obtain ⟨k', v⟩ := e
    have hw' : FMap.WF b := by
      unfold FMap.WF FMap.keys at hw ⊢
      exact (List.nodup_cons.mp hw).2
    have hk : FMap.get b k' = none := by
      rw [FMap.get_eq_none_iff]
      unfold FMap.WF FMap.keys at hw
      exact (List.nodup_cons.mp hw).1
    have ih := ih hw'
    rw [FMap.get_cons]
    by_cases e : k' = k
    · subst e
      have : FMap.erase ((k', v) :: b) k' = FMap.erase b k' := by simp [FMap.erase]
      rw [this, if_pos rfl]
      rw [hk] at ih
      simp only [queuedCopies, List.map_cons, List.sum_cons, Option.getD_some, Option.getD_none,
        List.length_nil] at ih ⊢
      omega
    · have : FMap.erase ((k', v) :: b) k = (k', v) :: FMap.erase b k := by
        simp [FMap.erase, e]
      rw [this, if_neg e]
      simp only [queuedCopies, List.map_cons, List.sum_cons] at ih ⊢
      omega

theorem queuedCopies_insert (b : FMap ClientId (List NormalMsg)) (hw : FMap.WF b) (k : ClientId)
    (q : List NormalMsg) :
    queuedCopies (b.insert k q) + ((b.get k).getD []).length = queuedCopies b + q.length := by
  have := queuedCopies_erase b hw k
  simp only [FMap.insert, queuedCopies, List.map_cons, List.sum_cons] at this ⊢
  omega

theorem pushFold_count (reg : ClientId → Bool) (cs : List (ClientId × NormalMsg)) (s : Session)
    (hw : FMap.WF s.bcast) (h : s.bcastCnt = queuedCopies s.bcast + cs.length) :
    FMap.WF (cs.foldl (fun s c => s.pushCopy reg c.1 c.2) s).bcast ∧
    (cs.foldl (fun s c => s.pushCopy reg c.1 c.2) s).bcastCnt =
      queuedCopies (cs.foldl (fun s c => s.pushCopy reg c.1 c.2) s).bcast := by
  induction cs generalizing s with
  | nil => exact ⟨hw, by simpa using h⟩
  | cons c cs ih =>
    simp only [List.foldl_cons]
    simp only [List.length_cons] at h
    apply ih
    · unfold Session.pushCopy
      split
      · exact FMap.wf_insert hw ..
      · split
        · exact FMap.wf_insert hw ..
        · exact hw
    · unfold Session.pushCopy
      split
      · rename_i q hq
        have := queuedCopies_insert s.bcast hw c.1 (q ++ [c.2])
        rw [hq] at this
        simp only [Option.getD_some, List.length_append, List.length_cons, List.length_nil] at this
        simp only
        omega
      · rename_i hq
        split
        · have := queuedCopies_insert s.bcast hw c.1 [c.2]
          rw [hq] at this
          simp only [Option.getD_none, List.length_cons, List.length_nil] at this
          simp only
          omega
        · simp only
          omega

/-- The invariant of the queues and sinks. -/
structure TInv (w : Outgoing) : Prop where
  wf : FMap.WF w.session.bcast
  count : w.session.bcastCnt = queuedCopies w.session.bcast
  sinks : ∀ id, w.session.bcast.get id = none → w.sinks.get id = none

theorem tinv_push {w : Outgoing} (h : TInv w) (reg : ClientId → Bool)
    (cs : List (ClientId × NormalMsg)) : TInv { w with session := w.session.pushCopies reg cs } := by
  have hc := pushFold_count reg cs { w.session with bcastCnt := w.session.bcastCnt + cs.length }
    h.wf (by simp [h.count])
  refine ⟨hc.1, hc.2, fun id hn => h.sinks id ?_⟩
  have hq := queued_pushCopies w.session reg cs id
  by_cases hr : Reachable reg w.session id
  · cases hg : w.session.bcast.get id with
    | none => rfl
    | some q =>
      -- an entry never disappears while pushing
      exfalso
      have key : ∀ (cs : List (ClientId × NormalMsg)) (s : Session), (s.bcast.get id).isSome →
          ((cs.foldl (fun s c => s.pushCopy reg c.1 c.2) s).bcast.get id).isSome := by
        intro cs
        induction cs with
        | nil => intro s hs; exact hs
        | cons c cs ih =>
          intro s hs
          simp only [List.foldl_cons]
          apply ih
          rw [get_pushCopy]
          split
          · rename_i e
            subst e
            obtain ⟨x, hx⟩ := Option.isSome_iff_exists.mp hs
            rw [hx]
            rfl
          · exact hs
      have := key cs { w.session with bcastCnt := w.session.bcastCnt + cs.length } (by simp [hg])
      unfold Session.pushCopies at hn
      simp only at hn
      rw [hn] at this
      cases this
  · rw [← hq.2 hr]
    exact hn

theorem transit_push {w : Outgoing} (h : TInv w) (reg : ClientId → Bool)
    (cs : List (ClientId × NormalMsg)) (id : ClientId) :
    ∃ l, (Outgoing.inTransit { w with session := w.session.pushCopies reg cs } id) =
        w.inTransit id ++ l ∧ l.Sublist (addressedTo id cs) ∧
      (reg id = true → l = addressedTo id cs) := by
  have hq := queued_pushCopies w.session reg cs id
  by_cases hr : Reachable reg w.session id
  · refine ⟨addressedTo id cs, ?_, List.Sublist.refl _, fun _ => rfl⟩
    have h1 := hq.1 hr
    unfold Session.queued at h1
    unfold Outgoing.inTransit
    simp only
    have haddr : (cs.filter fun c => decide (c.1 = id)).map (·.2) = addressedTo id cs := rfl
    rw [haddr] at h1
    cases hb : w.session.bcast.get id with
    | none =>
      rw [hb] at h1
      simp only [Option.getD_none, List.nil_append] at h1
      cases hb' : (w.session.pushCopies reg cs).bcast.get id with
      | none =>
        rw [hb'] at h1
        simpa using h1
      | some q =>
        rw [hb'] at h1
        simp only [Outgoing.link, h.sinks id hb, Option.getD_none]
        simpa using h1
    | some q =>
      rw [hb] at h1
      simp only [Option.getD_some] at h1
      cases hb' : (w.session.pushCopies reg cs).bcast.get id with
      | none =>
        have := (tinv_push h reg cs)
        exfalso
        have hs : ∀ (cs : List (ClientId × NormalMsg)) (s : Session), (s.bcast.get id).isSome →
          ((cs.foldl (fun s c => s.pushCopy reg c.1 c.2) s).bcast.get id).isSome := by
          intro cs
          induction cs with
          | nil => intro s hs; exact hs
          | cons c cs ih =>
            intro s hs
            simp only [List.foldl_cons]
            apply ih
            rw [get_pushCopy]
            split
            · rename_i e
              subst e
              obtain ⟨x, hx⟩ := Option.isSome_iff_exists.mp hs
              rw [hx]
              rfl
            · exact hs
        have := hs cs { w.session with bcastCnt := w.session.bcastCnt + cs.length } (by simp [hb])
        unfold Session.pushCopies at hb'
        rw [hb'] at this
        cases this
      | some q' =>
        rw [hb'] at h1
        simp only [Option.getD_some] at h1
        subst h1
        simp [Outgoing.link]
  · refine ⟨[], ?_, List.nil_sublist _, fun hreg => absurd (.inl hreg) hr⟩
    have h1 := hq.2 hr
    unfold Outgoing.inTransit
    simp only [h1, List.append_nil]
    rfl

/-- The state after a pass, when it does not panic. -/
theorem pass_spec {o : ClientId → Nat → PollRes} {w : Outgoing} (h : TInv w) :
    ∃ w' got, w.pass o = some (w', got) ∧ TInv w' ∧ ∀ id,
      (addressedTo id got ++ w'.inTransit id <+: w.inTransit id) ∧
      ((∀ k, o id k ≠ .gone) → addressedTo id got ++ w'.inTransit id = w.inTransit id) ∧
      ((∀ k, o id k = .accept) → w'.inTransit id = []) := by
  unfold Outgoing.pass
  simp only [List.filterMap_map, List.map_map, List.flatMap_map, Function.comp_def]
  have hcount : ∀ b : FMap ClientId (List NormalMsg),
      queuedCopies (b.filterMap fun e => ((w.link e).visit (o e.1)).link.map fun l => (e.1, l.msgs)) +
        (b.map fun e => ((w.link e).visit (o e.1)).consumed).sum = queuedCopies b := by
    intro b
    induction b with
    | nil => simp [queuedCopies]
    | cons e b ih =>
      have hv := (visit_spec (o e.1) (w.link e)).1
      have hm : (w.link e).msgs = e.2 := rfl
      rw [hm] at hv
      simp only [List.filterMap_cons, List.map_cons, List.sum_cons]
      cases hl : ((w.link e).visit (o e.1)).link with
      | none =>
        rw [hl] at hv
        simp only [linkMsgs, List.length_nil] at hv
        simp only [Option.map_none, queuedCopies, List.map_cons, List.sum_cons] at ih ⊢
        omega
      | some l =>
        rw [hl] at hv
        simp only [linkMsgs] at hv
        simp only [Option.map_some, queuedCopies, List.map_cons, List.sum_cons] at ih ⊢
        omega
  have hc := hcount w.session.bcast
  rw [if_neg (by simp [hc]), if_neg (by rw [h.count]; omega)]
  have hwf : FMap.WF (w.session.bcast.filterMap fun e =>
      ((w.link e).visit (o e.1)).link.map fun l => (e.1, l.msgs)) := by
    have := keys_filterMap_sublist w.session.bcast fun k v =>
      ((w.link (k, v)).visit (o k)).link.map fun l => l.msgs
    simp only [Option.map_map, Function.comp_def] at this
    exact List.Nodup.sublist this h.wf
  have hget : ∀ id, FMap.get (w.session.bcast.filterMap fun e =>
      ((w.link e).visit (o e.1)).link.map fun l => (e.1, l.msgs)) id =
      (w.session.bcast.get id).bind fun v => ((w.link (id, v)).visit (o id)).link.map fun l => l.msgs := by
    intro id
    have := get_filterMap h.wf (fun k v =>
      ((w.link (k, v)).visit (o k)).link.map fun l => l.msgs) id
    simpa only [Option.map_map, Function.comp_def] using this
  have hsink : ∀ id, FMap.get (w.session.bcast.filterMap fun e =>
      ((w.link e).visit (o e.1)).link.map fun l => (e.1, (l.slot, l.flushed))) id =
      (w.session.bcast.get id).bind fun v =>
        ((w.link (id, v)).visit (o id)).link.map fun l => (l.slot, l.flushed) := by
    intro id
    have := get_filterMap h.wf (fun k v =>
      ((w.link (k, v)).visit (o k)).link.map fun l => (l.slot, l.flushed)) id
    simpa only [Option.map_map, Function.comp_def] using this
  refine ⟨_, _, rfl, ⟨hwf, by simp only [h.count]; omega, ?_⟩, ?_⟩
  · intro id hn
    simp only at hn ⊢
    rw [hget] at hn
    rw [hsink]
    cases hb : w.session.bcast.get id with
    | none => rfl
    | some v =>
      rw [hb] at hn
      simp only [Option.bind_some, Option.map_eq_none_iff] at hn ⊢
      exact hn
  · intro id
    have hgot := addressedTo_flatMap h.wf (fun k v => ((w.link (k, v)).visit (o k)).got) id
    have e1 : (w.session.bcast.flatMap fun e =>
        ((w.link e).visit (o e.1)).got.map fun m => (e.1, m)) =
        w.session.bcast.flatMap fun e =>
        ((w.link (e.1, e.2)).visit (o e.1)).got.map fun m => (e.1, m) := rfl
    rw [e1, hgot]
    unfold Outgoing.inTransit
    simp only [hget]
    cases hb : w.session.bcast.get id with
    | none => simp
    | some v =>
      simp only [Option.bind_some]
      have hv := visit_spec (o id) (w.link (id, v))
      have hl : ∀ l, ((w.link (id, v)).visit (o id)).link = some l →
          linkTransit (some l) = l.slot.toList ++ l.msgs := fun l _ => rfl
      cases hlk : ((w.link (id, v)).visit (o id)).link with
      | none =>
        rw [hlk] at hv
        simp only [linkTransit, List.append_nil] at hv
        simp only [Option.map_none, List.append_nil]
        exact ⟨hv.2.1, hv.2.2, fun _ => trivial⟩
      | some l =>
        rw [hlk] at hv
        simp only [linkTransit] at hv
        simp only [Option.map_some]
        have hsl : (Outgoing.link
            { session := { w.session with
                bcast := w.session.bcast.filterMap fun e =>
                  ((w.link e).visit (o e.1)).link.map fun l => (e.1, l.msgs)
                bcastCnt := w.session.bcastCnt -
                  (w.session.bcast.map fun e => ((w.link e).visit (o e.1)).consumed).sum }
              sinks := w.session.bcast.filterMap fun e =>
                ((w.link e).visit (o e.1)).link.map fun l => (e.1, (l.slot, l.flushed)) }
            (id, l.msgs)).slot = l.slot := by
          have e2 : ∀ (w2 : Outgoing) e, (w2.link e).slot =
              ((w2.sinks.get e.1).getD (none, true)).1 := fun _ _ => rfl
          rw [e2]
          simp only [hsink, hb, Option.bind_some, hlk, Option.map_some, Option.getD_some]
        rw [hsl]
        refine ⟨hv.2.1, hv.2.2, fun ha => ?_⟩
        have := visit_accept (o id) ha (w.link (id, v))
        rw [hlk] at this
        cases this

theorem tinv_new (s : Session) (h : s.bcast = []) (hc : s.bcastCnt = 0) :
    TInv { session := s } :=
  ⟨by rw [h]; exact FMap.wf_nil, by simp [h, hc, queuedCopies], fun _ _ => rfl⟩

theorem run_append' (w : Outgoing) (a b : List TransferAct) :
    w.run (a ++ b) = (w.run a).bind fun r => (r.1.run b).map fun r' => (r'.1, r.2 ++ r'.2) := by
  induction a generalizing w with
  | nil => simp [Outgoing.run, Function.comp_def]
  | cons x a ih =>
    simp only [List.cons_append, Outgoing.run]
    cases hx : w.step x with
    | none => rfl
    | some p =>
      simp only [ih]
      cases p.1.run a with
      | none => rfl
      | some q => simp [Option.map_map, Function.comp_def, List.append_assoc]

/-- Everything about a run. -/
theorem transfer_run {w : Outgoing} (h : TInv w) (acts : List TransferAct) :
    ∃ w' got, w.run acts = some (w', got) ∧ TInv w' ∧ ∀ id,
      ((addressedTo id got ++ w'.inTransit id).Sublist (w.inTransit id ++ copiesFor id acts)) ∧
      (Present id acts →
        addressedTo id got ++ w'.inTransit id = w.inTransit id ++ copiesFor id acts) := by
  induction acts using snoc_induction with
  | nil => exact ⟨w, [], rfl, h, fun id => ⟨by simp [addressedTo, copiesFor], fun _ => by
      simp [addressedTo, copiesFor]⟩⟩
  | snoc acts a ih =>
    obtain ⟨w1, got1, hr, h1, hid⟩ := ih
    have hpres : ∀ id, Present id (acts ++ [a]) → Present id acts := fun id hp =>
      ⟨fun r c hm => hp.1 r c (by simp [hm]), fun o hm => hp.2 o (by simp [hm])⟩
    cases a with
    | push reg cs =>
      refine ⟨{ w1 with session := w1.session.pushCopies reg cs }, got1, ?_, tinv_push h1 reg cs, ?_⟩
      · rw [run_append', hr]
        simp [Outgoing.run, Outgoing.step]
      · intro id
        obtain ⟨l, e1, e2, e3⟩ := transit_push h1 reg cs id
        have hc : copiesFor id (acts ++ [.push reg cs]) = copiesFor id acts ++ addressedTo id cs := by
          rw [copiesFor_append]; simp [copiesFor]
        rw [e1, hc, ← List.append_assoc, ← List.append_assoc]
        refine ⟨(hid id).1.append e2, fun hp => ?_⟩
        rw [(hid id).2 (hpres id hp), e3 (hp.1 reg cs (by simp))]
    | pass o =>
      obtain ⟨w2, got2, hp2, h2, hid2⟩ := pass_spec (o := o) h1
      refine ⟨w2, got1 ++ got2, ?_, h2, ?_⟩
      · rw [run_append', hr]
        simp [Outgoing.run, Outgoing.step, hp2]
      · intro id
        have hc : copiesFor id (acts ++ [.pass o]) = copiesFor id acts := by
          rw [copiesFor_append]; simp [copiesFor]
        rw [hc, addressedTo_append, List.append_assoc]
        refine ⟨List.Sublist.trans ?_ (hid id).1, fun hp => ?_⟩
        · exact (List.Sublist.refl _).append (hid2 id).1.sublist
        · rw [(hid2 id).2.1 (hp.2 o (by simp)), (hid id).2 (hpres id hp)]

end Akasa
