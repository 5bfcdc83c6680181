import Verif.Proof.RouteTable
import Verif.Proof.Util
/-! Shared-subscription groups in the routing table. -/
namespace Akasa
open RouteNode

/-! ### `$share/g/f` strings -/

theorem levels_append_slash {g : Str} (h : '/' ∉ g) (f : Str) :
    levels (g ++ '/' :: f) = g :: levels f := by
  induction g with
  | nil => simp [levels]
  | cons c cs ih =>
    simp only [List.mem_cons, not_or] at h
    simp only [List.cons_append, levels]
    rw [if_neg (Ne.symm h.1), ih h.2]

theorem levels_two {s g : Str} {l : Str} {ls : List Str} (h : levels s = g :: l :: ls) :
    '/' ∉ g ∧ s = g ++ '/' :: s.drop (g.length + 1) := by
  induction s generalizing g with
  | nil => simp [levels] at h
  | cons c cs ih =>
    simp only [levels] at h
    split at h
    · rename_i e
      simp only [List.cons.injEq] at h
      rw [← h.1, e]; simp
    · rename_i e
      cases hl : levels cs with
      | nil => rw [hl] at h; simp at h
      | cons a b =>
        rw [hl] at h
        simp only [List.cons.injEq] at h
        obtain ⟨h1, h2⟩ := h
        subst h1
        have := ih (g := a) (by rw [hl, h2])
        refine ⟨by simp only [List.mem_cons, not_or]; exact ⟨Ne.symm e, this.1⟩, ?_⟩
        simp only [List.length_cons, List.drop_succ_cons, List.cons_append]
        rw [← this.2]

theorem sharedInfo_share {g : Str} (h : '/' ∉ g) (f : Str) :
    sharedInfo (shareFilter g f) = some (g, f) := by
  have : shareFilter g f = '$' :: 's' :: 'h' :: 'a' :: 'r' :: 'e' :: '/' :: (g ++ '/' :: f) := by
    simp [shareFilter]
  rw [this]
  simp only [sharedInfo]
  rw [levels_append_slash h]
  cases hl : levels f with
  | nil => exact absurd hl (levels_ne_nil f)
  | cons a b =>
    simp only
    simp

theorem sharedInfo_some {F g f : Str} (h : sharedInfo F = some (g, f)) :
    F = shareFilter g f ∧ '/' ∉ g := by
  unfold sharedInfo at h
  split at h
  · rename_i rest
    split at h
    · rename_i g' a b hl
      simp only [Option.some.injEq, Prod.mk.injEq] at h
      obtain ⟨rfl, rfl⟩ := h
      obtain ⟨h1, h2⟩ := levels_two hl
      refine ⟨?_, h1⟩
      simp only [shareFilter]
      simp only [List.cons_append, List.nil_append, List.append_assoc]
      rw [← h2]
    · cases h
  · cases h

theorem share_not_plain {g : Str} (h : '/' ∉ g) (f : Str) : ¬ IsPlain (shareFilter g f) := by
  unfold IsPlain; rw [sharedInfo_share h]; simp

theorem shareFilter_inj {g g' f f' : Str} (h : '/' ∉ g) (h' : '/' ∉ g')
    (e : shareFilter g f = shareFilter g' f') : g = g' ∧ f = f' := by
  have := sharedInfo_share h f
  rw [e, sharedInfo_share h'] at this
  simp at this
  exact ⟨this.1.symm, this.2.symm⟩

theorem target_share {g : Str} (h : '/' ∉ g) (f : Str) :
    RouteOp.target (shareFilter g f) = (f, some g) := by
  simp [RouteOp.target, sharedInfo_share h]

/-! ### Histories -/

theorem subscribed_snoc (ops : List RouteOp) (op : RouteOp) :
    subscribed (ops ++ [op]) = (subscribed ops).step op := by
  simp [subscribed]

theorem run_snoc (t : RouteTable) (ops : List RouteOp) (op : RouteOp) :
    t.run (ops ++ [op]) = (t.run ops).bind (·.step op) := by
  induction ops generalizing t with
  | nil =>
    simp only [List.nil_append, RouteTable.run, Option.bind_some]
    cases t.step op <;> rfl
  | cons o os ih =>
    simp only [List.cons_append, RouteTable.run]
    cases t.step o with
    | none => rfl
    | some t' => exact ih t'

theorem NoRejoin.prefix {ops : List RouteOp} {op : RouteOp} (h : NoRejoin (ops ++ [op])) :
    NoRejoin ops := by
  intro pre o post e
  exact h pre o (post ++ [op]) (by rw [e]; simp)

theorem NoRejoin.last {ops : List RouteOp} {op : RouteOp} (h : NoRejoin (ops ++ [op]))
    (hs : ¬ IsPlain op.filter) : ¬ LeftLiveGroup ops op.filter op.client :=
  h ops op [] rfl hs

theorem LeftLiveGroup.snoc {ops : List RouteOp} {op : RouteOp} {F : Str} {id : ClientId}
    (h : LeftLiveGroup ops F id ∨ ((∃ q, subscribed ops F id = some q) ∧ op = .unsub F id))
    (hne : ∃ x q, subscribed (ops ++ [op]) F x = some q) :
    LeftLiveGroup (ops ++ [op]) F id := by
  rcases h with ⟨k, q, h1, h2, h3⟩ | ⟨⟨q, hq⟩, rfl⟩
  · have hk := lt_of_getElem? h2
    refine ⟨k, q, by rw [List.take_append_of_le_length (by omega)]; exact h1,
      by rw [List.getElem?_append_left hk]; exact h2, ?_⟩
    intro m hm hm2
    by_cases hml : m ≤ ops.length
    · rw [List.take_append_of_le_length hml]; exact h3 m hm hml
    · rw [List.take_of_length_le (by simp; omega)]; exact hne
  · refine ⟨ops.length, q, by simpa using hq, by simp, ?_⟩
    intro m hm _
    rw [List.take_of_length_le (by simp; omega)]; exact hne

/-! ### Invariant -/

theorem GroupInv.mono {σ : ClientId → Option QoS} {dead dead' : ClientId → Prop} {s : SharedClients}
    (h : GroupInv σ dead s) (hd : ∀ x, dead x → dead' x) : GroupInv σ dead' s :=
  ⟨h.nodup, h.mem, h.idx, fun id i hi => (h.back id i hi).imp_right (hd id)⟩

theorem GroupInv.congr {σ σ' : ClientId → Option QoS} {dead : ClientId → Prop} {s : SharedClients}
    (h : GroupInv σ dead s) (hd : ∀ x, σ x = σ' x) : GroupInv σ' dead s := by
  have : σ = σ' := funext hd
  subst this; exact h

/-- What the routing table stores for one group. -/
def GroupOk (σ : ClientId → Option QoS) (dead : ClientId → Prop) : Option SharedClients → Prop
  | some s => GroupInv σ dead s ∧ s.items ≠ []
  | none => ∀ id, σ id = none

theorem GroupOk.mono {σ σ' : ClientId → Option QoS} {dead dead' : ClientId → Prop}
    {o : Option SharedClients} (h : GroupOk σ dead o) (hs : ∀ x, σ x = σ' x)
    (hd : (∃ x q, σ' x = some q) → ∀ x, dead x → dead' x) : GroupOk σ' dead' o := by
  have : σ = σ' := funext hs
  subst this
  cases o with
  | none => exact h
  | some s =>
    obtain ⟨h1, h2⟩ := h
    refine ⟨h1.mono (hd ?_), h2⟩
    cases hi : s.items with
    | nil => exact absurd hi h2
    | cons a b => exact ⟨a.1, a.2, (h1.mem a.1 a.2).mp (by rw [hi]; simp)⟩

/-- The routing table represents the groups of the history. -/
structure SInv (ops : List RouteOp) (t : RouteTable) : Prop where
  group : ∀ g f, '/' ∉ g → GroupOk (subscribed ops (shareFilter g f))
    (LeftLiveGroup ops (shareFilter g f)) ((t.root.contentAt (levels f)).groups.get g)
  name : ∀ p g s, (t.root.contentAt p).groups.get g = some s → '/' ∉ g
  wf : ∀ p, FMap.WF (t.root.contentAt p).groups

theorem SInv.empty : SInv [] RouteTable.empty := by
  have h : ∀ p, RouteTable.empty.root.contentAt p = RouteContent.empty := contentAt_new
  constructor
  · intro g f _; rw [h]; intro id; rfl
  · intro p g s hp; rw [h] at hp; simp [RouteContent.empty] at hp
  · intro p; rw [h]; exact FMap.wf_nil

/-- A step that is not about the group keeps it. -/
theorem GroupOk.other {ops : List RouteOp} {op : RouteOp} {F : Str} {o : Option SharedClients}
    (h : GroupOk (subscribed ops F) (LeftLiveGroup ops F) o) (hf : op.filter ≠ F) :
    GroupOk (subscribed (ops ++ [op]) F) (LeftLiveGroup (ops ++ [op]) F) o := by
  refine h.mono ?_ ?_
  · intro x
    rw [subscribed_snoc]
    cases op with
    | sub f id q => simp only [RouteOp.filter] at hf; simp [SubState.step, Ne.symm hf]
    | unsub f id => simp only [RouteOp.filter] at hf; simp [SubState.step, Ne.symm hf]
  · intro hne x hx
    exact LeftLiveGroup.snoc (Or.inl hx) hne

/-- Step on one group. -/
theorem SInv.sub {ops : List RouteOp} {t : RouteTable} (h : SInv ops t) {F : Str} {id : ClientId}
    {q : QoS} (hnr : ¬ IsPlain F → ¬ LeftLiveGroup ops F id) :
    ∃ t', t.step (.sub F id q) = some t' ∧ SInv (ops ++ [.sub F id q]) t' := by
  rw [step_sub_eq]
  cases hsi : sharedInfo F with
  | none =>
    have hp : IsPlain F := hsi
    rw [target_plain hp]
    simp only
    obtain ⟨t', e1, e2⟩ := RouteTable.subscribeShared_some (t := t) (f := F) (id := id) (q := q)
      (g := none) (c' := _) rfl
    refine ⟨t', e1, ?_, ?_, ?_⟩
    · intro g f hg
      rw [e2]
      have key := (h.group g f hg).other (op := .sub F id q) (F := shareFilter g f)
        (by intro e; exact share_not_plain hg f (e ▸ hp))
      split
      · rename_i e; rw [e] at key; exact key
      · exact key
    · intro p g s; rw [e2]; split
      · rename_i e; intro hh; exact h.name _ g s hh
      · exact h.name p g s
    · intro p; rw [e2]; split
      · exact h.wf _
      · exact h.wf p
  | some gf =>
    obtain ⟨g0, f0⟩ := gf
    obtain ⟨rfl, hg0⟩ := sharedInfo_some hsi
    rw [target_share hg0]
    simp only
    have hnl := hnr (share_not_plain hg0 f0)
    have hgrp := h.group g0 f0 hg0
    have hins : ∃ s', (((t.root.contentAt (levels f0)).groups.get g0).getD SharedClients.empty).insert
        (id, q) = some s' ∧ s'.items ≠ [] ∧
        GroupInv (fun x => if x = id then some q else subscribed ops (shareFilter g0 f0) x)
          (LeftLiveGroup ops (shareFilter g0 f0)) s' := by
      cases hget : (t.root.contentAt (levels f0)).groups.get g0 with
      | none =>
        rw [hget] at hgrp
        exact ((GroupInv.empty _).congr (fun x => (hgrp x).symm)).insert q hnl
      | some s =>
        rw [hget] at hgrp
        exact hgrp.1.insert q hnl
    obtain ⟨s', i1, i2, i3⟩ := hins
    obtain ⟨t', e1, e2⟩ := RouteTable.subscribeShared_some (t := t) (f := f0) (id := id) (q := q)
      (g := some g0) (c' := { (t.root.contentAt (levels f0)) with
        topicFilter := (match (t.root.contentAt (levels f0)).topicFilter with
          | none => some f0 | some f => some f),
        groups := (t.root.contentAt (levels f0)).groups.insert g0 s' })
      (by simp only [RouteContent.add, i1]; rfl)
    refine ⟨t', e1, ?_, ?_, ?_⟩
    · intro g f hg
      rw [e2]
      by_cases hF : shareFilter g0 f0 = shareFilter g f
      · obtain ⟨rfl, rfl⟩ := shareFilter_inj hg0 hg hF
        rw [if_pos rfl]
        simp only [FMap.get_insert_self]
        have : GroupOk (fun x => if x = id then some q else subscribed ops (shareFilter g0 f0) x)
          (LeftLiveGroup ops (shareFilter g0 f0)) (some s') := ⟨i3, i2⟩
        refine this.mono ?_ ?_
        · intro x; rw [subscribed_snoc]; simp [SubState.step]
        · intro hne x hx; exact LeftLiveGroup.snoc (Or.inl hx) hne
      · have key := (h.group g f hg).other (op := .sub (shareFilter g0 f0) id q) hF
        split
        · rename_i e
          have := levels_injective e; subst this
          have hgg : g ≠ g0 := by intro e; subst e; exact hF rfl
          simp only
          rw [FMap.get_insert_ne _ _ (Ne.symm hgg)]
          exact key
        · exact key
    · intro p g s; rw [e2]; split
      · rename_i e
        simp only
        intro hh
        by_cases hgg : g = g0
        · rw [hgg]; exact hg0
        · rw [FMap.get_insert_ne _ _ (Ne.symm hgg)] at hh; exact h.name _ g s hh
      · exact h.name p g s
    · intro p; rw [e2]; split
      · exact FMap.wf_insert (h.wf _) _ _
      · exact h.wf p

theorem SInv.unsub {ops : List RouteOp} {t : RouteTable} (h : SInv ops t) (hc : t.root.Clean)
    {F : Str} {id : ClientId} (hnr : ¬ IsPlain F → ¬ LeftLiveGroup ops F id) :
    ∃ t', t.step (.unsub F id) = some t' ∧ SInv (ops ++ [.unsub F id]) t' := by
  rw [step_unsub_eq]
  have hcut : ∀ d : RouteContent,
      (if d.isEmpty then { d with topicFilter := none } else d).groups = d.groups := by
    intro d; split <;> rfl
  cases hsi : sharedInfo F with
  | none =>
    have hp : IsPlain F := hsi
    rw [target_plain hp]
    simp only
    obtain ⟨t', e1, e2⟩ := RouteTable.unsubscribeShared_some (t := t) (f := F) (id := id)
      (g := none) (c' := _) hc rfl
    refine ⟨t', e1, ?_, ?_, ?_⟩
    · intro g f hg
      rw [e2]
      have key := (h.group g f hg).other (op := .unsub F id) (F := shareFilter g f)
        (by intro e; exact share_not_plain hg f (e ▸ hp))
      split
      · rename_i e; rw [e] at key; rw [hcut]; exact key
      · exact key
    · intro p g s; rw [e2]; split
      · rename_i e; rw [hcut]; intro hh; exact h.name _ g s hh
      · exact h.name p g s
    · intro p; rw [e2]; split
      · rw [hcut]; exact h.wf _
      · exact h.wf p
  | some gf =>
    obtain ⟨g0, f0⟩ := gf
    obtain ⟨rfl, hg0⟩ := sharedInfo_some hsi
    rw [target_share hg0]
    simp only
    have hnl := hnr (share_not_plain hg0 f0)
    have hgrp := h.group g0 f0 hg0
    -- the new groups of the content
    have hdel : ∃ d, (t.root.contentAt (levels f0)).del id (some g0) = some d ∧
        GroupOk (subscribed (ops ++ [.unsub (shareFilter g0 f0) id]) (shareFilter g0 f0))
          (LeftLiveGroup (ops ++ [.unsub (shareFilter g0 f0) id]) (shareFilter g0 f0))
          (d.groups.get g0) ∧
        (∀ g, g ≠ g0 → d.groups.get g = (t.root.contentAt (levels f0)).groups.get g) ∧
        FMap.WF d.groups := by
      cases hget : (t.root.contentAt (levels f0)).groups.get g0 with
      | none =>
        rw [hget] at hgrp
        refine ⟨_, by simp only [RouteContent.del, hget]; rfl, ?_, ?_, ?_⟩
        · rw [hcut, hget]
          intro x; rw [subscribed_snoc]; simp only [SubState.step]
          split
          · rfl
          · exact hgrp x
        · intro g _; rw [hcut]
        · rw [hcut]; exact h.wf _
      | some s =>
        rw [hget] at hgrp
        have hrem : ∃ s', s.remove id = some s' ∧
            (s'.items = [] → ∀ x, subscribed (ops ++ [.unsub (shareFilter g0 f0) id])
              (shareFilter g0 f0) x = none) ∧
            (s'.items ≠ [] → GroupInv (subscribed (ops ++ [.unsub (shareFilter g0 f0) id])
              (shareFilter g0 f0))
              (LeftLiveGroup (ops ++ [.unsub (shareFilter g0 f0) id]) (shareFilter g0 f0)) s') := by
          obtain ⟨s', r1, r2⟩ := hgrp.1.remove hnl
          refine ⟨s', r1, ?_, ?_⟩
          · intro he x
            have := r2.mem x
            cases hx : subscribed (ops ++ [.unsub (shareFilter g0 f0) id]) (shareFilter g0 f0) x with
            | none => rfl
            | some q =>
              rw [subscribed_snoc] at hx
              simp only [SubState.step] at hx
              have := (r2.mem x q).mpr (by simpa using hx)
              rw [he] at this; simp at this
          · intro hne
            have hmem : ∃ x q, subscribed (ops ++ [.unsub (shareFilter g0 f0) id])
                (shareFilter g0 f0) x = some q := by
              cases hi : s'.items with
              | nil => exact absurd hi hne
              | cons a b =>
                refine ⟨a.1, a.2, ?_⟩
                have := (r2.mem a.1 a.2).mp (by rw [hi]; simp)
                rw [subscribed_snoc]; simpa [SubState.step] using this
            by_cases hm : ∃ q, subscribed ops (shareFilter g0 f0) id = some q
            · refine (r2.mono ?_).congr ?_
              · intro x hx
                rcases hx with hx | hx
                · exact LeftLiveGroup.snoc (Or.inl hx) hmem
                · subst hx; exact LeftLiveGroup.snoc (Or.inr ⟨hm, rfl⟩) hmem
              · intro x; rw [subscribed_snoc]; simp [SubState.step]
            · -- not a member: nothing happens
              have hidx : s.index.get id = none := by
                cases hi : s.index.get id with
                | none => rfl
                | some i =>
                  obtain ⟨q, hq⟩ := (hgrp.1.back id i hi).resolve_right hnl
                  exact absurd ⟨q, (hgrp.1.mem id q).mp (List.mem_of_getElem? hq)⟩ hm
              have hs' : s' = s := by
                simp only [SharedClients.remove, hidx, Option.some.injEq] at r1; exact r1.symm
              subst hs'
              refine (hgrp.1.mono ?_).congr ?_
              · intro x hx; exact LeftLiveGroup.snoc (Or.inl hx) hmem
              · intro x; rw [subscribed_snoc]; simp only [SubState.step, true_and]
                split
                · rename_i e; subst e
                  cases hh : subscribed ops (shareFilter g0 f0) x with
                  | none => rfl
                  | some q => exact absurd ⟨q, hh⟩ hm
                · rfl
        obtain ⟨s', r1, r2, r3⟩ := hrem
        cases hemp : s'.isEmpty with
        | true =>
          refine ⟨_, by simp only [RouteContent.del, hget, r1, hemp]; rfl, ?_, ?_, ?_⟩
          · rw [hcut]; simp only [FMap.get_erase_self]
            exact r2 (by simpa [SharedClients.isEmpty] using hemp)
          · intro g hg; rw [hcut]; simp only; exact FMap.get_erase_ne _ (Ne.symm hg)
          · rw [hcut]; exact FMap.wf_erase (h.wf _) _
        | false =>
          have hne : s'.items ≠ [] := by
            intro e; rw [SharedClients.isEmpty, e] at hemp; cases hemp
          refine ⟨_, by simp only [RouteContent.del, hget, r1, hemp]; rfl, ?_, ?_, ?_⟩
          · rw [hcut]; simp only [FMap.get_insert_self]
            exact ⟨r3 hne, hne⟩
          · intro g hg; rw [hcut]; simp only; exact FMap.get_insert_ne _ _ (Ne.symm hg)
          · rw [hcut]; exact FMap.wf_insert (h.wf _) _ _
    obtain ⟨d, d1, d2, d3, d4⟩ := hdel
    obtain ⟨t', e1, e2⟩ := RouteTable.unsubscribeShared_some hc d1
    refine ⟨t', e1, ?_, ?_, ?_⟩
    · intro g f hg
      rw [e2]
      by_cases hF : shareFilter g0 f0 = shareFilter g f
      · obtain ⟨rfl, rfl⟩ := shareFilter_inj hg0 hg hF
        rw [if_pos rfl]; exact d2
      · have key := (h.group g f hg).other (op := .unsub (shareFilter g0 f0) id) hF
        split
        · rename_i e
          have := levels_injective e; subst this
          have hgg : g ≠ g0 := by intro e; subst e; exact hF rfl
          rw [d3 g hgg]; exact key
        · exact key
    · intro p g s; rw [e2]; split
      · intro hh
        by_cases hgg : g = g0
        · rw [hgg]; exact hg0
        · rw [d3 g hgg] at hh; exact h.name _ g s hh
      · exact h.name p g s
    · intro p; rw [e2]; split
      · exact d4
      · exact h.wf p

/-- Both invariants hold after every history without rejoining. -/
theorem run_noRejoin (ops : List RouteOp) (h : NoRejoin ops) :
    ∃ t, RouteTable.empty.run ops = some t ∧ SInv ops t ∧ RInv (subscribed ops) t := by
  induction ops using snoc_induction with
  | nil => exact ⟨_, rfl, SInv.empty, RInv.empty⟩
  | snoc ops op ih =>
    obtain ⟨t, e, hs, hr⟩ := ih h.prefix
    have hl := fun hp => h.last (op := op) hp
    have : ∃ t', t.step op = some t' ∧ SInv (ops ++ [op]) t' := by
      cases op with
      | sub F id q => exact hs.sub hl
      | unsub F id => exact hs.unsub hr.clean hl
    obtain ⟨t', e', hs'⟩ := this
    refine ⟨t', by rw [run_snoc, e]; exact e', hs', ?_⟩
    rw [subscribed_snoc]
    exact hr.step e'

theorem noRejoin_of_plain {ops : List RouteOp} (h : ∀ op ∈ ops, IsPlain op.filter) :
    NoRejoin ops := by
  intro pre op post e hn
  exact absurd (h op (by rw [e]; simp)) hn

end Akasa
