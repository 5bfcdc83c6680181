import Verif.Spec.RouteRace
import Verif.Proof.RouteHeapTable
import Verif.Proof.FanoutTable
/-! Reading the contents found by a lookup one by one while the table changes. -/
namespace Akasa
namespace RefTable

theorem prefix_take_flatten (gaps : List (List RouteOp)) (k : Nat) :
    (gaps.take k).flatten <+: gaps.flatten := by
  refine ⟨(gaps.drop k).flatten, ?_⟩
  rw [← List.flatten_append, List.take_append_drop]

theorem readAll_spec {t t' : RefTable} {rs : List Nat} {gaps : List (List RouteOp)}
    {cs : List RouteContent} (h : t.readAll rs gaps = some (cs, t')) :
    cs.length = rs.length ∧ t.run (gaps.take rs.length).flatten = some t' ∧
    ∀ i r, rs[i]? = some r → ∃ ti, t.run (gaps.take (i + 1)).flatten = some ti ∧
      cs[i]? = some (ti.heap.read r) := by
  induction rs generalizing t gaps cs with
  | nil =>
    simp only [readAll, Option.some.injEq, Prod.mk.injEq] at h
    obtain ⟨rfl, rfl⟩ := h
    exact ⟨rfl, by simp [run], by simp⟩
  | cons r rs ih =>
    simp only [readAll] at h
    split at h
    · cases h
    rename_i t1 h1
    rw [Option.map_eq_some_iff] at h
    obtain ⟨⟨cs1, t2⟩, h2, h3⟩ := h
    simp only [Prod.mk.injEq] at h3
    obtain ⟨rfl, rfl⟩ := h3
    obtain ⟨i1, i2, i3⟩ := ih h2
    have htake : ∀ k, t.run (gaps.take (k + 1)).flatten = t1.run (gaps.tail.take k).flatten := by
      intro k
      cases gaps with
      | nil =>
        simp only [List.headD_nil, run, Option.some.injEq] at h1
        simp [h1]
      | cons a gaps =>
        simp only [List.headD_cons] at h1
        simp only [List.take_succ_cons, List.flatten_cons, List.tail_cons, run_append, h1,
          Option.bind_some]
    refine ⟨by simp [i1], ?_, ?_⟩
    · rw [List.length_cons, htake]; exact i2
    · intro i r' hr'
      cases i with
      | zero =>
        simp only [List.getElem?_cons_zero, Option.some.injEq] at hr'
        subst hr'
        exact ⟨t1, by rw [htake]; simp [run], rfl⟩
      | succ i =>
        simp only [List.getElem?_cons_succ] at hr'
        obtain ⟨ti, h4, h5⟩ := i3 i r' hr'
        exact ⟨ti, by rw [htake]; exact h4, by simpa using h5⟩

theorem sound_of_run {ops : List RouteOp} {t : RefTable} (h : RefTable.empty.run ops = some t) :
    Sound t ∧ RouteTable.empty.run ops = some t.abs := by
  have := run_some_abs Sound.empty h
  exact ⟨this.2.1, this.1⟩

theorem run_append_some {ops pre : List RouteOp} {t t1 : RefTable}
    (h : RefTable.empty.run ops = some t) (h1 : t.run pre = some t1) :
    RefTable.empty.run (ops ++ pre) = some t1 := by
  rw [run_append, h]; exact h1

/-- What a lookup finds. -/
theorem found {ops : List RouteOp} {t : RefTable} (h : RefTable.empty.run ops = some t)
    {topic : Str} (hv : ValidTopic topic) {r : Nat} (hr : r ∈ t.getMatches topic) :
    ∃ f, Matches f topic ∧ (t.heap.read r).topicFilter = some f ∧ t.refAt (levels f) = some r ∧
      t.heap.read r = t.abs.root.contentAt (levels f) ∧ (t.heap.read r).isEmpty = false := by
  obtain ⟨hs, hab⟩ := sound_of_run h
  have inv := RInv.empty.run hab
  have hc : t.heap.read r ∈ t.abs.getMatches topic := by
    rw [← getMatches_eq]; exact List.mem_map.2 ⟨r, hr, rfl⟩
  obtain ⟨f, h1, h2, h3, h4⟩ := (RouteTable.mem_getMatches hv inv.tf).mp hc
  obtain ⟨p, hp⟩ := RefNode.mem_refAtL _ hs.wf hs.wfl r (getMatches_refs hr)
  have hpe : p ≠ [] := by rintro rfl; cases hp
  have hcp : t.abs.root.contentAt p = t.heap.read r := by
    rw [contentAt_eq t hpe, show t.refAt p = some r from hp]
  obtain ⟨f', h5, h6⟩ := inv.tf p (by rw [hcp]; exact h4)
  rw [hcp, h3, Option.some.injEq] at h5
  subst h5
  subst h6
  exact ⟨f, h1, h3, hp, hcp.symm, h4⟩

/-- What a lookup finds is there for every filter that matches. -/
theorem found_all {ops : List RouteOp} {t : RefTable} (h : RefTable.empty.run ops = some t)
    {topic : Str} (hv : ValidTopic topic) {f : Str} (hm : Matches f topic)
    (hne : (t.abs.root.contentAt (levels f)).isEmpty = false) :
    ∃ r ∈ t.getMatches topic, t.refAt (levels f) = some r := by
  obtain ⟨hs, hab⟩ := sound_of_run h
  have inv := RInv.empty.run hab
  obtain ⟨f', h1, h2⟩ := inv.tf _ hne
  have := levels_injective h2; subst this
  have hc : t.abs.root.contentAt (levels f') ∈ t.abs.getMatches topic :=
    (RouteTable.mem_getMatches hv inv.tf).mpr ⟨f', hm, rfl, h1, hne⟩
  rw [← getMatches_eq, List.mem_map] at hc
  obtain ⟨r, hr, hrc⟩ := hc
  obtain ⟨f2, _, h4, h5, _, _⟩ := found h hv hr
  rw [hrc, h1, Option.some.injEq] at h4
  subst h4
  exact ⟨r, hr, h5⟩

/-- One content read during a publish. -/
theorem read_one {ops : List RouteOp} {t : RefTable} (h : RefTable.empty.run ops = some t)
    {topic : Str} (hv : ValidTopic topic) {gaps : List (List RouteOp)} {cs : List RouteContent}
    {t' : RefTable} (hrd : t.readAll (t.getMatches topic) gaps = some (cs, t')) {i r : Nat}
    (hi : (t.getMatches topic)[i]? = some r) :
    ∃ f c now ti, Matches f topic ∧ t.refAt (levels f) = some r ∧
      (t.heap.read r).topicFilter = some f ∧ (t.heap.read r).isEmpty = false ∧
      cs[i]? = some c ∧ During ops gaps now ∧ RouteTable.empty.run now = some ti ∧
      (c = RouteContent.empty ∨ (c = ti.root.contentAt (levels f) ∧ c.topicFilter = some f)) ∧
      ((∀ now' ti', During ops gaps now' → RouteTable.empty.run now' = some ti' →
          (ti'.root.contentAt (levels f)).isEmpty = false) →
        c = ti.root.contentAt (levels f) ∧ c.topicFilter = some f) := by
  obtain ⟨hs, hab⟩ := sound_of_run h
  obtain ⟨_, _, h3⟩ := readAll_spec hrd
  obtain ⟨ti, h4, h5⟩ := h3 i r hi
  obtain ⟨f, f1, f2, f3, f4, f5⟩ := found h hv (List.mem_of_getElem? hi)
  have hpre := prefix_take_flatten gaps (i + 1)
  have hnow := run_append_some h h4
  obtain ⟨hsi, habi⟩ := sound_of_run hnow
  have invi := RInv.empty.run habi
  have key : ti.heap.read r = ti.abs.root.contentAt (levels f) →
      ti.heap.read r = RouteContent.empty ∨
      (ti.heap.read r = ti.abs.root.contentAt (levels f) ∧
        (ti.heap.read r).topicFilter = some f) := by
    intro e
    by_cases he : (ti.heap.read r).isEmpty = true
    · exact Or.inl (hsi.clean r he)
    · right
      refine ⟨e, ?_⟩
      rw [e] at he ⊢
      obtain ⟨f', h6, h7⟩ := invi.tf _ (by simpa using he)
      rw [h6, levels_injective h7]
  refine ⟨f, _, _, _, f1, f3, f2, f5, h5, ⟨_, hpre, rfl⟩, habi, ?_, ?_⟩
  · rcases read_later hs h4 f3 with ⟨_, h6⟩ | h6
    · exact key h6
    · exact Or.inl h6
  · intro hall
    have hstay : ti.refAt (levels f) = some r := by
      refine refAt_stays hs h4 f3 fun pre t1 hp ht1 => ?_
      have hnow1 := run_append_some h ht1
      exact hall _ _ ⟨pre, hp.trans hpre, rfl⟩ (sound_of_run hnow1).2
    have hpe : levels f ≠ [] := by intro e; rw [e] at f3; cases f3
    have e : ti.heap.read r = ti.abs.root.contentAt (levels f) := by
      rw [contentAt_eq ti hpe, hstay]
    rcases key e with h6 | h6
    · have := hall _ _ ⟨_, hpre, rfl⟩ habi
      rw [← e, h6] at this; cases this
    · exact h6

theorem mem_read {ops : List RouteOp} {t : RefTable} (h : RefTable.empty.run ops = some t)
    {topic : Str} (hv : ValidTopic topic) {gaps : List (List RouteOp)} {cs : List RouteContent}
    {t' : RefTable} (hrd : t.readAll (t.getMatches topic) gaps = some (cs, t'))
    {c : RouteContent} (hc : c ∈ cs) {F : Str} (hF : c.topicFilter = some F) :
    Matches F topic ∧ ∃ now ti, During ops gaps now ∧ RouteTable.empty.run now = some ti ∧
      c = ti.root.contentAt (levels F) := by
  obtain ⟨i, hi⟩ := List.getElem?_of_mem hc
  obtain ⟨hl, _, _⟩ := readAll_spec hrd
  have hlt : i < cs.length := (List.getElem?_eq_some_iff.1 hi).1
  obtain ⟨f, c', now, ti, h1, _, _, _, h2, h3, h4, h5, _⟩ :=
    read_one h hv hrd (i := i) (r := (t.getMatches topic)[i]'(by omega))
      (List.getElem?_eq_getElem (by omega))
  rw [hi, Option.some.injEq] at h2
  subst h2
  rcases h5 with h5 | ⟨h5, h6⟩
  · rw [h5] at hF; cases hF
  · rw [h6, Option.some.injEq] at hF
    subst hF
    exact ⟨h1, now, ti, h3, h4, h5⟩

/-- The filters of the contents read are those found. -/
theorem read_filters {ops : List RouteOp} {t : RefTable} (h : RefTable.empty.run ops = some t)
    {topic : Str} (hv : ValidTopic topic) {gaps : List (List RouteOp)} {cs : List RouteContent}
    {t' : RefTable} (hrd : t.readAll (t.getMatches topic) gaps = some (cs, t'))
    (hall : ∀ c ∈ cs, c.topicFilter ≠ none) :
    (cs.map (·.topicFilter)).Nodup := by
  obtain ⟨hl, _, _⟩ := readAll_spec hrd
  have heq : cs.map (·.topicFilter) = (t.abs.getMatches topic).map (·.topicFilter) := by
    rw [← getMatches_eq, List.map_map]
    refine List.ext_getElem? fun i => ?_
    rw [List.getElem?_map, List.getElem?_map]
    cases hr : (t.getMatches topic)[i]? with
    | none =>
      have : cs[i]? = none := by
        rw [List.getElem?_eq_none_iff] at hr ⊢; omega
      rw [this]; rfl
    | some r =>
      obtain ⟨f, c, now, ti, _, _, h3, _, h4, _, _, h6, _⟩ := read_one h hv hrd hr
      rw [h4]
      simp only [Option.map_some, Function.comp_apply, h3]
      rcases h6 with h6 | ⟨_, h6⟩
      · exact absurd (by rw [h6]; rfl) (hall c (List.mem_of_getElem? h4))
      · rw [h6]
  rw [heq]
  exact getMatches_once (RInv.empty.run (sound_of_run h).2) hv

/-- The content of a filter that has something at every moment is read. -/
theorem read_kept {ops : List RouteOp} {t : RefTable} (h : RefTable.empty.run ops = some t)
    {topic : Str} (hv : ValidTopic topic) {gaps : List (List RouteOp)} {cs : List RouteContent}
    {t' : RefTable} (hrd : t.readAll (t.getMatches topic) gaps = some (cs, t')) {f : Str}
    (hm : Matches f topic)
    (hne : ∀ now ti, During ops gaps now → RouteTable.empty.run now = some ti →
      (ti.root.contentAt (levels f)).isEmpty = false) :
    ∃ c ∈ cs, ∃ now ti, During ops gaps now ∧ RouteTable.empty.run now = some ti ∧
      c = ti.root.contentAt (levels f) ∧ c.topicFilter = some f := by
  obtain ⟨hs, hab⟩ := sound_of_run h
  have h0 := hne ops t.abs ⟨[], List.nil_prefix, by simp⟩ hab
  obtain ⟨r, hr, hrf⟩ := found_all h hv hm h0
  obtain ⟨i, hi⟩ := List.getElem?_of_mem hr
  obtain ⟨f', c, now, ti, h1, h2, _, _, h3, h4, h5, _, h6⟩ := read_one h hv hrd hi
  have : levels f' = levels f := RefNode.refAtL_inj hs.nodup h2 hrf
  rw [this] at h6
  have hf : f' = f := levels_injective this
  subst hf
  obtain ⟨h7, h8⟩ := h6 hne
  exact ⟨c, List.mem_of_getElem? h3, now, ti, h4, h5, h7, h8⟩

end RefTable

theorem NoRejoin.of_prefix {a b : List RouteOp} (h : NoRejoin (a ++ b)) : NoRejoin a := by
  intro pre o post e
  exact h pre o (post ++ b) (by rw [e]; simp)

theorem NoRejoin.during {ops : List RouteOp} {gaps : List (List RouteOp)}
    (h : NoRejoin (ops ++ gaps.flatten)) {now : List RouteOp} (hn : During ops gaps now) :
    NoRejoin now := by
  obtain ⟨pre, ⟨rest, hr⟩, rfl⟩ := hn
  rw [← hr, ← List.append_assoc] at h
  exact h.of_prefix

/-- What is stored for a filter is not empty exactly while somebody is subscribed. -/
theorem isEmpty_iff {now : List RouteOp} {t : RouteTable} (hs : SInv now t)
    (hr : RInv (subscribed now) t) (f : Str) :
    (t.root.contentAt (levels f)).isEmpty = false ↔ HasSubscriber now f := by
  constructor
  · intro he
    cases hc : (t.root.contentAt (levels f)).clients with
    | cons a b =>
      have hm : (a.1, a.2) ∈ (t.root.contentAt (levels f)).clients := by rw [hc]; simp
      have := (clients_iff hr).mp hm
      exact Or.inl ⟨this.1, _, _, this.2⟩
    | nil =>
      cases hg : (t.root.contentAt (levels f)).groups with
      | nil => simp [RouteContent.isEmpty, hc, hg] at he
      | cons a b =>
        have hget : (t.root.contentAt (levels f)).groups.get a.1 = some a.2 :=
          FMap.get_of_mem (hs.wf _) (by rw [hg]; simp)
        have hn := hs.name _ _ _ hget
        have := hs.group a.1 f hn
        rw [hget] at this
        obtain ⟨h1, h2⟩ := this
        cases hit : a.2.items with
        | nil => exact absurd hit h2
        | cons x y =>
          exact Or.inr ⟨a.1, hn, x.1, x.2, (h1.mem x.1 x.2).mp (by rw [hit]; simp)⟩
  · rintro (⟨hp, id, q, h⟩ | ⟨g, hg, id, q, h⟩)
    · exact isEmpty_of_client ((clients_iff hr).mpr ⟨hp, h⟩)
    · have := hs.group g f hg
      cases hget : (t.root.contentAt (levels f)).groups.get g with
      | none => rw [hget] at this; rw [this id] at h; cases h
      | some sc => exact isEmpty_of_group (FMap.mem_of_get hget)

theorem causesGroups_some (pick : Str → Str → Nat) (f : Str) {gs : List (Str × SharedClients)}
    (h : ∀ e ∈ gs, e.2.items ≠ []) : ∃ l, causesGroups pick f gs = some l := by
  induction gs with
  | nil => exact ⟨[], rfl⟩
  | cons e gs ih =>
    obtain ⟨g, sc⟩ := e
    obtain ⟨l, hl⟩ := ih fun e he => h e (by simp [he])
    simp only [causesGroups]
    have hne := h (g, sc) (by simp)
    cases hx : sc.getByNumber (pick g f) with
    | none =>
      unfold SharedClients.getByNumber at hx
      rw [List.getElem?_eq_none_iff] at hx
      have : 0 < sc.items.length := List.length_pos_iff.2 hne
      exact absurd (Nat.mod_lt (pick g f) this) (by omega)
    | some x => obtain ⟨id, q⟩ := x; simp [hl]

theorem causes_some (s : Session) (pick : Str → Str → Nat) {cs : List RouteContent}
    (h : ∀ c ∈ cs, c.topicFilter ≠ none ∧ ∀ e ∈ c.groups, e.2.items ≠ []) :
    ∃ l, causes s pick cs = some l := by
  induction cs with
  | nil => exact ⟨[], rfl⟩
  | cons c cs ih =>
    obtain ⟨l, hl⟩ := ih fun d hd => h d (by simp [hd])
    obtain ⟨h1, h2⟩ := h c (by simp)
    obtain ⟨l2, hl2⟩ := causesGroups_some pick ((c.topicFilter).getD []) h2
    simp only [causes]
    cases hc : c.topicFilter with
    | none => exact absurd hc h1
    | some f =>
      rw [hc] at hl2
      simp only [Option.getD_some] at hl2
      simp [hl2, hl]

theorem collectV3_some' {cs : List RouteContent} (h : ∀ c ∈ cs, c.topicFilter ≠ none) :
    ∃ r, collectV3 cs = some r := by
  induction cs with
  | nil => exact ⟨[], rfl⟩
  | cons c cs ih =>
    obtain ⟨r, hr⟩ := ih fun d hd => h d (by simp [hd])
    have := h c (by simp)
    unfold collectV3
    cases hc : c.topicFilter with
    | none => exact absurd hc this
    | some f => simp only [hr]; exact ⟨_, rfl⟩

theorem collectV3_filters {cs : List RouteContent} {l : List (ClientId × Str × QoS)}
    (h : collectV3 cs = some l) : ∀ c ∈ cs, c.topicFilter ≠ none := by
  induction cs generalizing l with
  | nil => simp
  | cons c cs ih =>
    simp only [collectV3] at h
    split at h
    · cases h
    rename_i f hf
    rw [Option.map_eq_some_iff] at h
    obtain ⟨l', h1, _⟩ := h
    intro d hd
    rcases List.mem_cons.1 hd with rfl | hd
    · rw [hf]; simp
    · exact ih h1 d hd

namespace RefTable

/-- Reading never fails when no client rejoins a group. -/
theorem readAll_some {ops : List RouteOp} {t : RefTable} (h : RefTable.empty.run ops = some t)
    {gaps : List (List RouteOp)} (hj : NoRejoin (ops ++ gaps.flatten)) (rs : List Nat) :
    ∃ x, t.readAll rs gaps = some x := by
  induction rs generalizing ops t gaps with
  | nil => exact ⟨_, rfl⟩
  | cons r rs ih =>
    simp only [readAll]
    have hsplit : gaps.headD [] ++ gaps.tail.flatten = gaps.flatten := by
      cases gaps <;> simp
    rw [← hsplit, ← List.append_assoc] at hj
    obtain ⟨t1, h1, _, _⟩ := run_noRejoin _ hj.of_prefix
    have h2 := run_abs Sound.empty (ops ++ gaps.headD [])
    cases h3 : RefTable.empty.run (ops ++ gaps.headD []) with
    | none =>
      rw [h3] at h2
      have : RefTable.empty.abs = RouteTable.empty := rfl
      simp only [this] at h2
      rw [h2] at h1; cases h1
    | some t2 =>
      have h4 := h3
      rw [run_append, h] at h4
      simp only [Option.bind_some] at h4
      rw [h4]
      obtain ⟨x, hx⟩ := ih h3 hj
      simp only [hx, Option.map_some]
      exact ⟨_, rfl⟩

end RefTable
end Akasa
