import Verif.Proof.RouteRace
import Verif.Props.Fanout
/-!
# C79 — publishing while other clients subscribe and unsubscribe

`RefTable.routeV3` / `routeV5` are the first half of `send_publish`: look up the filters that match
a topic, then look at their subscribers one filter after the other.  `gaps` are the calls that other
threads make on the table before the first filter is looked at, before the second, and so on; they
are arbitrary.  `ops` are the calls made before.
-/
namespace Akasa

/-- **C79, refinement.**  The table as it is shared by threads gives the same results as the table
of C01 to C05: a history runs on the one exactly if it runs on the other, and the same contents are
found. -/
theorem C79_same (ops : List RouteOp) :
    (RefTable.empty.run ops = none ↔ RouteTable.empty.run ops = none) ∧
    ∀ t t', RefTable.empty.run ops = some t → RouteTable.empty.run ops = some t' →
      ∀ topic, (t.getMatches topic).map t.heap.read = t'.getMatches topic := by
  have h := RefTable.run_abs RefTable.Sound.empty ops
  have he : RefTable.empty.abs = RouteTable.empty := rfl
  rw [he] at h
  cases hr : RefTable.empty.run ops with
  | none =>
    rw [hr] at h
    exact ⟨⟨fun _ => h, fun _ => rfl⟩, fun t t' e => by cases e⟩
  | some t =>
    rw [hr] at h
    refine ⟨⟨fun e => (by cases e), fun e => (by rw [h.1] at e; cases e)⟩, ?_⟩
    rintro _ t' ⟨⟩ e topic
    rw [h.1, Option.some.injEq] at e
    rw [← e]; exact RefTable.getMatches_eq t topic

/-- **C79, nobody missed (MQTT 3 publisher).**  A client that is subscribed to a matching filter
from before the publish until after it is among the receivers, with a QoS granted to it at some
moment of the publish. -/
theorem C79_reached_v3 {ops : List RouteOp} {t : RefTable}
    (hrun : RefTable.empty.run ops = some t) {topic : Str} (hv : ValidTopic topic)
    {gaps : List (List RouteOp)} {receivers : List (ClientId × Str × QoS)} {t' : RefTable}
    (hres : t.routeV3 topic gaps = some (some receivers, t'))
    {f : Str} (hp : IsPlain f) (hm : Matches f topic) {id : ClientId}
    (hsub : ∀ now, During ops gaps now → ∃ q, subscribed now f id = some q) :
    ∃ q now, (id, f, q) ∈ receivers ∧ During ops gaps now ∧ subscribed now f id = some q := by
  simp only [RefTable.routeV3, Option.map_eq_some_iff, Prod.mk.injEq, Prod.exists] at hres
  obtain ⟨cs, t2, hrd, hcol, rfl⟩ := hres
  obtain ⟨c, hc, now, ti, h1, h2, h3, h4⟩ := RefTable.read_kept hrun hv hrd hm
    (fun now ti hd hr => by
      obtain ⟨q, hq⟩ := hsub now hd
      exact isEmpty_of_client ((clients_iff (RInv.empty.run hr)).mpr ⟨hp, hq⟩))
  obtain ⟨q, hq⟩ := hsub now h1
  refine ⟨q, now, (mem_collectV3 hcol).mpr ⟨c, hc, h4, ?_⟩, h1, hq⟩
  rw [h3]; exact (clients_iff (RInv.empty.run h2)).mpr ⟨hp, hq⟩

/-- **C79, nobody else (MQTT 3 publisher).**  Every receiver was subscribed to the filter, with the
QoS used, at some moment of the publish, and the filter matches. -/
theorem C79_only_v3 {ops : List RouteOp} {t : RefTable}
    (hrun : RefTable.empty.run ops = some t) {topic : Str} (hv : ValidTopic topic)
    {gaps : List (List RouteOp)} {receivers : List (ClientId × Str × QoS)} {t' : RefTable}
    (hres : t.routeV3 topic gaps = some (some receivers, t'))
    {id : ClientId} {f : Str} {q : QoS} (hmem : (id, f, q) ∈ receivers) :
    IsPlain f ∧ Matches f topic ∧ ∃ now, During ops gaps now ∧ subscribed now f id = some q := by
  simp only [RefTable.routeV3, Option.map_eq_some_iff, Prod.mk.injEq, Prod.exists] at hres
  obtain ⟨cs, t2, hrd, hcol, rfl⟩ := hres
  obtain ⟨c, hc, hf, hcl⟩ := (mem_collectV3 hcol).mp hmem
  obtain ⟨h1, now, ti, h2, h3, h4⟩ := RefTable.mem_read hrun hv hrd hc hf
  rw [h4, clients_iff (RInv.empty.run h3)] at hcl
  exact ⟨hcl.1, h1, now, h2, hcl.2⟩

/-- **C79, once (MQTT 3 publisher).**  However the subscriptions change meanwhile, no client
receives the message twice because of one filter. -/
theorem C79_once_v3 {ops : List RouteOp} {t : RefTable}
    (hrun : RefTable.empty.run ops = some t) {topic : Str} (hv : ValidTopic topic)
    {gaps : List (List RouteOp)} {receivers : List (ClientId × Str × QoS)} {t' : RefTable}
    (hres : t.routeV3 topic gaps = some (some receivers, t')) :
    (receivers.map fun e => (e.1, e.2.1)).Nodup := by
  simp only [RefTable.routeV3, Option.map_eq_some_iff, Prod.mk.injEq, Prod.exists] at hres
  obtain ⟨cs, t2, hrd, hcol, rfl⟩ := hres
  have hall := collectV3_filters hcol
  refine nodup_collectV3 hcol (RefTable.read_filters hrun hv hrd hall) fun c hc => ?_
  cases hF : c.topicFilter with
  | none => exact absurd hF (hall c hc)
  | some F =>
    obtain ⟨_, now, ti, _, h3, h4⟩ := RefTable.mem_read hrun hv hrd hc hF
    rw [h4]; exact (RInv.empty.run h3).wf _

/-- **C79, nobody missed (MQTT 5 publisher).**  A client that is subscribed to a matching filter
from before the publish until after it is a receiver because of this filter, with at least a QoS
granted to it at some moment of the publish; the publisher itself only if its own list has the
filter without no-local. -/
theorem C79_reached_v5 {ops : List RouteOp} {t : RefTable}
    (hrun : RefTable.empty.run ops = some t) {topic : Str} (hv : ValidTopic topic)
    {gaps : List (List RouteOp)} {s : Session} {pick : Str → Str → Nat} {receivers : Receivers}
    {t' : RefTable} (hres : t.routeV5 s pick topic gaps = some (some receivers, t'))
    {f : Str} (hp : IsPlain f) (hm : Matches f topic) {id : ClientId}
    (hsub : ∀ now, During ops gaps now → ∃ q, subscribed now f id = some q)
    (hown : NotOwn s id f) :
    ∃ fs q q' now, (id, fs, q') ∈ receivers ∧ f ∈ fs ∧ q ≤ q' ∧ During ops gaps now ∧
      subscribed now f id = some q := by
  simp only [RefTable.routeV5, Option.map_eq_some_iff, Prod.mk.injEq, Prod.exists] at hres
  obtain ⟨cs, t2, hrd, hcol, rfl⟩ := hres
  rw [collectV5_eq, Option.map_eq_some_iff] at hcol
  obtain ⟨l, hl, rfl⟩ := hcol
  obtain ⟨c, hc, now, ti, h1, h2, h3, h4⟩ := RefTable.read_kept hrun hv hrd hm
    (fun now ti hd hr => by
      obtain ⟨q, hq⟩ := hsub now hd
      exact isEmpty_of_client ((clients_iff (RInv.empty.run hr)).mpr ⟨hp, hq⟩))
  obtain ⟨q, hq⟩ := hsub now h1
  have hmem : (id, f, q) ∈ l := (mem_causes hl).mpr ⟨c, hc, f, h4, Or.inl ⟨rfl, by
    rw [h3]; exact (clients_iff (RInv.empty.run h2)).mpr ⟨hp, hq⟩, skipOwn_iff.2 hown⟩⟩
  have hmem' : (id, f, q) ∈ ofClient id l := mem_ofClient.mpr ⟨hmem, rfl⟩
  rcases get_addAll l id with ⟨g1, _⟩ | ⟨q', g1, _, g3⟩
  · rw [g1] at hmem'; cases hmem'
  · exact ⟨_, q, q', now, FMap.mem_of_get g1, List.mem_map.mpr ⟨_, hmem', rfl⟩, g3 _ hmem', h1, hq⟩

/-- **C79, nobody else (MQTT 5 publisher).**  Every filter a client receives the message for was a
subscription of this client at some moment of the publish, and it matches. -/
theorem C79_only_v5 {ops : List RouteOp} {t : RefTable}
    (hrun : RefTable.empty.run ops = some t) {topic : Str} (hv : ValidTopic topic)
    {gaps : List (List RouteOp)} (hj : NoRejoin (ops ++ gaps.flatten))
    {s : Session} {pick : Str → Str → Nat} {receivers : Receivers}
    {t' : RefTable} (hres : t.routeV5 s pick topic gaps = some (some receivers, t'))
    {id : ClientId} {fs : List Str} {q : QoS} (hmem : (id, fs, q) ∈ receivers) :
    (∃ f ∈ fs, ∃ now, During ops gaps now ∧ subscribed now f id = some q) ∧
    ∀ f ∈ fs,
      ((IsPlain f ∧ Matches f topic ∧ NotOwn s id f) ∨
        ∃ g f', '/' ∉ g ∧ f = shareFilter g f' ∧ Matches f' topic) ∧
      ∃ now q', During ops gaps now ∧ subscribed now f id = some q' ∧ q' ≤ q := by
  simp only [RefTable.routeV5, Option.map_eq_some_iff, Prod.mk.injEq, Prod.exists] at hres
  obtain ⟨cs, t2, hrd, hcol, rfl⟩ := hres
  rw [collectV5_eq, Option.map_eq_some_iff] at hcol
  obtain ⟨l, hl, rfl⟩ := hcol
  have hget : FMap.get (addAll l []) id = some (fs, q) := FMap.get_of_mem (wf_addAll l (by simp)) hmem
  have hcause : ∀ F q', (id, F, q') ∈ l →
      ((IsPlain F ∧ Matches F topic ∧ NotOwn s id F) ∨
        ∃ g f', '/' ∉ g ∧ F = shareFilter g f' ∧ Matches f' topic) ∧
      ∃ now, During ops gaps now ∧ subscribed now F id = some q' := by
    intro F q' hF
    obtain ⟨c, hc, f, hf, hcase⟩ := (mem_causes hl).mp hF
    obtain ⟨h1, now, ti, h2, h3, h4⟩ := RefTable.mem_read hrun hv hrd hc hf
    obtain ⟨ti', h3', hs, hr⟩ := run_noRejoin now (hj.during h2)
    rw [h3, Option.some.injEq] at h3'
    subst h3'
    rcases hcase with ⟨rfl, hcl, how⟩ | ⟨g, sc, hg, rfl, hn⟩
    · rw [h4, clients_iff hr] at hcl
      exact ⟨Or.inl ⟨hcl.1, h1, skipOwn_iff.1 how⟩, now, h2, hcl.2⟩
    · rw [h4] at hg
      have hgg := FMap.get_of_mem (hs.wf _) hg
      have hname := hs.name _ _ _ hgg
      have hok := hs.group g f hname
      rw [hgg] at hok
      refine ⟨Or.inr ⟨g, f, hname, rfl, h1⟩, now, h2, ?_⟩
      exact (hok.1.mem id q').mp (List.mem_of_getElem? hn)
  rcases get_addAll l id with ⟨_, g2⟩ | ⟨q', g1, ⟨e, he, heq⟩, g3⟩
  · rw [g2] at hget; cases hget
  · rw [g1, Option.some.injEq, Prod.mk.injEq] at hget
    obtain ⟨rfl, rfl⟩ := hget
    constructor
    · obtain ⟨id', F, q0⟩ := e
      obtain ⟨hel, rfl⟩ := mem_ofClient.mp he
      simp only at heq
      subst heq
      exact ⟨F, List.mem_map.2 ⟨_, he, rfl⟩, (hcause F _ hel).2⟩
    · intro f hf
      obtain ⟨⟨id', F, q0⟩, he', rfl⟩ := List.mem_map.1 hf
      obtain ⟨hel, rfl⟩ := mem_ofClient.mp he'
      obtain ⟨h1, now, h2, h3⟩ := hcause F q0 hel
      exact ⟨h1, now, q0, h2, h3, g3 _ he'⟩

/-- **C79, one copy (MQTT 5 publisher).**  However the subscriptions change meanwhile, every client
is at most once among the receivers. -/
theorem C79_once_v5 {t : RefTable} {topic : Str}
    {gaps : List (List RouteOp)} {s : Session} {pick : Str → Str → Nat} {receivers : Receivers}
    {t' : RefTable} (hres : t.routeV5 s pick topic gaps = some (some receivers, t')) :
    (receivers.map (·.1)).Nodup := by
  simp only [RefTable.routeV5, Option.map_eq_some_iff, Prod.mk.injEq, Prod.exists] at hres
  obtain ⟨cs, t2, hrd, hcol, rfl⟩ := hres
  rw [collectV5_eq, Option.map_eq_some_iff] at hcol
  obtain ⟨l, hl, rfl⟩ := hcol
  exact wf_addAll l (by simp)

/-! ## The publisher may crash -/

/-- The calls before: one subscriber of the filter `a`. -/
def exRaceOps : List RouteOp := [.sub (str "a") 1 1]

/-- Meanwhile this subscriber leaves, and comes back. -/
def exRaceGap : List (List RouteOp) := [[.unsub (str "a") 1, .sub (str "a") 1 1]]

/-- **C79 is false of the code: no crash.**  The only subscriber of a filter leaves after the filter
was found and before it is looked at: the publisher panics (`unwrap` on the filter), even if the
client has subscribed again by then. -/
theorem C79_false :
    ((RefTable.empty.run exRaceOps).bind fun t =>
      (t.routeV3 (str "a") exRaceGap).map (·.1)) = some none ∧
    (∀ (s : Session) (pick : Str → Str → Nat), ((RefTable.empty.run exRaceOps).bind fun t =>
      (t.routeV5 s pick (str "a") exRaceGap).map (·.1)) = some none) ∧
    subscribed (exRaceOps ++ exRaceGap.flatten) (str "a") 1 = some 1 :=
  ⟨by decide, fun _ _ => rfl, by decide⟩

/-- **C79, no crash (partial).**  If every matching filter that has a subscriber when the publish
begins has one at every moment until it ends, and no client rejoins a shared group it left
(see C04), then nobody panics: neither the publisher nor the others. -/
theorem C79_no_crash_partial {ops : List RouteOp} {gaps : List (List RouteOp)}
    (hj : NoRejoin (ops ++ gaps.flatten)) {topic : Str} (hv : ValidTopic topic)
    (hstay : ∀ f, Matches f topic → HasSubscriber ops f →
      ∀ now, During ops gaps now → HasSubscriber now f) :
    ∃ t, RefTable.empty.run ops = some t ∧
      (∃ receivers t', t.routeV3 topic gaps = some (some receivers, t')) ∧
      ∀ s pick, ∃ receivers t', t.routeV5 s pick topic gaps = some (some receivers, t') := by
  obtain ⟨t0, h0, hs0, hr0⟩ := run_noRejoin _ hj.of_prefix
  have h1 := RefTable.run_abs RefTable.Sound.empty ops
  rw [show RefTable.empty.abs = RouteTable.empty from rfl] at h1
  cases hrun : RefTable.empty.run ops with
  | none => rw [hrun] at h1; simp only at h1; rw [h1] at h0; cases h0
  | some t =>
    obtain ⟨⟨cs, t'⟩, hrd⟩ := RefTable.readAll_some hrun hj (t.getMatches topic)
    have hcs : ∀ c ∈ cs, c.topicFilter ≠ none ∧ ∀ e ∈ c.groups, e.2.items ≠ [] := by
      intro c hc
      obtain ⟨i, hi⟩ := List.getElem?_of_mem hc
      obtain ⟨hl, _, _⟩ := RefTable.readAll_spec hrd
      have hlt : i < cs.length := (List.getElem?_eq_some_iff.1 hi).1
      have hir : (t.getMatches topic)[i]? = some ((t.getMatches topic)[i]'(by omega)) :=
        List.getElem?_eq_getElem (by omega)
      obtain ⟨f, c', now, ti, f1, f2, f3, f4, f5, f6, f7, _, f8⟩ :=
        RefTable.read_one hrun hv hrd hir
      rw [hi, Option.some.injEq] at f5
      subst f5
      obtain ⟨_, hab⟩ := RefTable.sound_of_run hrun
      rw [h0, Option.some.injEq] at hab
      have hstart : HasSubscriber ops f := by
        rw [← isEmpty_iff hs0 hr0 f, hab]
        obtain ⟨f', _, g2, _, g4, g5⟩ := RefTable.found hrun hv (List.mem_of_getElem? hir)
        rw [f3, Option.some.injEq] at g2
        subst g2
        rw [← g4]; exact g5
      obtain ⟨e1, e2⟩ := f8 fun now' ti' hd hr' => by
        obtain ⟨ti2, g1, g2, g3⟩ := run_noRejoin now' (hj.during hd)
        rw [hr', Option.some.injEq] at g1
        subst g1
        exact (isEmpty_iff g2 g3 f).2 (hstay f f1 hstart now' hd)
      refine ⟨by rw [e2]; simp, ?_⟩
      obtain ⟨ti2, g1, g2, g3⟩ := run_noRejoin now (hj.during f6)
      rw [f7, Option.some.injEq] at g1
      subst g1
      intro e he
      rw [e1] at he
      have hgg := FMap.get_of_mem (g2.wf _) (show (e.1, e.2) ∈ _ from he)
      have hok := g2.group e.1 f (g2.name _ _ _ hgg)
      rw [hgg] at hok
      exact hok.2
    refine ⟨t, rfl, ?_, fun s pick => ?_⟩
    · obtain ⟨l, hl⟩ := collectV3_some' fun c hc => (hcs c hc).1
      exact ⟨l, t', by simp [RefTable.routeV3, hrd, hl]⟩
    · obtain ⟨l, hl⟩ := causes_some s pick hcs
      exact ⟨addAll l [], t', by simp [RefTable.routeV5, hrd, collectV5_eq, hl]⟩

/-! ## Cases that meet the hypotheses -/

/-- Three matching filters; client 1 stays, client 2 leaves one of them before it is looked at and
client 3 comes. -/
def exStirOps : List RouteOp :=
  [.sub (str "a/b") 1 1, .sub (str "a/+") 1 2, .sub (str "a/+") 2 0, .sub (str "$share/g/a/b") 4 1]

def exStirGaps : List (List RouteOp) :=
  [[.sub (str "a/b") 3 2], [.unsub (str "a/+") 2, .sub (str "#") 2 1, .sub (str "a/b") 5 0]]

/-- Client 3 came in time, client 5 too late, client 2 left in time, and its new filter was not
there when the publish began. -/
example : ((RefTable.empty.run exStirOps).bind fun t =>
      (t.routeV3 (str "a/b") exStirGaps).map (·.1)) =
    some (some [(3, str "a/b", 2), (1, str "a/b", 1), (1, str "a/+", 2)]) := by decide +kernel

/-- The hypotheses of the theorems about client 1 and its filter `a/b` hold. -/
example : (∃ t, RefTable.empty.run exStirOps = some t) ∧ ValidTopic (str "a/b") ∧
    IsPlain (str "a/b") ∧ Matches (str "a/b") (str "a/b") ∧
    ∀ now, During exStirOps exStirGaps now → ∃ q, subscribed now (str "a/b") 1 = some q := by
  refine ⟨⟨_, rfl⟩, by unfold ValidTopic; decide, by decide, ⟨.same _ (.same _ .done), by decide⟩, ?_⟩
  rintro now ⟨pre, hpre, rfl⟩
  rw [List.prefix_iff_eq_take.1 hpre]
  rcases pre.length with _ | _ | _ | _ | _ | k
  all_goals exact ⟨1, by first | decide | rfl⟩

/-- The hypotheses of `C79_no_crash_partial` hold of it. -/
example : NoRejoin (exStirOps ++ exStirGaps.flatten) ∧
    ∀ f, Matches f (str "a/b") → HasSubscriber exStirOps f →
      ∀ now, During exStirOps exStirGaps now → HasSubscriber now f := by
  constructor
  · intro pre op post e hp
    rintro ⟨k, q, h1, h2, h3⟩
    have hm : RouteOp.unsub op.filter op.client ∈ exStirOps ++ exStirGaps.flatten := by
      rw [e]; exact List.mem_append_left _ (List.mem_of_getElem? h2)
    simp [exStirOps, exStirGaps] at hm
    exact hp (by rw [hm.1]; decide)
  · intro f hm hs now hnow
    have hf : f = str "a/b" ∨ f = str "a/+" := by
      rcases hs with ⟨_, id, q, h⟩ | ⟨g, hg, id, q, h⟩
      · by_cases h1 : f = str "a/b"
        · exact Or.inl h1
        · by_cases h2 : f = str "a/+"
          · exact Or.inr h2
          · by_cases h3 : f = str "$share/g/a/b"
            · subst h3
              exact absurd hm.1 (by intro hl; cases hl)
            · simp [exStirOps, subscribed, SubState.step, SubState.none, h1, h2, h3] at h
      · left
        by_cases h3 : shareFilter g f = shareFilter (str "g") (str "a/b")
        · exact (shareFilter_inj hg (by decide) h3).2
        · have e3 : shareFilter (str "g") (str "a/b") = str "$share/g/a/b" := by decide
          rw [e3] at h3
          have h1 : shareFilter g f ≠ str "a/b" := by simp [shareFilter, str]
          have h2 : shareFilter g f ≠ str "a/+" := by simp [shareFilter, str]
          simp [exStirOps, subscribed, SubState.step, SubState.none, h1, h2, h3] at h
    obtain ⟨pre, hpre, rfl⟩ := hnow
    rw [List.prefix_iff_eq_take.1 hpre]
    left
    rcases hf with rfl | rfl
    · refine ⟨by decide, 1, 1, ?_⟩
      rcases pre.length with _ | _ | _ | _ | _ | k
      all_goals first | decide | rfl
    · refine ⟨by decide, 1, 2, ?_⟩
      rcases pre.length with _ | _ | _ | _ | _ | k
      all_goals first | decide | rfl


end Akasa
