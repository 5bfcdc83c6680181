import Verif.Spec.TableRace
import Verif.Props.Retain
/-!
# Histories of calls on both tables: lemmas
-/
namespace Akasa

/-- The calls on the routing table. -/
def routeOps (h : List TableCall) : List RouteOp :=
  h.filterMap fun
    | .route op => some op
    | _ => none

/-- The messages stored. -/
def stored (h : List TableCall) : List RetainContent :=
  h.filterMap fun
    | .store c => some c
    | _ => none

theorem tables_run {t t' : Tables} {h : List TableCall} (hr : t.run h = some t') :
    t.route.run (routeOps h) = some t'.route ∧ t'.retain = t.retain.run (stored h) := by
  induction h generalizing t with
  | nil => cases hr; exact ⟨rfl, rfl⟩
  | cons c h ih =>
    simp only [Tables.run] at hr
    cases hs : t.step c with
    | none => rw [hs] at hr; cases hr
    | some t1 =>
      rw [hs] at hr
      obtain ⟨h1, h2⟩ := ih hr
      cases c with
      | route op =>
        simp only [Tables.step, Option.map_eq_some_iff] at hs
        obtain ⟨r, hr1, rfl⟩ := hs
        exact ⟨by simp only [routeOps, List.filterMap_cons, RouteTable.run, hr1]; exact h1, h2⟩
      | store c =>
        simp only [Tables.step, Option.some.injEq] at hs
        subst hs
        exact ⟨h1, by rw [h2]; rfl⟩
      | findSubscribers _ => cases hs; exact ⟨h1, h2⟩
      | findRetained _ => cases hs; exact ⟨h1, h2⟩

theorem subscribed_after (a b : List RouteOp) {f : Str} {id : ClientId} {q : QoS}
    (h : ∀ op ∈ b, op ≠ .unsub f id) :
    ∃ q', subscribed (a ++ .sub f id q :: b) f id = some q' := by
  induction b using snoc_induction with
  | nil => exact ⟨q, by rw [subscribed_snoc]; simp [SubState.step]⟩
  | snoc b op ih =>
    obtain ⟨q', hq'⟩ := ih fun o ho => h o (by simp [ho])
    have e : a ++ .sub f id q :: (b ++ [op]) = (a ++ .sub f id q :: b) ++ [op] := by simp
    rw [e, subscribed_snoc]
    have hne := h op (by simp)
    cases op with
    | sub f' id' q2 =>
      simp only [SubState.step]
      split
      · exact ⟨q2, rfl⟩
      · exact ⟨q', hq'⟩
    | unsub f' id' =>
      simp only [SubState.step]
      split
      · rename_i hh; exact absurd (by rw [hh.1, hh.2]) hne
      · exact ⟨q', hq'⟩

theorem retained_after (a b : List RetainContent) {c : RetainContent} (hp : c.payload ≠ [])
    (h : ∀ d ∈ b, d.topic ≠ c.topic) : retained (a ++ c :: b) c.topic = some c := by
  unfold retained
  have : (b.filter fun d => d.topic = c.topic) = [] := by
    rw [List.filter_eq_nil_iff]; intro d hd; simpa using h d hd
  rw [List.filter_append, List.filter_cons]
  simp [this, hp]

theorem take_split {α : Type} {l : List α} {i j : Nat} {x : α} (hi : l[i]? = some x) (hij : i < j) :
    l.take j = l.take i ++ x :: (l.drop (i + 1)).take (j - (i + 1)) := by
  have hlt : i < l.length := (List.getElem?_eq_some_iff.1 hi).1
  have hx : l[i] = x := (List.getElem?_eq_some_iff.1 hi).2
  have e : j = i + ((j - (i + 1)) + 1) := by omega
  rw [e, List.take_add, List.drop_eq_getElem_cons hlt, List.take_succ_cons, hx]
  congr 3
  omega

/-- What the history stored last for a topic is found. -/
theorem found_retained {history : List TableCall} {n k : Nat} {d : RetainContent} {f : Str}
    (hl : LastStored history n d.topic k d) (hvf : ValidFilter f) (hm : Matches f d.topic)
    (hne : d.payload ≠ []) {t : Tables} (hr : Tables.empty.run (history.take n) = some t) :
    ∃ rs, t.retain.getMatches f = some rs ∧ d ∈ rs := by
  obtain ⟨hkn, hk, _, hlast⟩ := hl
  obtain ⟨_, hr2⟩ := tables_run hr
  rw [take_split hk hkn] at hr2
  simp only [stored, List.filterMap_append, List.filterMap_cons] at hr2
  obtain ⟨rs, h1, h2, _⟩ := C07_retained_lookup
    (List.filterMap (fun | .store c => some c | _ => none) (history.take k) ++
      d :: List.filterMap (fun | .store c => some c | _ => none)
      ((history.drop (k + 1)).take (n - (k + 1)))) hvf
  refine ⟨rs, by rw [hr2]; exact h1, (h2 d).2 ⟨retained_after _ _ hne ?_, hm⟩⟩
  intro d' hd
  obtain ⟨x, hx, hxe⟩ := List.mem_filterMap.1 hd
  cases x with
  | store c' =>
    simp only [Option.some.injEq] at hxe
    subst hxe
    obtain ⟨i, hi⟩ := List.getElem?_of_mem hx
    rw [List.getElem?_take] at hi
    split at hi
    · rename_i hlt
      rw [List.getElem?_drop] at hi
      exact hlast _ _ (by omega) (by omega) hi
    · cases hi
  | route op => cases hxe
  | findSubscribers t => cases hxe
  | findRetained t => cases hxe

/-- If something was stored for a topic, something was stored last. -/
theorem exists_lastStored {history : List TableCall} {topic : Str} {k : Nat} {d : RetainContent}
    (hk : history[k]? = some (.store d)) (ht : d.topic = topic) :
    ∀ m, ∃ k' d', k ≤ k' ∧ LastStored history (k + 1 + m) topic k' d'
  | 0 => ⟨k, d, by omega, by omega, hk, ht, fun k' d' h1 h2 => by omega⟩
  | m + 1 => by
    by_cases h : ∃ d', history[k + 1 + m]? = some (.store d') ∧ d'.topic = topic
    · obtain ⟨d', h1, h2⟩ := h
      exact ⟨k + 1 + m, d', by omega, by omega, h1, h2, fun k' d' h1 h2 => by omega⟩
    · obtain ⟨k', d', h1, h2, h3, h4, h5⟩ := exists_lastStored hk ht m
      refine ⟨k', d', h1, by omega, h3, h4, fun k2 d2 g1 g2 g3 g4 => ?_⟩
      by_cases hk2 : k2 = k + 1 + m
      · subst hk2; exact h ⟨d2, g3, g4⟩
      · exact h5 k2 d2 g1 (by omega) g3 g4

/-- A subscription made before place `n` and not removed until then is found. -/
theorem found_subscription {history : List TableCall} {n k : Nat} {topic f : Str} {id : ClientId}
    {q : QoS} (hkn : k < n) (hk : history[k]? = some (.route (.sub f id q)))
    (hkeep : ∀ k', k < k' → k' < n → history[k']? ≠ some (.route (.unsub f id)))
    (hvt : ValidTopic topic) (hpl : IsPlain f) (hm : Matches f topic)
    {t : Tables} (hl : Tables.empty.run (history.take n) = some t) :
    ∃ d ∈ t.route.getMatches topic, d.topicFilter = some f ∧ ∃ q', (id, q') ∈ d.clients := by
  obtain ⟨hl1, _⟩ := tables_run hl
  rw [take_split hk hkn] at hl1
  simp only [routeOps, List.filterMap_append, List.filterMap_cons] at hl1
  obtain ⟨q', hq'⟩ := subscribed_after
    (List.filterMap (fun | .route op => some op | _ => none) (history.take k))
    (List.filterMap (fun | .route op => some op | _ => none)
      ((history.drop (k + 1)).take (n - (k + 1)))) (f := f) (id := id) (q := q) (by
      intro op hop e
      subst e
      obtain ⟨x, hx, hxe⟩ := List.mem_filterMap.1 hop
      cases x with
      | route op =>
        simp only [Option.some.injEq] at hxe
        subst hxe
        obtain ⟨i, hi⟩ := List.getElem?_of_mem hx
        rw [List.getElem?_take] at hi
        split at hi
        · rename_i hlt
          rw [List.getElem?_drop] at hi
          exact hkeep _ (by omega) (by omega) hi
        · cases hi
      | store c => cases hxe
      | findSubscribers t => cases hxe
      | findRetained t => cases hxe)
  obtain ⟨d, hd, hdf, hdc⟩ := C01_lookup_complete hl1 hvt hpl hm hq'
  exact ⟨d, hd, hdf, q', hdc⟩

end Akasa
