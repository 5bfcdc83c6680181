import Verif.Spec.Resume
import Verif.Proof.Life
/-! # Lemmas for the resumption of sessions -/
namespace Akasa

variable {P : Type}

/-- One entry of `Pending.waiting`. -/
def PStatus.wait? : PStatus P → Option (Pid × Option P)
  | .new _ _ pid p _ => some (pid, some p)
  | .pubrec _ pid => some (pid, none)
  | .complete => none

theorem waiting_eq (q : Pending P) : q.waiting = q.packets.filterMap PStatus.wait? := by
  unfold Pending.waiting
  congr 1

theorem attempt_wait (exp : P → Option Nat) (now : Nat) (s : PStatus P) :
    (s.attempt exp now).1.wait? = s.wait? := by
  cases s with
  | new a l pid p d =>
    simp only [PStatus.attempt]
    split
    · rfl
    · split <;> rfl
  | pubrec => rfl
  | complete => rfl

theorem sweep_wait (exp : P → Option Nat) (t : Nat) (clk : Clock) (n cur i : Nat)
    (ps : List (PStatus P)) :
    (sweep exp t clk n cur i ps).1.filterMap PStatus.wait? = ps.filterMap PStatus.wait? := by
  induction ps generalizing n cur i with
  | nil => cases n <;> rfl
  | cons s ss ih =>
    cases n with
    | zero => rfl
    | succ n =>
      rw [sweep]
      split
      · simp only [List.filterMap_cons, attempt_wait, ih]
      · simp only [List.filterMap_cons, ih]

theorem sweep_unexpired (exp : P → Option Nat) (t : Nat) (clk : Clock) (n cur i : Nat)
    (ps : List (PStatus P))
    (h : ∀ a l pid p d, PStatus.new a l pid p d ∈ ps → ∀ v, exp p = some v →
      ∀ k, clk.sent k - a < v) :
    (sweep exp t clk n cur i ps).2.2 = [] := by
  induction ps generalizing n cur i with
  | nil => cases n <;> rfl
  | cons s ss ih =>
    have ih := fun n cur i => ih n cur i fun a l pid p d hm => h a l pid p d (List.mem_cons_of_mem _ hm)
    cases n with
    | zero => rfl
    | succ n =>
      rw [sweep]
      split
      · simp only [ih, List.append_nil, Option.toList_eq_nil_iff]
        cases s with
        | new a l pid p d =>
          simp only [PStatus.attempt]
          split
          · rfl
          · rename_i v hv
            have := h a l pid p d (List.mem_cons_self ..) v hv i
            rw [if_neg (by omega)]
        | pubrec => rfl
        | complete => rfl
      · exact ih ..

theorem handlePendings_wait_sublist (exp : P → Option Nat) (clk : Clock) (q : Pending P) :
    (q.handlePendings exp clk).1.waiting.Sublist q.waiting := by
  rw [waiting_eq, waiting_eq]
  refine (handlePendings_filterMap_sublist PStatus.wait? rfl exp clk q).trans ?_
  unfold Pending.swept
  rw [sweep_wait]
  unfold Pending.cleanComplete
  rw [filterMap_dropWhile PStatus.wait? rfl]
  exact List.Sublist.refl _

theorem handlePendings_wait (exp : P → Option Nat) (clk : Clock) (q : Pending P)
    (h : ∀ a l pid p d, PStatus.new a l pid p d ∈ q.packets → ∀ v, exp p = some v →
      ∀ k, clk.sent k - a < v) :
    (q.handlePendings exp clk).1.waiting = q.waiting := by
  rw [waiting_eq, waiting_eq, Pending.handlePendings_eq]
  have h2 : (q.swept exp clk).2.2 = [] := by
    refine sweep_unexpired _ _ _ _ _ _ _ fun a l pid p d hm => h a l pid p d ?_
    exact (List.dropWhile_sublist _).mem hm
  simp only [h2, List.isEmpty_nil, if_true]
  unfold Pending.afterSweep
  rw [h2]
  show (q.swept exp clk).1.filterMap _ = _
  unfold Pending.swept
  rw [sweep_wait]
  unfold Pending.cleanComplete
  rw [filterMap_dropWhile PStatus.wait? rfl]

theorem reset_wait (q : Pending P) : q.resetLastSent.waiting = q.waiting := by
  rw [waiting_eq, waiting_eq]
  unfold Pending.resetLastSent
  rw [List.filterMap_map]
  congr 1
  funext e
  cases e <;> rfl

/-! ## The connection before -/

variable {cfg : Config} {ext : Ext} {w w' : World} {evs e : List Event}

/-- The tasks accepted with this identifier. -/
def acceptedIn (chain : Chain) (evs : List Event) : List TaskId :=
  evs.filterMap fun e =>
    match e with
    | .accepted t _ => if (chain.get t).isSome then some t else none
    | _ => none

theorem lastConn_eq (w : World) (i : Str) (evs : List Event) :
    lastConn w i evs = (acceptedIn (w.under i) evs).getLast? := rfl

theorem acceptedIn_append (chain : Chain) (a b : List Event) :
    acceptedIn chain (a ++ b) = acceptedIn chain a ++ acceptedIn chain b := by
  simp [acceptedIn]

theorem acceptedIn_same {c c' : Chain} (h : ∀ ev ∈ e, c.get ev.task = c'.get ev.task) :
    acceptedIn c e = acceptedIn c' e := by
  induction e with
  | nil => rfl
  | cons ev e ih =>
    have ih := ih fun ev' hev' => h ev' (List.mem_cons_of_mem _ hev')
    have h0 := h ev (List.mem_cons_self ..)
    unfold acceptedIn at ih ⊢
    rw [List.filterMap_cons, List.filterMap_cons, ih]
    cases ev with
    | accepted t p =>
      have h1 : c.get t = c'.get t := h0
      simp only [h1]
    | _ => rfl

theorem acceptedIn_other {chain : Chain} (h : ∀ ev ∈ e, chain.get ev.task = none) :
    acceptedIn chain e = [] := by
  unfold acceptedIn
  rw [List.filterMap_eq_nil_iff]
  intro ev hev
  have := h ev hev
  cases ev with
  | accepted t p =>
    have h1 : chain.get t = none := this
    simp [h1]
  | _ => rfl

/-- No connection is accepted. -/
def NoneAccepted (e : List Event) : Prop := ∀ t p, Event.accepted t p ∉ e

theorem acceptedIn_none (chain : Chain) (h : NoneAccepted e) : acceptedIn chain e = [] := by
  unfold acceptedIn
  rw [List.filterMap_eq_nil_iff]
  intro ev hev
  cases ev with
  | accepted t p => exact absurd hev (h t p)
  | _ => rfl

/-- The level of the connection before. -/
def Stage.lvl? : Stage → Option Level
  | .granted _ l => some l
  | _ => none

def LastInv (w : World) (evs : List Event) : Prop :=
  ∀ t x s, w.tasks.get t = some x → x.stage.owner? = some s → ∃ u y,
    lastConn w x.req.identifier evs = some u ∧ w.tasks.get u = some y ∧
    match x.stage.lvl? with
    | none => u = t
    | some l => y.req.level = l ∧ y.stage = .gone

theorem under_accepted {i : Str} (h : ∀ ev ∈ evs, ∃ x y, w.tasks.get ev.task = some x ∧
    w'.tasks.get ev.task = some y ∧ y.req = x.req) :
    acceptedIn (w'.under i) evs = acceptedIn (w.under i) evs := by
  refine acceptedIn_same fun ev hev => ?_
  obtain ⟨x, y, hx, hy, hr⟩ := h ev hev
  rw [under_get hx, under_get hy, hr]

/-- A step of one task in which no connection is accepted. -/
theorem LastInv.own (h : LastInv w evs) (hq : LifeInv cfg ext w evs) {t : TaskId} {x x' : Task}
    (hx : w.tasks.get t = some x) (hw : w'.tasks = w.tasks.insert t x') (hr : x'.req = x.req)
    (he : NoneAccepted e) (hg : x.stage = .gone → x'.stage = .gone)
    (hl : ∀ s', x'.stage.owner? = some s' → (∃ s, x.stage.owner? = some s) ∧
      x'.stage.lvl? = x.stage.lvl?) : LastInv w' (evs ++ e) := by
  have hget : ∀ u, w'.tasks.get u = if t = u then some x' else w.tasks.get u := by
    intro u; rw [hw, FMap.get_insert]
  have hsame : ∀ i, lastConn w' i (evs ++ e) = lastConn w i evs := by
    intro i
    rw [lastConn_eq, lastConn_eq, acceptedIn_append, acceptedIn_none _ he, List.append_nil,
      under_accepted]
    intro ev hev
    obtain ⟨y, hy, _⟩ := hq.quiet ev hev
    by_cases ht : t = ev.task
    · exact ⟨x, x', by rw [← ht]; exact hx, by rw [hget, if_pos ht], hr⟩
    · exact ⟨y, y, hy, by rw [hget, if_neg ht]; exact hy, rfl⟩
  intro u z s hz hs
  rw [hget] at hz
  have fix : ∀ v y, w.tasks.get v = some y → ∃ y', w'.tasks.get v = some y' ∧ y'.req = y.req ∧
      (y.stage = .gone → y'.stage = .gone) := by
    intro v y hy
    rw [hget]
    by_cases hv : t = v
    · subst hv
      rw [hx] at hy
      cases hy
      exact ⟨x', if_pos rfl, hr, hg⟩
    · exact ⟨y, by rw [if_neg hv]; exact hy, rfl, id⟩
  have main : ∀ z0 s0, w.tasks.get u = some z0 → z0.stage.owner? = some s0 → z.req = z0.req →
      z.stage.lvl? = z0.stage.lvl? → ∃ v y,
      lastConn w' z.req.identifier (evs ++ e) = some v ∧ w'.tasks.get v = some y ∧
      match z.stage.lvl? with
      | none => v = u
      | some l => y.req.level = l ∧ y.stage = .gone := by
    intro z0 s0 h0 hs0 hr0 hl0
    obtain ⟨v, y, h1, h2, h3⟩ := h u z0 s0 h0 hs0
    obtain ⟨y', h4, h5, h6⟩ := fix v y h2
    refine ⟨v, y', by rw [hsame, hr0]; exact h1, h4, ?_⟩
    rw [hl0]
    split
    · rename_i hn; rw [hn] at h3; exact h3
    · rename_i l hn; rw [hn] at h3; rw [h5]; exact ⟨h3.1, h6 h3.2⟩
  split at hz
  · rename_i hu
    subst hu
    cases hz
    obtain ⟨⟨s0, h0⟩, h1⟩ := hl s hs
    exact main x s0 hx h0 hr h1
  · exact main z s hz hs rfl rfl

theorem LastInv.same (h : LastInv w evs) (hw : w'.tasks = w.tasks) : LastInv w' (evs ++ []) := by
  rw [List.append_nil]
  intro t x s hx hs
  rw [hw] at hx
  obtain ⟨u, y, h1, h2, h3⟩ := h t x s hx hs
  refine ⟨u, y, ?_, by rw [hw]; exact h2, h3⟩
  rw [← h1, lastConn_eq, lastConn_eq]
  unfold World.under World.request
  rw [hw]

/-- A task that is new or already has a session is accepted, or is new and has no session. -/
theorem LastInv.acc (h : LastInv w evs) (hq : LifeInv cfg ext w evs) (ho' : OInv w')
    {t : TaskId} {x' : Task}
    (hx : w.tasks.get t = none ∨ ∃ x, w.tasks.get t = some x ∧ x'.req = x.req ∧ x.stage ≠ .gone)
    (hw : w'.tasks = w.tasks.insert t x') (he : ∀ ev ∈ e, ev.task = t)
    (hl : (e = [] ∧ x'.stage.owner? = none) ∨ ((∃ p, Event.accepted t p ∈ e) ∧
      x'.stage.lvl? = none ∧ x'.stage.owner? ≠ none)) : LastInv w' (evs ++ e) := by
  have hget : ∀ u, w'.tasks.get u = if t = u then some x' else w.tasks.get u := by
    intro u; rw [hw, FMap.get_insert]
  have hget' : w'.tasks.get t = some x' := by rw [hget, if_pos rfl]
  have hsame : ∀ i, acceptedIn (w'.under i) evs = acceptedIn (w.under i) evs := by
    intro i
    refine under_accepted fun ev hev => ?_
    obtain ⟨y, hy, _⟩ := hq.quiet ev hev
    by_cases ht : t = ev.task
    · rcases hx with hx | ⟨x, hx, hr, _⟩
      · rw [← ht, hx] at hy; cases hy
      · exact ⟨x, x', by rw [← ht]; exact hx, by rw [hget, if_pos ht], hr⟩
    · exact ⟨y, y, hy, by rw [hget, if_neg ht]; exact hy, rfl⟩
  intro u z s hz hs
  have hz' := hz
  rw [hget] at hz
  split at hz
  · rename_i hu
    subst hu
    cases hz
    rcases hl with ⟨_, hl⟩ | ⟨⟨p, hacc⟩, hlv, _⟩
    · rw [hs] at hl; cases hl
    refine ⟨t, x', ?_, hget', by rw [hlv]⟩
    rw [lastConn_eq, acceptedIn_append]
    have hall : ∀ v ∈ acceptedIn (w'.under x'.req.identifier) e, v = t := by
      intro v hv
      unfold acceptedIn at hv
      rw [List.mem_filterMap] at hv
      obtain ⟨ev, hev, hv⟩ := hv
      have := he ev hev
      cases ev with
      | accepted t' p' =>
        simp only at hv
        split at hv
        · cases hv; exact this
        · cases hv
      | _ => cases hv
    have hmem : t ∈ acceptedIn (w'.under x'.req.identifier) e := by
      unfold acceptedIn
      rw [List.mem_filterMap]
      refine ⟨_, hacc, ?_⟩
      simp only
      rw [under_get hget', if_pos rfl]
      rfl
    rw [List.getLast?_append]
    cases hlast : (acceptedIn (w'.under x'.req.identifier) e).getLast? with
    | none => rw [List.getLast?_eq_none_iff] at hlast; rw [hlast] at hmem; cases hmem
    | some v =>
      rw [hall v (List.mem_of_getLast? hlast)]
      rfl
  · rename_i htu
    obtain ⟨v, y, h1, h2, h3⟩ := h u z s hz hs
    have hempty : acceptedIn (w'.under z.req.identifier) e = [] := by
      rcases hl with ⟨rfl, _⟩ | ⟨_, _, hown⟩
      · rfl
      · cases ho0 : x'.stage.owner? with
        | none => exact absurd ho0 hown
        | some s0 =>
          refine acceptedIn_other fun ev hev => ?_
          rw [he ev hev, under_get hget', if_neg (ho'.apart hget' ho0 hz' hs htu)]
    have hlast : lastConn w' z.req.identifier (evs ++ e) = some v := by
      rw [lastConn_eq, acceptedIn_append, hempty, List.append_nil, hsame]
      exact h1
    by_cases hv : t = v
    · subst hv
      rcases hx with hx | ⟨x, hx, hr, hng⟩
      · rw [hx] at h2; cases h2
      · rw [hx] at h2
        cases h2
        refine ⟨t, x', hlast, hget', ?_⟩
        cases hlv : z.stage.lvl? with
        | none => rw [hlv] at h3; exact h3
        | some l => rw [hlv] at h3; exact absurd h3.2 hng
    · exact ⟨v, y, hlast, by rw [hget, if_neg hv]; exact h2, h3⟩

theorem LastInv.hand (h : LastInv w evs) (hq : LifeInv cfg ext w evs) {t b : TaskId}
    {x y x' : Task} {s old : Session}
    (hx : w.tasks.get t = some x) (hs : x.stage.owner? = some s) (hlv : x.stage.lvl? = none)
    (hx' : x'.req = x.req) (hg : x'.stage = .gone)
    (hy : w.tasks.get b = some y) (hyo : y.stage.waiting? ≠ none)
    (hid : y.req.identifier = x.req.identifier)
    (hw : w'.tasks = (w.tasks.insert t x').insert b { y with stage := .granted old x.req.level })
    (he : NoneAccepted e) : LastInv w' (evs ++ e) := by
  have hbt : b ≠ t := by
    rintro rfl
    rw [hx] at hy
    cases hy
    cases hst : x.stage <;> rw [hst] at hs hyo <;> first | (cases hs; done) | exact hyo rfl
  have hget : ∀ u, w'.tasks.get u =
      if b = u then some { y with stage := .granted old x.req.level }
      else if t = u then some x' else w.tasks.get u := by
    intro u
    rw [hw, FMap.get_insert, FMap.get_insert]
  have fix : ∀ v q, w.tasks.get v = some q → ∃ q', w'.tasks.get v = some q' ∧ q'.req = q.req ∧
      (q.stage = .gone → q'.stage = .gone) := by
    intro v q hq
    rw [hget]
    by_cases hv : b = v
    · subst hv
      rw [hy] at hq
      cases hq
      refine ⟨_, if_pos rfl, rfl, fun hh => ?_⟩
      rw [hh] at hyo
      exact absurd rfl hyo
    · rw [if_neg hv]
      by_cases hv' : t = v
      · subst hv'
        rw [hx] at hq
        cases hq
        exact ⟨x', if_pos rfl, hx', fun _ => hg⟩
      · exact ⟨q, by rw [if_neg hv']; exact hq, rfl, id⟩
  have hsame : ∀ i, lastConn w' i (evs ++ e) = lastConn w i evs := by
    intro i
    rw [lastConn_eq, lastConn_eq, acceptedIn_append, acceptedIn_none _ he, List.append_nil,
      under_accepted]
    intro ev hev
    obtain ⟨q, hq, _⟩ := hq.quiet ev hev
    obtain ⟨q', h1, h2, _⟩ := fix _ _ hq
    exact ⟨q, q', hq, h1, h2⟩
  intro u z s1 hz hs1
  rw [hget] at hz
  split at hz
  · rename_i hu
    subst hu
    cases hz
    obtain ⟨v, q, h1, h2, h3⟩ := h t x s hx hs
    rw [hlv] at h3
    simp only at h3
    subst h3
    refine ⟨v, x', by rw [hsame]; simp only [hid]; exact h1,
      by rw [hget, if_neg hbt, if_pos rfl], ?_⟩
    simp only [Stage.lvl?, hx']
    exact ⟨trivial, hg⟩
  · split at hz
    · cases hz
      rw [hg] at hs1
      cases hs1
    · obtain ⟨v, q, h1, h2, h3⟩ := h u z s1 hz hs1
      obtain ⟨q', h4, h5, h6⟩ := fix v q h2
      refine ⟨v, q', by rw [hsame]; exact h1, h4, ?_⟩
      split
      · rename_i hn; rw [hn] at h3; exact h3
      · rename_i l hn; rw [hn] at h3; rw [h5]; exact ⟨h3.1, h6 h3.2⟩

theorem will_noneAccepted {t : TaskId} {s s' : Session} {m : Option SendPub} :
    NoneAccepted (willEvents t s s' m) := by
  intro u p h
  cases m <;> simp [willEvents] at h

theorem LastInv.case {a : Act} (h : LastInv w evs) (hq : LifeInv cfg ext w evs) (ho : OInv w)
    (ho' : OInv w') (hc : WCase cfg ext w a w' e) : LastInv w' (evs ++ e) := by
  have hnew : w.tasks.get w.nextTask = none := by
    cases hn : w.tasks.get w.nextTask with
    | none => rfl
    | some x =>
      exact absurd (ho.fresh w.nextTask (by simp [Tasks.name, hn])) (Nat.lt_irrefl _)
  have none' : NoneAccepted [] := fun _ _ h => by cases h
  cases hc with
  | idle a => exact h.same rfl
  | fresh req env r id hadd hw s out hs =>
    refine h.acc hq ho' (.inl hnew) rfl ?_ (.inr ⟨⟨_, List.mem_cons_self ..⟩, rfl,
      by simp [Stage.owner?]⟩)
    intro ev hev
    simp only [List.mem_cons, List.not_mem_nil, or_false] at hev
    rcases hev with rfl | rfl <;> rfl
  | stillborn req env wr r id hadd =>
    exact h.acc hq ho' (.inl hnew) rfl (fun ev hev => by cases hev) (.inl ⟨rfl, rfl⟩)
  | wait req env wr r id q hadd hq' =>
    exact h.acc hq ho' (.inl hnew) rfl (fun ev hev => by cases hev) (.inl ⟨rfl, rfl⟩)
  | locked req env wr r id hadd hq' =>
    exact h.acc hq ho' (.inl hnew) rfl (fun ev hev => by cases hev) (.inl ⟨rfl, rfl⟩)
  | accept t env x old level hx hst hw s0 present h0 s out hs =>
    refine h.acc hq ho'
      (x' := { req := x.req, stage := .online s, connectedAt := some w.clock })
      (.inr ⟨x, hx, rfl, by rw [hst]; exact fun hh => by cases hh⟩) rfl ?_
      (.inr ⟨⟨present, by simp⟩, rfl, by simp [Stage.owner?]⟩)
    intro ev hev
    cases present <;>
    · simp at hev
      rcases hev with rfl | rfl | rfl <;> rfl
  | refused t env wr x old level hx hst =>
    exact h.own hq hx rfl rfl (fun u p hm => by simp at hm) (fun _ => rfl)
      (fun s' hs' => by cases hs')
  | packet t env after size p x s hx hst hd r hr =>
    refine h.own hq hx rfl rfl (fun u p hm => by simp at hm)
      (by rw [hst]; exact fun hh => by cases hh) (fun s' hs' => ⟨⟨s, by rw [hst]; rfl⟩, ?_⟩)
    rw [hst]
    simp only
    split <;> rfl
  | normalOn t env x s hx hst hd src m rest hi =>
    exact h.own hq hx rfl rfl (fun u p hm => by simp at hm)
      (by rw [hst]; exact fun hh => by cases hh)
      (fun s' hs' => ⟨⟨s, by rw [hst]; rfl⟩, by rw [hst]; rfl⟩)
  | normalOff t env x s hx hst hd src m rest hi =>
    exact h.own hq hx rfl rfl (fun u p hm => by simp at hm)
      (by rw [hst]; exact fun hh => by cases hh)
      (fun s' hs' => ⟨⟨s, by rw [hst]; rfl⟩, by rw [hst]; rfl⟩)
  | handOn t env x s hx hst b y q hq' hy =>
    have hqb := ho.queue _ _ _ b hq' List.mem_cons_self
    obtain ⟨h1, h2⟩ := hqb
    have hst' : y.stage = .waiting s.clientId := by
      refine waiting_stage ?_
      simpa [Tasks.waiting, hy] using h1
    have hid : y.req.identifier = x.req.identifier := by
      have := ho.wait b s.clientId t h1 (by simp [Tasks.client, hx, hst, Stage.session?])
      simpa [Tasks.name, hx, hy] using this
    exact h.hand hq (s := s) (x' := { x with stage := .gone, sinks := [] }) hx (by rw [hst]; rfl)
      (by rw [hst]; rfl) (by rfl) (by rfl) hy (by rw [hst']; simp [Stage.waiting?]) hid (by rfl)
      (fun u p hm => by simp at hm)
  | handOff t env x s hx hst hd b y q hq' hy msgs inbox hm =>
    have hqb := ho.queue _ _ _ b hq' List.mem_cons_self
    obtain ⟨h1, h2⟩ := hqb
    have hst' : y.stage = .waiting s.clientId := by
      refine waiting_stage ?_
      simpa [Tasks.waiting, hy] using h1
    have hid : y.req.identifier = x.req.identifier := by
      have := ho.wait b s.clientId t h1 (by simp [Tasks.client, hx, hst, Stage.session?])
      simpa [Tasks.name, hx, hy] using this
    exact h.hand hq (s := s) (x' := { x with stage := .gone, sinks := [] }) hx (by rw [hst]; rfl)
      (by rw [hst]; rfl) (by rfl) (by rfl) hy (by rw [hst']; simp [Stage.waiting?]) hid (by rfl)
      (fun u p hm => by simp at hm)
  | deny t env x s hx hst pr b y q hq' hpr hy =>
    exact h.own hq hy rfl rfl none' (fun _ => rfl) (fun s' hs' => by cases hs')
  | ignored t env x s hx hst c q hq' hc => exact h.same rfl
  | kicked t env x s hx hst q hq' =>
    exact h.own hq hx rfl rfl none' (by rw [hst]; exact fun hh => by cases hh)
      (fun s' hs' => ⟨⟨s, by rw [hst]; rfl⟩, by rw [hst]; rfl⟩)
  | expire t env x s hx hst hd time q hq' hpr ht s' g m hw r route hrem =>
    refine h.own hq hx rfl rfl ?_ (by rw [hst]; exact fun hh => by cases hh)
      (fun s' hs' => by cases hs')
    intro u p hm
    rw [List.mem_append] at hm
    exact hm.elim (will_noneAccepted u p) (fun hh => by simp at hh)
  | lateWill t env x s hx hst hd time q hq' hpr ht s' g m hw =>
    exact h.own hq hx rfl rfl will_noneAccepted (by rw [hst]; exact fun hh => by cases hh)
      (fun s' hs' => ⟨⟨s, by rw [hst]; rfl⟩, by rw [hst]; rfl⟩)
  | lose t x s hx hst =>
    exact h.own hq hx rfl rfl none' (by rw [hst]; exact fun hh => by cases hh)
      (fun s' hs' => ⟨⟨s, by rw [hst]; rfl⟩, by rw [hst]; rfl⟩)
  | closeQuiet t env lost x s hx hst hd =>
    exact h.own hq hx rfl rfl (fun u p hm => by simp at hm)
      (by rw [hst]; exact fun hh => by cases hh)
      (fun s' hs' => ⟨⟨s, by rw [hst]; rfl⟩, by rw [hst]; rfl⟩)
  | closeWill t env lost x s hx hst hd hp s' g m hw =>
    refine h.own hq hx rfl rfl ?_ (by rw [hst]; exact fun hh => by cases hh)
      (fun s' hs' => ⟨⟨s, by rw [hst]; rfl⟩, by rw [hst]; rfl⟩)
    intro u p hm
    rw [List.mem_cons] at hm
    exact hm.elim (fun hh => by cases hh) (will_noneAccepted u p)
  | closeDelayed t env lost x s hx hst hd hp =>
    exact h.own hq hx rfl rfl (fun u p hm => by simp at hm)
      (by rw [hst]; exact fun hh => by cases hh)
      (fun s' hs' => ⟨⟨s, by rw [hst]; rfl⟩, by rw [hst]; rfl⟩)
  | push t d x s hx hst m rest hq' hk =>
    refine h.own hq hx rfl rfl none' ?_ ?_
    · intro hh; rw [hh] at hst; cases hst
    · intro s' hs'
      refine ⟨⟨s, setSession_owner hst hs'⟩, ?_⟩
      revert hst
      simp only
      cases x.stage <;> intro hst <;> first | rfl | cases hst
  | flush t d x hx m q hk hi hl =>
    exact h.own hq hx rfl rfl none' (fun hh => hh) (fun s' hs' => ⟨⟨s', hs'⟩, rfl⟩)
  | giveUp t d x s hx hst hi =>
    refine h.own hq hx rfl rfl none' ?_ ?_
    · intro hh; rw [hh] at hst; cases hst
    · intro s' hs'
      refine ⟨⟨s, setSession_owner hst hs'⟩, ?_⟩
      revert hst
      simp only
      cases x.stage <;> intro hst <;> first | rfl | cases hst
  | remove t x s hx hst hd r route hrem =>
    exact h.own hq hx rfl rfl (fun u p hm => by simp at hm) (fun _ => rfl)
      (fun s' hs' => by cases hs')
  | rest t x s hx hst hd he r hr timers htm =>
    exact h.own hq hx rfl rfl none' (by rw [hst]; exact fun hh => by cases hh)
      (fun s' hs' => ⟨⟨s, by rw [hst]; rfl⟩, by rw [hst]; rfl⟩)
  | fire i tm ht w' hw =>
    refine h.same ?_
    rcases hw with ⟨rfl, _⟩ | ⟨q, _, _, rfl⟩ <;> rfl
  | kick id q hr hq' => exact h.same rfl

theorem LastInv.run {acts : List Act} (h : World.run cfg ext {} acts = some (w, evs)) :
    LastInv w evs :=
  (world_induction (P := fun w evs => (BrokerInv w ∧ LifeInv cfg ext w evs) ∧ LastInv w evs)
    ⟨⟨.init, ⟨(fun ev hev => by cases hev), (fun t x s hx _ => by cases hx)⟩⟩,
      fun t x s hx _ => by cases hx⟩
    (fun _ _ _ _ _ h hs => ⟨⟨h.1.1.step hs, h.1.2.case h.1.1.own (h.1.1.step hs).own (step_cases hs)
        (Good.any_allows _ _)
      (Good.steps_self (fun _ => trivial) _)⟩,
      h.2.case h.1.2 h.1.1.own (h.1.1.step hs).own (step_cases hs)⟩) h).2

end Akasa
