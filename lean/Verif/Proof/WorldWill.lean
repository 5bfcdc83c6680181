import Verif.Proof.WorldTime
import Verif.Spec.World
/-! # The life of one connection: its will and its end -/
namespace Akasa

/-- What decides about the will. -/
structure Ending where
  will : Option Will
  gone : Bool
  expiry : Nat
deriving DecidableEq

def Session.ending (s : Session) : Ending := ⟨s.will, s.clientDisconnected, s.expiryInterval⟩

inductive Phase where
  | online
  | closed
  | ending
  | offline
  | expired
deriving DecidableEq

inductive Life where
  | absent
  | early
  | conn (k : Phase) (e : Ending)
  | gone

def Stage.life : Stage → Life
  | .waiting _ => .early
  | .granted _ _ => .early
  | .online s => .conn .online s.ending
  | .closed s => .conn .closed s.ending
  | .ending s => .conn .ending s.ending
  | .offline s => .conn .offline s.ending
  | .expired s => .conn .expired s.ending
  | .gone => .gone

def Tasks.life (m : Tasks) (t : TaskId) : Life := ((m.get t).map fun x => x.stage.life).getD .absent

/-- The packet received on a connection. -/
def Act.packetOf (t : TaskId) : Act → Option InPkt
  | .packet t' _ _ _ p => if t' = t then some p else none
  | _ => none

/-- What a packet may do. -/
def PacketEnd (pr : Proto) (p : InPkt) (e e' : Ending) : Prop :=
  e' = e ∨ ∃ c i, p = .disconnect c i ∧ e'.gone = true ∧
    (e'.expiry = e.expiry ∨ ∃ v, i = some v ∧ e'.expiry = v ∧ pr = .v5 ∧ 0 < e.expiry) ∧
    ((e'.will = none ∧ (pr = .v3 ∨ c = .success)) ∨
      (e'.will = e.will ∧ pr = .v5 ∧ c ≠ .success))

def planOf (pr : Proto) (e : Ending) : WillPlan :=
  match pr with
  | .v3 => .now
  | .v5 =>
    match e.will with
    | none => .now
    | some m =>
      if m.delay.getD 0 = 0 ∨ e.expiry = 0 then .now
      else if m.delay.getD 0 < e.expiry then .delayed
      else .atExpiry

theorem willPlan_eq (pr : Proto) (s : Session) : willPlan pr s = planOf pr s.ending := rfl

def endsOf (req : Request) (e : Ending) : Bool :=
  match req.level.proto with
  | .v3 => req.clean
  | .v5 => decide (e.expiry = 0)

theorem endsSession_eq (req : Request) (s : Session) : req.endsSession s = endsOf req s.ending := rfl

/-- What a step may do to one connection: before, after, wills published, whether the session was
removed. -/
inductive LifeStep (ext : Ext) (req : Request) (p : Option InPkt) :
    Life → Life → List SendPub → Bool → Prop
  | same (l : Life) : LifeStep ext req p l l [] false
  | asks : LifeStep ext req p .absent .early [] false
  | fails : LifeStep ext req p .absent .gone [] false
  | starts : LifeStep ext req p .absent
      (.conn .online ⟨req.params.will, false, req.params.expiryInterval⟩) [] false
  | granted : LifeStep ext req p .early
      (.conn .online ⟨req.params.will, false, req.params.expiryInterval⟩) [] false
  | refused : LifeStep ext req p .early .gone [] false
  | packet (pkt : InPkt) (hp : p = some pkt) (e e' : Ending) (k : Phase)
      (hk : k = .online ∨ k = .closed)
      (he : PacketEnd req.level.proto pkt e e') :
      LifeStep ext req p (.conn .online e) (.conn k e') [] false
  | lost (e : Ending) : LifeStep ext req p (.conn .online e) (.conn .closed e) [] false
  | taken (k : Phase) (hk : k = .online ∨ k = .offline) (e : Ending) :
      LifeStep ext req p (.conn k e) .gone [] false
  | quiet (e : Ending) (h : e.gone = true ∨ planOf req.level.proto e = .atExpiry ∨
        planOf req.level.proto e = .delayed) :
      LifeStep ext req p (.conn .closed e) (.conn .ending e) [] false
  | now (e e' : Ending) (h : e.gone = false) (hp : planOf req.level.proto e = .now)
      (he : e' = { e with will := none }) (ms : List SendPub)
      (hm : ms = e.will.toList.map (Will.message ext)) :
      LifeStep ext req p (.conn .closed e) (.conn .ending e') ms false
  | rests (e : Ending) (h : endsOf req e = false) :
      LifeStep ext req p (.conn .ending e) (.conn .offline e) [] false
  | ends (e : Ending) (h : endsOf req e = true) :
      LifeStep ext req p (.conn .ending e) .gone [] true
  | late (e e' : Ending) (he : e' = { e with will := none }) (ms : List SendPub)
      (hm : ms = e.will.toList.map (Will.message ext)) :
      LifeStep ext req p (.conn .offline e) (.conn .offline e') ms false
  | expires (e e' : Ending) (he : e' = { e with will := none }) (ms : List SendPub)
      (hm : ms = e.will.toList.map (Will.message ext)) :
      LifeStep ext req p (.conn .offline e) (.conn .expired e') ms true
  | vanishes (e : Ending) : LifeStep ext req p (.conn .expired e) .gone [] true

variable {cfg : Config} {ext : Ext} {w w' : World} {evs : List Event}

theorem SameEnd.ending {s s' : Session} (h : SameEnd s s') : s'.ending = s.ending := by
  unfold Session.ending; rw [h.will, h.gone, h.expiry]

theorem WillSent.ending {pr : Proto} {env : Env} {g g' : Global} {s s' : Session}
    {m : Option SendPub} (h : WillSent ext pr env g s s' g' m) :
    s'.ending = { s.ending with will := none } := by
  unfold Session.ending; rw [h.will, h.gone, h.expiry]

theorem packet_ending {pr : Proto} {env : Env} {g : Global} {s : Session} {n : Nat} {p : InPkt}
    {r : Res} {after : Clock} (h : onPacket cfg ext pr env after g s n p = some r) :
    PacketEnd pr p s.ending r.session.ending := by
  obtain ⟨r0, h0, hc, -⟩ := onPacket_handled h
  rw [(SameEnd.of_core hc).ending]
  by_cases hd : ∃ c e, p = .disconnect c e
  · obtain ⟨c, e, rfl⟩ := hd
    rcases disconnect_effect h0 with h1 | ⟨_, h2, h3⟩
    · exact .inl h1.ending
    · exact .inr ⟨c, e, rfl, h2, h3⟩
  · exact .inl (sameEnd_packet (fun c e he => hd ⟨c, e, he⟩) h0).ending

theorem start_ending (cfg : Config) (pr : Proto) (name : Str) (id : ClientId) (c : ConnParams) :
    (Session.start cfg pr name id c).ending = ⟨c.will, false, c.expiryInterval⟩ := by
  cases pr <;> rfl

theorem begun_ending (cfg : Config) (req : Request) (old : Session) (level : Level) :
    (req.session cfg old level).1.ending =
      ⟨req.params.will, false, req.params.expiryInterval⟩ := by
  unfold Request.session
  split
  · cases req.level.proto <;> rfl
  · exact start_ending ..

theorem pendings_ending {pr : Proto} {clk : Clock} {s0 s : Session} {out : List OutPkt}
    (h : handlePendingsOf pr clk s0 = (s, out)) : s.ending = s0.ending := by
  have := core_pendings pr clk s0
  rw [h] at this
  exact (SameEnd.of_core this).ending

theorem setSession_ending {st : Stage} {s : Session} (h : st.sending? = some s) {s' : Session}
    (he : s'.ending = s.ending) : (st.setSession s').life = st.life := by
  cases st <;> simp [Stage.sending?] at h <;> subst h <;>
    simp [Stage.setSession, Stage.life, he]

theorem willsOf_append (t : TaskId) (a b : List Event) :
    willsOf t (a ++ b) = willsOf t a ++ willsOf t b := List.filterMap_append

theorem willsOf_willEvents (t u : TaskId) (s s' : Session) (m : Option SendPub) :
    willsOf u (willEvents t s s' m) = if t = u then m.toList else [] := by
  cases m with
  | none => simp [willEvents, willsOf]
  | some m =>
    by_cases h : t = u
    · simp [willEvents, willsOf, h]
    · simp [willEvents, willsOf, h]

theorem removes_willEvents (t u : TaskId) (s s' : Session) (m : Option SendPub) :
    (willEvents t s s' m).any (·.removes u) = false := by
  cases m <;> rfl

theorem willsOf_took (u t : TaskId) (id : ClientId) (ms : List (TaskId × NormalMsg)) :
    willsOf u (ms.map fun e => Event.took t id e.1 e.2) = [] := by
  unfold willsOf
  rw [List.filterMap_map]
  induction ms with
  | nil => rfl
  | cons a ms ih => rw [List.filterMap_cons]; exact ih

theorem removes_took (u t : TaskId) (id : ClientId) (ms : List (TaskId × NormalMsg)) :
    (ms.map fun e => Event.took t id e.1 e.2).any (·.removes u) = false := by
  rw [List.any_map]; induction ms <;> simp [Event.removes]

theorem Tasks.life_eq {m : Tasks} {t : TaskId} {x : Task} (hx : FMap.get m t = some x) :
    life m t = x.stage.life := by
  unfold life; rw [hx]; rfl

theorem Tasks.life_insert (m : Tasks) (t u : TaskId) (x : Task) :
    life (FMap.insert m t x) u = if t = u then x.stage.life else life m u := by
  unfold life; rw [FMap.get_insert]; split <;> rfl

/-- A step seen from one connection. -/
structure Seen (ext : Ext) (w : World) (a : Act) (w' : World) (evs : List Event) (u : TaskId) :
    Prop where
  keeps : ∀ req, w.request u = some req → w'.request u = some req
  none : w'.request u = none → willsOf u evs = [] ∧ evs.any (·.removes u) = false
  step : ∀ req, w'.request u = some req →
    LifeStep ext req (a.packetOf u) (Tasks.life w.tasks u) (Tasks.life w'.tasks u)
      (willsOf u evs) (evs.any (·.removes u))

theorem Seen.zero {a : Act} (ht : w'.tasks = w.tasks) {u : TaskId} (h1 : willsOf u evs = [])
    (h2 : evs.any (·.removes u) = false) : Seen ext w a w' evs u := by
  constructor
  · intro req; unfold World.request; rw [ht]; exact id
  · exact fun _ => ⟨h1, h2⟩
  · intro req _; rw [ht, h1, h2]; exact .same _

theorem Seen.one {a : Act} {t : TaskId} {x' : Task} (ht : w'.tasks = w.tasks.insert t x')
    (hreq : ∀ x, w.tasks.get t = some x → x.req = x'.req)
    (hs : LifeStep ext x'.req (a.packetOf t) (Tasks.life w.tasks t) x'.stage.life
      (willsOf t evs) (evs.any (·.removes t)))
    (h : ∀ u, t ≠ u → willsOf u evs = [] ∧ evs.any (·.removes u) = false) (u : TaskId) :
    Seen ext w a w' evs u := by
  by_cases hu : t = u
  · subst hu
    constructor
    · intro req h1
      unfold World.request at h1 ⊢
      rw [ht, FMap.get_insert_self]
      cases hx : w.tasks.get t with
      | none => rw [hx] at h1; cases h1
      | some x => rw [hx] at h1; rw [← h1]; simp [hreq x hx]
    · intro h1; unfold World.request at h1; rw [ht, FMap.get_insert_self] at h1; cases h1
    · intro req h1
      unfold World.request at h1
      rw [ht, FMap.get_insert_self] at h1
      cases h1
      rw [ht, Tasks.life_insert, if_pos rfl]
      exact hs
  · constructor
    · intro req; unfold World.request; rw [ht, FMap.get_insert, if_neg hu]; exact id
    · exact fun _ => h u hu
    · intro req _
      rw [ht, Tasks.life_insert, if_neg hu, (h u hu).1, (h u hu).2]
      exact .same _

theorem Seen.two {a : Act} {t b : TaskId} {x' y' : Task}
    (ht : w'.tasks = (w.tasks.insert t x').insert b y') (hne : t ≠ b)
    (hreq : ∀ x, w.tasks.get t = some x → x.req = x'.req)
    (hreq' : ∀ y, w.tasks.get b = some y → y.req = y'.req)
    (hs : LifeStep ext x'.req (a.packetOf t) (Tasks.life w.tasks t) x'.stage.life [] false)
    (hs' : LifeStep ext y'.req (a.packetOf b) (Tasks.life w.tasks b) y'.stage.life [] false)
    (h : ∀ u, willsOf u evs = [] ∧ evs.any (·.removes u) = false) (u : TaskId) :
    Seen ext w a w' evs u := by
  by_cases hu : b = u
  · subst hu
    constructor
    · intro req h1
      unfold World.request at h1 ⊢
      rw [ht, FMap.get_insert_self]
      cases hx : w.tasks.get b with
      | none => rw [hx] at h1; cases h1
      | some x => rw [hx] at h1; rw [← h1]; simp [hreq' x hx]
    · intro h1; unfold World.request at h1; rw [ht, FMap.get_insert_self] at h1; cases h1
    · intro req h1
      unfold World.request at h1
      rw [ht, FMap.get_insert_self] at h1
      cases h1
      rw [ht, Tasks.life_insert, if_pos rfl, (h b).1, (h b).2]
      exact hs'
  · have key : Seen ext w a { w with tasks := w.tasks.insert t x' } evs u := by
      refine Seen.one rfl hreq ?_ (fun u _ => h u) u
      rw [(h t).1, (h t).2]
      exact hs
    have hget : w'.request u = { w with tasks := w.tasks.insert t x' }.request u := by
      unfold World.request
      rw [ht, FMap.get_insert, if_neg hu]
    have hl : Tasks.life w'.tasks u = Tasks.life (w.tasks.insert t x') u := by
      rw [ht, Tasks.life_insert, if_neg hu]
    constructor
    · intro req h1; rw [hget]; exact key.keeps req h1
    · intro h1; rw [hget] at h1; exact key.none h1
    · intro req h1; rw [hget] at h1; rw [hl]; exact key.step req h1

theorem quiet_will (u : TaskId) : willsOf u ([] : List Event) = [] ∧
    ([] : List Event).any (·.removes u) = false := ⟨rfl, rfl⟩

theorem life_new (ho : OInv w) : Tasks.life w.tasks w.nextTask = .absent ∧
    w.tasks.get w.nextTask = none := by
  have hname : Tasks.name w.tasks w.nextTask = none :=
    Classical.byContradiction fun hne => Nat.lt_irrefl _ (ho.fresh _ hne)
  have : w.tasks.get w.nextTask = none := by
    cases h : w.tasks.get w.nextTask with
    | none => rfl
    | some x => unfold Tasks.name at hname; rw [h] at hname; cases hname
  exact ⟨by unfold Tasks.life; rw [this]; rfl, this⟩

/-- Every step seen from one connection. -/
theorem seen_step {a : Act} (ho : OInv w) (hc : WCase cfg ext w a w' evs) (u : TaskId) :
    Seen ext w a w' evs u := by
  cases hc with
  | idle => refine Seen.zero ?_ ?_ ?_ <;> rfl
  | fresh req env r id hadd hw s out hs =>
    obtain ⟨h1, h2⟩ := life_new ho
    refine .one rfl (fun x hx => by rw [h2] at hx; cases hx) ?_ (fun _ _ => ⟨rfl, rfl⟩) u
    rw [h1]
    have := (pendings_ending hs).trans (start_ending ..)
    simp only [Stage.life, this]
    exact .starts
  | stillborn req env wr r id hadd =>
    obtain ⟨h1, h2⟩ := life_new ho
    refine .one rfl (fun x hx => by rw [h2] at hx; cases hx) ?_ (fun _ _ => ⟨rfl, rfl⟩) u
    rw [h1]
    exact .fails
  | wait req env wr r id q hadd hq =>
    obtain ⟨h1, h2⟩ := life_new ho
    refine .one rfl (fun x hx => by rw [h2] at hx; cases hx) ?_ (fun _ _ => ⟨rfl, rfl⟩) u
    rw [h1]
    exact .asks
  | locked req env wr r id hadd hq =>
    obtain ⟨h1, h2⟩ := life_new ho
    refine .one rfl (fun x hx => by rw [h2] at hx; cases hx) ?_ (fun _ _ => ⟨rfl, rfl⟩) u
    rw [h1]
    exact .fails
  | accept t env x old level hx hst hw s0 present h0 s out hs =>
    have he : ∀ u, willsOf u ((if present then [] else [Event.discarded t old]) ++
        [Event.accepted t present, Event.sent t out]) = [] ∧ (((if present then [] else [Event.discarded t old]) ++
        [Event.accepted t present, Event.sent t out]).any fun e => e.removes u) = false := by
      intro u; cases present <;> exact ⟨rfl, rfl⟩
    refine .one rfl (fun x' hx' => by rw [hx] at hx'; cases hx'; rfl) ?_ (fun u _ => he u) u
    rw [Tasks.life_eq hx, hst, (he t).1, (he t).2]
    have := pendings_ending hs
    rw [show s0 = (x.req.session cfg old level).1 by rw [h0], begun_ending] at this
    simp only [Stage.life, this]
    exact .granted
  | refused t env wr x old level hx hst =>
    have he : ∀ u, willsOf u [Event.discarded t old] = [] ∧
        ([Event.discarded t old].any fun e => e.removes u) = false := fun u => ⟨rfl, rfl⟩
    refine .one rfl (fun x' hx' => by rw [hx] at hx'; cases hx'; rfl) ?_ (fun u _ => he u) u
    rw [Tasks.life_eq hx, hst, (he t).1, (he t).2]
    exact .refused
  | packet t env after size p x s hx hst hd r hr =>
    refine .one rfl (fun x' hx' => by rw [hx] at hx'; cases hx'; rfl) ?_ (fun _ _ => ⟨rfl, rfl⟩) u
    rw [Tasks.life_eq hx, hst]
    have := packet_ending hr
    by_cases hc : r.closed = true
    · simp only [hc, if_true, Stage.life]
      exact .packet p (by simp [Act.packetOf]) _ _ _ (.inr rfl) this
    · simp only [hc, if_false, Stage.life, Bool.false_eq_true]
      exact .packet p (by simp [Act.packetOf]) _ _ _ (.inl rfl) this
  | normalOn t env x s hx hst hd src m rest hi =>
    refine .one rfl (fun x' hx' => by rw [hx] at hx'; cases hx'; rfl) ?_ (fun _ _ => ⟨rfl, rfl⟩) u
    rw [Tasks.life_eq hx, hst]
    simp only [Stage.life, sameEnd_onNormal.ending]
    exact .same _
  | normalOff t env x s hx hst hd src m rest hi =>
    refine .one rfl (fun x' hx' => by rw [hx] at hx'; cases hx'; rfl) ?_ (fun _ _ => ⟨rfl, rfl⟩) u
    rw [Tasks.life_eq hx, hst]
    simp only [Stage.life, sameEnd_normal.ending]
    exact .same _
  | handOn t env x s hx hst b y q hq hy =>
    obtain ⟨hyw, hpr⟩ := ho.requester hq hy
    refine .two rfl ?_ (fun x' hx' => by rw [hx] at hx'; cases hx'; rfl)
      (fun x' hx' => by rw [hy] at hx'; cases hx'; rfl) ?_ ?_ (fun _ => ⟨rfl, rfl⟩) u
    · rintro rfl; rw [hx] at hy; cases hy; rw [hst] at hyw; cases hyw
    · rw [Tasks.life_eq hx, hst]; exact .taken _ (.inl rfl) _
    · rw [Tasks.life_eq hy, hyw]; exact .same _
  | handOff t env x s hx hst hd b y q hq hy msgs inbox hm =>
    obtain ⟨hyw, hpr⟩ := ho.requester hq hy
    refine .two rfl ?_ (fun x' hx' => by rw [hx] at hx'; cases hx'; rfl)
      (fun x' hx' => by rw [hy] at hx'; cases hx'; rfl) ?_ ?_ ?_ u
    · rintro rfl; rw [hx] at hy; cases hy; rw [hst] at hyw; cases hyw
    · rw [Tasks.life_eq hx, hst]; exact .taken _ (.inr rfl) _
    · rw [Tasks.life_eq hy, hyw]; exact .same _
    · intro u
      rw [willsOf_append, willsOf_took, List.any_append, removes_took]
      exact ⟨rfl, rfl⟩
  | deny t env x s hx hst pr b y q hq hpr hy =>
    obtain ⟨hyw, _⟩ := ho.requester hq hy
    refine .one rfl (fun x' hx' => by rw [hy] at hx'; cases hx'; rfl) ?_ (fun _ _ => ⟨rfl, rfl⟩) u
    rw [Tasks.life_eq hy, hyw]
    exact .refused
  | ignored t env x s hx hst c q hq hc => refine Seen.zero ?_ ?_ ?_ <;> rfl
  | kicked t env x s hx hst q hq =>
    refine .one rfl (fun x' hx' => by rw [hx] at hx'; cases hx'; rfl) ?_ (fun _ _ => ⟨rfl, rfl⟩) u
    rw [Tasks.life_eq hx, hst]
    exact .lost _
  | expire t env x s hx hst hd time q hq hpr ht s' g m hw r route hrem =>
    have he : ∀ u, willsOf u (willEvents t s s' m ++ [Event.removed t s.clientId]) =
        (if t = u then m.toList else []) ∧
        (willEvents t s s' m ++ [Event.removed t s.clientId]).any (·.removes u) = decide (t = u) := by
      intro u
      rw [willsOf_append, willsOf_willEvents, List.any_append, removes_willEvents]
      simp [willsOf, Event.removes]
    refine .one rfl (fun x' hx' => by rw [hx] at hx'; cases hx'; rfl) ?_ (fun u hu => ?_) u
    · rw [Tasks.life_eq hx, hst, (he t).1, (he t).2]
      simp only [decide_true, if_true]
      refine .expires _ _ hw.ending _ ?_
      rw [hw.msg]
      simp only [Session.ending]
      cases s.will <;> rfl
    · rw [(he u).1, (he u).2]; simp [hu]
  | lateWill t env x s hx hst hd time q hq hpr ht s' g m hw =>
    refine .one rfl (fun x' hx' => by rw [hx] at hx'; cases hx'; rfl) ?_ (fun u hu => ?_) u
    · rw [Tasks.life_eq hx, hst, willsOf_willEvents, removes_willEvents]
      simp only [if_true]
      refine .late _ _ hw.ending _ ?_
      rw [hw.msg]
      simp only [Session.ending]
      cases s.will <;> rfl
    · rw [willsOf_willEvents, removes_willEvents]; simp [hu]
  | lose t x s hx hst =>
    refine .one rfl (fun x' hx' => by rw [hx] at hx'; cases hx'; rfl) ?_ (fun _ _ => ⟨rfl, rfl⟩) u
    rw [Tasks.life_eq hx, hst]
    exact .lost _
  | closeQuiet t env lost x s hx hst hd =>
    refine .one rfl (fun x' hx' => by rw [hx] at hx'; cases hx'; rfl) ?_ (fun _ _ => ⟨rfl, rfl⟩) u
    rw [Tasks.life_eq hx, hst]
    refine .quiet _ ?_
    rcases hd with h | h
    · exact .inl h
    · exact .inr (.inl h)
  | closeWill t env lost x s hx hst hd hp s' g m hw =>
    have he : ∀ u, willsOf u ((Event.dropped t fun d => if lost.contains d then (x.sinks.get d).toList
          else []) :: willEvents t s s' m) = (if t = u then m.toList else []) ∧
        (((Event.dropped t fun d => if lost.contains d then (x.sinks.get d).toList
          else []) :: willEvents t s s' m).any fun e => e.removes u) = false := by
      intro u
      refine ⟨?_, ?_⟩
      · rw [← willsOf_willEvents t u s s' m]; rfl
      · rw [← removes_willEvents t u s s' m]; rfl
    refine .one rfl (fun x' hx' => by rw [hx] at hx'; cases hx'; rfl) ?_ (fun u hu => ?_) u
    · rw [Tasks.life_eq hx, hst, (he t).1, (he t).2]
      simp only [if_true]
      refine .now (e := s.ending) _ hd hp hw.ending _ ?_
      rw [hw.msg]
      simp only [Session.ending]
      cases s.will <;> rfl
    · rw [(he u).1, (he u).2]; simp [hu]
  | closeDelayed t env lost x s hx hst hd hp =>
    refine .one rfl (fun x' hx' => by rw [hx] at hx'; cases hx'; rfl) ?_ (fun _ _ => ⟨rfl, rfl⟩) u
    rw [Tasks.life_eq hx, hst]
    exact .quiet _ (.inr (.inr (willPlan_eq .. ▸ hp)))
  | push t d x s hx hst m rest hq hk =>
    refine .one rfl (fun x' hx' => by rw [hx] at hx'; cases hx'; rfl) ?_ (fun _ _ => ⟨rfl, rfl⟩) u
    rw [Tasks.life_eq hx]
    have := fun (s' : Session) (he : s'.ending = s.ending) => setSession_ending hst he
    simp only
    rw [this]
    · exact .same _
    · rfl
  | flush t d x hx m q hk hi hl =>
    refine .one rfl (fun x' hx' => by rw [hx] at hx'; cases hx'; rfl) ?_ (fun _ _ => ⟨rfl, rfl⟩) u
    rw [Tasks.life_eq hx]
    exact .same _
  | giveUp t d x s hx hst hi =>
    refine .one rfl (fun x' hx' => by rw [hx] at hx'; cases hx'; rfl) ?_ (fun _ _ => ⟨rfl, rfl⟩) u
    rw [Tasks.life_eq hx]
    have := fun (s' : Session) (he : s'.ending = s.ending) => setSession_ending hst he
    simp only
    rw [this]
    · exact .same _
    · rfl
  | remove t x s hx hst hd r route hrem =>
    have he : ∀ u, willsOf u [Event.removed t s.clientId] = [] ∧
        [Event.removed t s.clientId].any (·.removes u) = decide (t = u) := by
      intro u; exact ⟨rfl, by simp [Event.removes]⟩
    refine .one rfl (fun x' hx' => by rw [hx] at hx'; cases hx'; rfl) ?_ (fun u hu => ?_) u
    · rw [Tasks.life_eq hx, (he t).1, (he t).2]
      simp only [decide_true]
      rcases hst with ⟨hst, h1⟩ | hst
      · rw [hst]; exact .ends _ h1
      · rw [hst]; exact .vanishes _
    · rw [(he u).1, (he u).2]; simp [hu]
  | rest t x s hx hst hd he r hr timers htm =>
    refine .one rfl (fun x' hx' => by rw [hx] at hx'; cases hx'; rfl) ?_ (fun _ _ => ⟨rfl, rfl⟩) u
    rw [Tasks.life_eq hx, hst]
    exact .rests _ he
  | fire i tm ht _ hw =>
    rcases hw with ⟨rfl, _⟩ | ⟨q, hr, hq, rfl⟩ <;> refine Seen.zero ?_ ?_ ?_ <;> rfl
  | kick id q hr hq => refine Seen.zero ?_ ?_ ?_ <;> rfl

/-- The will is published at most once. -/
def MayWill (ext : Ext) (req : Request) (l : Life) (ws : List SendPub) (rem : Bool) : Prop :=
  match l with
  | .absent => ws = [] ∧ rem = false
  | .early => ws = [] ∧ rem = false
  | .conn k e =>
    (e.will = none ∨ e.will = req.params.will) ∧
    (ws = [] ∨ (ws = req.params.will.toList.map (Will.message ext) ∧ e.will = none ∧ k ≠ .online ∧
      k ≠ .closed)) ∧ (rem = true → k = .expired)
  | .gone => ws = [] ∨ ws = req.params.will.toList.map (Will.message ext)

theorem MayWill.step {req : Request} {p : Option InPkt} {l l' : Life} {ws ms : List SendPub}
    {rem r : Bool} (h : MayWill ext req l ws rem) (hs : LifeStep ext req p l l' ms r) :
    MayWill ext req l' (ws ++ ms) (rem || r) := by
  have hnil : ∀ {e : Ending} {ms : List SendPub}, ms = e.will.toList.map (Will.message ext) →
      e.will = none → ms = [] := by
    intro e ms h1 h2; rw [h1, h2]; rfl
  cases hs with
  | same => simpa using h
  | asks => simpa [MayWill] using h
  | fails => simp only [MayWill] at h ⊢; rw [h.1]; exact .inl rfl
  | starts => simp only [MayWill] at h ⊢; rw [h.1, h.2]; simp
  | granted => simp only [MayWill] at h ⊢; rw [h.1, h.2]; simp
  | refused => simp only [MayWill] at h ⊢; rw [h.1]; exact .inl rfl
  | packet pkt hp e e' k hk he =>
    simp only [MayWill, List.append_nil, Bool.or_false] at h ⊢
    obtain ⟨h1, h2, h3⟩ := h
    have hws : ws = [] := h2.resolve_right fun h => h.2.2.1 rfl
    refine ⟨?_, .inl hws, fun hr => by cases h3 hr⟩
    rcases he with rfl | ⟨c, i, _, _, _, he⟩
    · exact h1
    · rcases he with he | he
      · exact .inl he.1
      · rw [he.1]; exact h1
  | lost e =>
    simp only [MayWill, List.append_nil, Bool.or_false] at h ⊢
    obtain ⟨h1, h2, h3⟩ := h
    exact ⟨h1, .inl (h2.resolve_right fun h => h.2.2.1 rfl), fun hr => by cases h3 hr⟩
  | taken k hk e =>
    simp only [MayWill, List.append_nil, Bool.or_false] at h ⊢
    exact h.2.1.imp id (·.1)
  | quiet e he =>
    simp only [MayWill, List.append_nil, Bool.or_false] at h ⊢
    exact ⟨h.1, .inl (h.2.1.resolve_right fun h => h.2.2.2 rfl), fun hr => by cases h.2.2 hr⟩
  | now e e' hg hp he ms hm =>
    simp only [MayWill, Bool.or_false] at h ⊢
    obtain ⟨h1, h2, h3⟩ := h
    subst he
    have hws : ws = [] := h2.resolve_right fun h => h.2.2.2 rfl
    subst hws
    refine ⟨.inl rfl, ?_, fun hr => by cases h3 hr⟩
    rcases h1 with h1 | h1
    · left; rw [hnil hm h1]; rfl
    · right; rw [hm, h1]; simp
  | rests e he =>
    simp only [MayWill, List.append_nil, Bool.or_false] at h ⊢
    exact ⟨h.1, h.2.1.imp id fun h => ⟨h.1, h.2.1, by simp, by simp⟩,
      fun hr => by cases h.2.2 hr⟩
  | ends e he =>
    simp only [MayWill, List.append_nil] at h ⊢
    exact h.2.1.imp id (·.1)
  | late e e' he ms hm =>
    simp only [MayWill, Bool.or_false] at h ⊢
    obtain ⟨h1, h2, h3⟩ := h
    subst he
    refine ⟨.inl rfl, ?_, fun hr => by cases h3 hr⟩
    rcases h2 with rfl | ⟨h2, h4, _⟩
    · rcases h1 with h1 | h1
      · left; rw [hnil hm h1]; rfl
      · right; rw [hm, h1]; simp
    · right; rw [hnil hm h4, h2]; simp
  | expires e e' he ms hm =>
    simp only [MayWill] at h ⊢
    obtain ⟨h1, h2, h3⟩ := h
    subst he
    refine ⟨.inl rfl, ?_, fun _ => by simp⟩
    rcases h2 with rfl | ⟨h2, h4, _⟩
    · rcases h1 with h1 | h1
      · left; rw [hnil hm h1]; rfl
      · right; rw [hm, h1]; simp
    · right; rw [hnil hm h4, h2]; simp
  | vanishes e =>
    simp only [MayWill, List.append_nil] at h ⊢
    exact h.2.1.imp id (·.1)

/-- Without a normal DISCONNECT the will `m` is kept until it is published; `nd`: there was no
DISCONNECT at all. -/
def MustWill (ext : Ext) (req : Request) (m : Will) (nd : Bool) (l : Life) (ws : List SendPub)
    (rem : Bool) : Prop :=
  match l with
  | .absent => ws = [] ∧ rem = false
  | .early => ws = [] ∧ rem = false
  | .conn k e =>
    (nd = true → e.gone = false ∧ e.expiry = req.params.expiryInterval) ∧
    (match k with
      | .online => e.will = some m ∧ ws = [] ∧ rem = false
      | .closed => e.will = some m ∧ ws = [] ∧ rem = false
      | .ending => rem = false ∧ (e.will = none ∧ ws = [m.message ext] ∨
          e.will = some m ∧ ws = [] ∧ (nd = true → endsOf req e = false))
      | .offline => rem = false ∧ (e.will = none ∧ ws = [m.message ext] ∨
          e.will = some m ∧ ws = [])
      | .expired => ws = [m.message ext])
  | .gone => rem = true → nd = true → ws = [m.message ext]

theorem planned_ends {req : Request} {e : Ending} (h : planOf req.level.proto e = .atExpiry ∨
    planOf req.level.proto e = .delayed) : endsOf req e = false := by
  unfold planOf at h
  unfold endsOf
  split at h
  · rcases h with h | h <;> cases h
  · split at h
    · rcases h with h | h <;> cases h
    · split at h
      · rcases h with h | h <;> cases h
      · rename_i hn
        exact decide_eq_false fun he => hn (.inr he)

theorem MustWill.step {req : Request} {p : Option InPkt} {l l' : Life} {ws ms : List SendPub}
    {rem r : Bool} {m : Will} {nd nd' : Bool} (hm : req.params.will = some m)
    (h : MustWill ext req m nd l ws rem) (hs : LifeStep ext req p l l' ms r)
    (hn : ∀ c i, p = some (.disconnect c i) → ¬(req.level.proto = .v3 ∨ c = .success) ∧ nd' = false)
    (hnd : nd' = true → nd = true) :
    MustWill ext req m nd' l' (ws ++ ms) (rem || r) := by
  cases hs with
  | same =>
    rw [List.append_nil, Bool.or_false]
    unfold MustWill at h ⊢
    split at h
    · exact h
    · exact h
    · refine ⟨fun hd => h.1 (hnd hd), ?_⟩
      have h2 := h.2
      split at h2
      · exact h2
      · exact h2
      · exact ⟨h2.1, h2.2.imp id fun h => ⟨h.1, h.2.1, fun hd => h.2.2 (hnd hd)⟩⟩
      · exact h2
      · exact h2
    · exact fun hr hd => h hr (hnd hd)
  | asks => simpa [MustWill] using h
  | fails => simp only [MustWill] at h ⊢; rw [h.2]; intro hr; cases hr
  | starts => simp only [MustWill] at h ⊢; rw [h.1, h.2, hm]; simp
  | granted => simp only [MustWill] at h ⊢; rw [h.1, h.2, hm]; simp
  | refused => simp only [MustWill] at h ⊢; rw [h.2]; intro hr; cases hr
  | packet pkt hp e e' k hk he =>
    simp only [MustWill, List.append_nil, Bool.or_false] at h ⊢
    obtain ⟨h1, h2⟩ := h
    have key : (nd' = true → e'.gone = false ∧ e'.expiry = req.params.expiryInterval) ∧
        e'.will = some m := by
      rcases he with rfl | ⟨c, i, hd, hg, _, he⟩
      · exact ⟨fun hd => h1 (hnd hd), h2.1⟩
      · subst hd
        obtain ⟨h3, h4⟩ := hn c i hp
        refine ⟨fun hd => (by rw [h4] at hd; cases hd), ?_⟩
        rcases he with he | he
        · exact absurd he.2 h3
        · rw [he.1]; exact h2.1
    refine ⟨key.1, ?_⟩
    rcases hk with rfl | rfl <;> exact ⟨key.2, h2.2⟩
  | lost e =>
    simp only [MustWill, List.append_nil, Bool.or_false] at h ⊢
    exact ⟨fun hd => h.1 (hnd hd), h.2⟩
  | taken k hk e =>
    simp only [MustWill, List.append_nil, Bool.or_false] at h ⊢
    intro hr
    have h2 := h.2
    rcases hk with rfl | rfl
    · rw [h2.2.2] at hr; cases hr
    · rw [h2.1] at hr; cases hr
  | quiet e he =>
    simp only [MustWill, List.append_nil, Bool.or_false] at h ⊢
    refine ⟨fun hd => h.1 (hnd hd), h.2.2.2, .inr ⟨h.2.1, h.2.2.1, fun hd => ?_⟩⟩
    rcases he with he | he
    · rw [(h.1 (hnd hd)).1] at he; cases he
    · exact planned_ends he
  | now e e' hg hp he ms hms =>
    simp only [MustWill, Bool.or_false] at h ⊢
    subst he
    refine ⟨fun hd => h.1 (hnd hd), h.2.2.2, .inl ⟨rfl, ?_⟩⟩
    rw [h.2.2.1, hms, h.2.1]; rfl
  | rests e he =>
    simp only [MustWill, List.append_nil, Bool.or_false] at h ⊢
    exact ⟨fun hd => h.1 (hnd hd), h.2.1, h.2.2.imp id fun h => ⟨h.1, h.2.1⟩⟩
  | ends e he =>
    simp only [MustWill, List.append_nil] at h ⊢
    intro _ hd
    rcases h.2.2 with h2 | h2
    · exact h2.2
    · rw [h2.2.2 (hnd hd)] at he; cases he
  | late e e' he ms hms =>
    simp only [MustWill, Bool.or_false] at h ⊢
    subst he
    refine ⟨fun hd => h.1 (hnd hd), h.2.1, .inl ⟨rfl, ?_⟩⟩
    rcases h.2.2 with h2 | h2
    · rw [hms, h2.1, h2.2]; rfl
    · rw [hms, h2.1, h2.2]; rfl
  | expires e e' he ms hms =>
    simp only [MustWill] at h ⊢
    subst he
    refine ⟨fun hd => h.1 (hnd hd), ?_⟩
    rcases h.2.2 with h2 | h2
    · rw [hms, h2.1, h2.2]; rfl
    · rw [hms, h2.1, h2.2]; rfl
  | vanishes e =>
    simp only [MustWill, List.append_nil] at h ⊢
    exact fun _ _ => h.2

/-- The will is dropped: it is not published any more. -/
def Hushed (l : Life) : Prop :=
  match l with
  | .absent => False
  | .early => False
  | .conn _ e => e.will = none
  | .gone => True

theorem Hushed.step {req : Request} {p : Option InPkt} {l l' : Life} {ms : List SendPub}
    {r : Bool} (h : Hushed l) (hs : LifeStep ext req p l l' ms r) : Hushed l' ∧ ms = [] := by
  cases hs with
  | same => exact ⟨h, rfl⟩
  | asks => exact h.elim
  | fails => exact h.elim
  | starts => exact h.elim
  | granted => exact h.elim
  | refused => exact h.elim
  | packet pkt hp e e' k hk he =>
    simp only [Hushed] at h ⊢
    refine ⟨?_, trivial⟩
    rcases he with rfl | ⟨c, i, _, _, _, he⟩
    · exact h
    · rcases he with he | he
      · exact he.1
      · rw [he.1]; exact h
  | lost e => exact ⟨h, rfl⟩
  | taken k hk e => exact ⟨trivial, rfl⟩
  | quiet e he => exact ⟨h, rfl⟩
  | now e e' hg hp he ms hm => subst he; refine ⟨rfl, ?_⟩; rw [hm, show e.will = none from h]; rfl
  | rests e he => exact ⟨h, rfl⟩
  | ends e he => exact ⟨trivial, rfl⟩
  | late e e' he ms hm => subst he; refine ⟨rfl, ?_⟩; rw [hm, show e.will = none from h]; rfl
  | expires e e' he ms hm => subst he; refine ⟨rfl, ?_⟩; rw [hm, show e.will = none from h]; rfl
  | vanishes e => exact ⟨trivial, rfl⟩

theorem life_absent {w : World} {t : TaskId} (h : w.request t = none) :
    Tasks.life w.tasks t = .absent := by
  unfold World.request at h
  unfold Tasks.life
  cases hx : w.tasks.get t with
  | none => rfl
  | some x => rw [hx] at h; cases h

theorem any_append_events (t : TaskId) (a b : List Event) :
    (a ++ b).any (·.removes t) = (a.any (·.removes t) || b.any (·.removes t)) := List.any_append

theorem mayWill_run {acts : List Act} (h : World.run cfg ext {} acts = some (w, evs)) (t : TaskId) :
    (w.request t = none → willsOf t evs = [] ∧ evs.any (·.removes t) = false) ∧
    ∀ req, w.request t = some req →
      MayWill ext req (Tasks.life w.tasks t) (willsOf t evs) (evs.any (·.removes t)) := by
  have key := world_induction (P := fun w evs => BrokerInv w ∧
    (w.request t = none → willsOf t evs = [] ∧ evs.any (·.removes t) = false) ∧
    ∀ req, w.request t = some req →
      MayWill ext req (Tasks.life w.tasks t) (willsOf t evs) (evs.any (·.removes t)))
    ⟨.init, fun _ => ⟨rfl, rfl⟩, fun req h => by cases h⟩ ?_ h
  · exact key.2
  · rintro w evs a w' e ⟨hi, h1, h2⟩ hs
    have hseen := seen_step hi.own (step_cases hs) t
    refine ⟨hi.step hs, ?_, ?_⟩
    · intro hn
      obtain ⟨h3, h4⟩ := hseen.none hn
      cases hr : w.request t with
      | some req => rw [hseen.keeps req hr] at hn; cases hn
      | none =>
        obtain ⟨h5, h6⟩ := h1 hr
        rw [willsOf_append, any_append_events, h3, h4, h5, h6]
        exact ⟨rfl, rfl⟩
    · intro req hreq
      rw [willsOf_append, any_append_events]
      refine MayWill.step ?_ (hseen.step req hreq)
      cases hr : w.request t with
      | some req' =>
        have := hseen.keeps req' hr
        rw [hreq] at this
        cases this
        exact h2 _ hr
      | none => rw [life_absent hr]; exact h1 hr

theorem mustWill_run {acts : List Act} {t : TaskId} {req : Request} {m : Will} {nd : Bool}
    (hm : req.params.will = some m) (h : World.run cfg ext {} acts = some (w, evs))
    (hreq : w.request t = some req)
    (hn : ∀ a ∈ acts, a.disconnectsNormally req.level.proto t = false)
    (hnd : nd = true → ∀ a ∈ acts, a.disconnects t = false) :
    MustWill ext req m nd (Tasks.life w.tasks t) (willsOf t evs) (evs.any (·.removes t)) := by
  have key := world_induction_acts (P := fun acts w evs => BrokerInv w ∧
    ((∀ a ∈ acts, a.disconnectsNormally req.level.proto t = false) →
     (nd = true → ∀ a ∈ acts, a.disconnects t = false) →
    (w.request t = none → willsOf t evs = [] ∧ evs.any (·.removes t) = false) ∧
    (w.request t = some req →
      MustWill ext req m nd (Tasks.life w.tasks t) (willsOf t evs) (evs.any (·.removes t)))))
    ⟨.init, fun _ _ => ⟨fun _ => ⟨rfl, rfl⟩, fun h => by cases h⟩⟩ ?_ h
  · exact (key.2 hn hnd).2 hreq
  · rintro acts w evs a w' e ⟨hi, h12⟩ hs
    have hseen := seen_step hi.own (step_cases hs) t
    refine ⟨hi.step hs, fun hn hnd => ?_⟩
    obtain ⟨h1, h2⟩ := h12 (fun a ha => hn a (List.mem_append_left _ ha))
      (fun hd a ha => hnd hd a (List.mem_append_left _ ha))
    have hna := hn a (by simp)
    have hda := fun hd => hnd hd a (by simp)
    refine ⟨?_, ?_⟩
    · intro hn
      obtain ⟨h3, h4⟩ := hseen.none hn
      cases hr : w.request t with
      | some req => rw [hseen.keeps req hr] at hn; cases hn
      | none =>
        obtain ⟨h5, h6⟩ := h1 hr
        rw [willsOf_append, any_append_events, h3, h4, h5, h6]
        exact ⟨rfl, rfl⟩
    · intro hreq
      rw [willsOf_append, any_append_events]
      refine MustWill.step (nd := nd) hm ?_ (hseen.step req hreq) ?_ id
      · cases hr : w.request t with
        | some req' =>
          have := hseen.keeps req' hr
          rw [hreq] at this
          cases this
          exact h2 hr
        | none => rw [life_absent hr]; exact h1 hr
      · intro c i hp
        cases a <;> simp only [Act.packetOf] at hp <;> try cases hp
        rename_i t' env after size p
        split at hp
        · rename_i ht
          cases hp
          subst ht
          simp only [Act.disconnectsNormally, Act.disconnects] at hna hda
          refine ⟨fun hc => ?_, ?_⟩
          · rw [decide_eq_false_iff_not] at hna
            exact hna (by simpa using hc)
          · cases hnd' : nd with
            | false => rfl
            | true => have := hda hnd'; simp at this
        · cases hp

theorem hushed_run {acts : List Act} {t : TaskId} {w1 : World} (hi : BrokerInv w)
    (hl : Hushed (Tasks.life w.tasks t)) {e1 : List Event}
    (h : World.run cfg ext w acts = some (w1, e1)) : willsOf t e1 = [] := by
  have key := world_induction (P := fun w1 evs => BrokerInv w1 ∧ Hushed (Tasks.life w1.tasks t) ∧
    willsOf t evs = []) ⟨hi, hl, rfl⟩ ?_ h
  · exact key.2.2
  · rintro w evs a w' e ⟨hi, h1, h2⟩ hs
    have hseen := seen_step hi.own (step_cases hs) t
    have hr : ∃ req, w'.request t = some req := by
      cases hr : w'.request t with
      | some req => exact ⟨req, rfl⟩
      | none =>
        exfalso
        cases hr' : w.request t with
        | some req => rw [hseen.keeps req hr'] at hr; cases hr
        | none => rw [life_absent hr'] at h1; exact h1
    obtain ⟨req, hr⟩ := hr
    obtain ⟨h3, h4⟩ := h1.step (hseen.step req hr)
    exact ⟨hi.step hs, h3, by rw [willsOf_append, h2, h4]; rfl⟩

/-- The session expiry interval is that of CONNECT or of a DISCONNECT. -/
theorem expiry_run {acts : List Act} {t : TaskId} {req : Request}
    (h : World.run cfg ext {} acts = some (w, evs)) (hreq : w.request t = some req) {k : Phase}
    {e : Ending} (hl : Tasks.life w.tasks t = .conn k e) :
    e.expiry = req.params.expiryInterval ∨ ∃ env after size c v,
      .packet t env after size (.disconnect c (some v)) ∈ acts ∧ e.expiry = v ∧
      req.level.proto = .v5 ∧ 0 < req.params.expiryInterval := by
  have key := world_induction_acts (P := fun acts w _ => BrokerInv w ∧
    (w.request t = some req → ∀ k e, Tasks.life w.tasks t = .conn k e →
      e.expiry = req.params.expiryInterval ∨ ∃ env after size c v,
        .packet t env after size (.disconnect c (some v)) ∈ acts ∧ e.expiry = v ∧
        req.level.proto = .v5 ∧ 0 < req.params.expiryInterval))
    ⟨.init, fun h => by cases h⟩ ?_ h
  · exact key.2 hreq k e hl
  · rintro acts w evs a w' e ⟨hi, h1⟩ hs
    refine ⟨hi.step hs, fun hr k e hl => ?_⟩
    have hseen := seen_step hi.own (step_cases hs) t
    have hst := hseen.step req hr
    have hmono : ∀ {v : Nat}, (v = req.params.expiryInterval ∨ ∃ env after size c v',
        .packet t env after size (.disconnect c (some v')) ∈ acts ∧ v = v' ∧
        req.level.proto = .v5 ∧ 0 < req.params.expiryInterval) →
        v = req.params.expiryInterval ∨ ∃ env after size c v',
        .packet t env after size (.disconnect c (some v')) ∈ acts ++ [a] ∧ v = v' ∧
        req.level.proto = .v5 ∧ 0 < req.params.expiryInterval := by
      rintro v (h | ⟨env, after, size, c, v', h⟩)
      · exact .inl h
      · exact .inr ⟨env, after, size, c, v', List.mem_append_left _ h.1, h.2⟩
    have hold : ∀ {k e}, Tasks.life w.tasks t = .conn k e →
        e.expiry = req.params.expiryInterval ∨ ∃ env after size c v',
        .packet t env after size (.disconnect c (some v')) ∈ acts ∧ e.expiry = v' ∧
        req.level.proto = .v5 ∧ 0 < req.params.expiryInterval := by
      intro k e hl
      cases hr' : w.request t with
      | none => rw [life_absent hr'] at hl; cases hl
      | some req' =>
        have := hseen.keeps req' hr'
        rw [hr] at this
        cases this
        exact h1 hr' _ _ hl
    generalize hL : Tasks.life w.tasks t = L at hst
    generalize hL' : Tasks.life w'.tasks t = L' at hst
    rw [hL'] at hl
    subst hl
    generalize willsOf t _ = ms at hst
    generalize List.any _ _ = b at hst
    cases hst with
    | same => exact hmono (hold hL)
    | starts => exact .inl rfl
    | granted => exact .inl rfl
    | packet pkt hp e0 _ _ hk he =>
      rcases he with rfl | ⟨c, i, hd, _, he | ⟨v, rfl, he, hpr, h0⟩, _⟩
      · exact hmono (hold hL)
      · rw [he]; exact hmono (hold hL)
      · right
        subst hd
        have hpos : 0 < req.params.expiryInterval := by
          rcases hold hL with h2 | ⟨_, _, _, _, _, _, _, _, h2⟩
          · rw [← h2]; exact h0
          · exact h2
        cases a <;> simp only [Act.packetOf] at hp <;> try cases hp
        rename_i t' env after size p
        split at hp
        · rename_i ht
          cases hp
          subst ht
          exact ⟨env, after, size, c, v, by simp, he, hpr, hpos⟩
        · cases hp
    | lost => exact hmono (hold hL)
    | quiet => exact hmono (hold hL)
    | now e0 _ _ _ he => subst he; exact hmono (v := e0.expiry) (hold hL)
    | rests => exact hmono (hold hL)
    | late e0 _ he => subst he; exact hmono (v := e0.expiry) (hold hL)
    | expires e0 _ he => subst he; exact hmono (v := e0.expiry) (hold hL)

end Akasa
