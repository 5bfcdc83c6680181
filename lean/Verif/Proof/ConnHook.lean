import Verif.Spec.ConnHook
import Verif.Proof.Connect
import Verif.Proof.Return
import Verif.Proof.WatchInv
/-! # Lemmas for C87–C90 -/
namespace Akasa

variable {cfg : Config} {ext : Ext} {w w' : World} {evs : List Event}

/-! ## Who is in the online loop -/

def Life.on : Life → Bool
  | .conn .online _ => true
  | _ => false

def Life.over : Life → Bool
  | .gone => true
  | _ => false

theorem isOnline_eq (w : World) (t : TaskId) : w.isOnline t = (Tasks.life w.tasks t).on := by
  unfold World.isOnline Tasks.life
  cases h : FMap.get w.tasks t with
  | none => rfl
  | some x => cases hst : x.stage <;> simp [hst, Stage.life, Life.on]

theorem isGone_eq (w : World) (t : TaskId) : w.isGone t = (Tasks.life w.tasks t).over := by
  unfold World.isGone Tasks.life
  cases h : FMap.get w.tasks t with
  | none => rfl
  | some x => cases hst : x.stage <;> simp [hst, Stage.life, Life.over]

/-- A step in which a connection is accepted, or none. -/
inductive OnlineMove (w w' : World) (a : Act) (evs : List Event) : Prop
  | up (t : TaskId) (p : Bool) (pre : List Event) (out : List OutPkt) (req : Request) (s : Session)
      (he : evs = pre ++ [.accepted t p, .sent t out])
      (hpre : pre = [] ∨ ∃ old, pre = [.discarded t old])
      (hold : Tasks.life w.tasks t = .absent ∨ Tasks.life w.tasks t = .early)
      (hnew : w'.tasks.get t = some { req, stage := .online s, connectedAt := some w.clock })
      (hoth : ∀ u, u ≠ t → w'.tasks.get u = w.tasks.get u)
  | calm (he : ∀ t p, .accepted t p ∉ evs)
      (hon : ∀ u, (Tasks.life w'.tasks u).on = true → (Tasks.life w.tasks u).on = true)
      (hoff : ∀ u, (Tasks.life w.tasks u).on = true → (Tasks.life w'.tasks u).on = false →
        a.task? = some u)

theorem OnlineMove.zero {a : Act} (ht : w'.tasks = w.tasks) (he : ∀ t p, .accepted t p ∉ evs) :
    OnlineMove w w' a evs :=
  .calm he (by rw [ht]; exact fun _ => id) (by rw [ht]; intro u h1 h2; rw [h1] at h2; cases h2)

theorem OnlineMove.one {a : Act} {t : TaskId} {x' : Task} (ht : w'.tasks = w.tasks.insert t x')
    (ha : a.task? = some t ∨ (Tasks.life w.tasks t).on = false)
    (hon : x'.stage.life.on = true → (Tasks.life w.tasks t).on = true)
    (he : ∀ t p, .accepted t p ∉ evs) : OnlineMove w w' a evs := by
  refine .calm he ?_ ?_
  · intro u
    rw [ht, Tasks.life_insert]
    split
    · rename_i h; subst h; exact hon
    · exact id
  · intro u h1 h2
    rw [ht, Tasks.life_insert] at h2
    split at h2
    · rename_i h
      subst h
      rcases ha with ha | ha
      · exact ha
      · rw [h1] at ha; cases ha
    · rw [h1] at h2; cases h2

theorem OnlineMove.two {a : Act} {t b : TaskId} {x' y' : Task}
    (ht : w'.tasks = (w.tasks.insert t x').insert b y') (ha : a.task? = some t)
    (hx : x'.stage.life.on = false) (hy : y'.stage.life.on = false)
    (hb : (Tasks.life w.tasks b).on = false)
    (he : ∀ t p, .accepted t p ∉ evs) : OnlineMove w w' a evs := by
  refine .calm he ?_ ?_
  · intro u
    rw [ht, Tasks.life_insert, Tasks.life_insert]
    split
    · intro h; rw [hy] at h; cases h
    · split
      · intro h; rw [hx] at h; cases h
      · exact id
  · intro u h1 h2
    rw [ht, Tasks.life_insert, Tasks.life_insert] at h2
    split at h2
    · rename_i h; subst h; rw [h1] at hb; cases hb
    · split at h2
      · rename_i h; subst h; exact ha
      · rw [h1] at h2; cases h2

theorem waiting_off (ho : OInv w) {id : ClientId} {q : List Control} {pr : Proto} {b : TaskId}
    (hq : w.control.get id = some (.online pr b :: q)) : (Tasks.life w.tasks b).on = false := by
  have h := (ho.queue id _ pr b hq (List.mem_cons_self ..)).1
  unfold Tasks.waiting at h
  unfold Tasks.life
  cases hx : FMap.get w.tasks b with
  | none => rfl
  | some x =>
    rw [hx] at h
    cases hst : x.stage <;> simp [hst, Stage.waiting?] at h <;> simp [hst, Stage.life, Life.on]

theorem willEvents_calm (t : TaskId) (s s' : Session) (m : Option SendPub) (u : TaskId) (p : Bool) :
    .accepted u p ∉ willEvents t s s' m := by
  cases m <;> simp [willEvents]

theorem setSession_on {st : Stage} {s : Session} (h : st.sending? = some s) (s' : Session) :
    (st.setSession s').life.on = st.life.on := by
  cases st <;> simp [Stage.sending?] at h <;> simp [Stage.setSession, Stage.life, Life.on]

theorem online_move {a : Act} (ho : OInv w) (hc : WCase cfg ext w a w' evs) :
    OnlineMove w w' a evs := by
  cases hc with
  | idle => exact .zero rfl (by simp)
  | fresh req env r id hadd hw s out hs =>
    refine .up w.nextTask false [] out req s rfl (.inl rfl) (.inl (life_new ho).1)
      (FMap.get_insert_self ..) ?_
    intro u hu
    simp only [FMap.get_insert, if_neg (Ne.symm hu)]
  | stillborn req env wr r id hadd =>
    exact .one rfl (.inr (by rw [(life_new ho).1]; rfl)) (fun h => by cases h) (by simp)
  | wait req env wr r id q hadd hq =>
    exact .one rfl (.inr (by rw [(life_new ho).1]; rfl)) (fun h => by cases h) (by simp)
  | locked req env wr r id hadd hq =>
    exact .one rfl (.inr (by rw [(life_new ho).1]; rfl)) (fun h => by cases h) (by simp)
  | accept t env x old level hx hst hw s0 present h0 s out hs =>
    refine .up t present (if present then [] else [.discarded t old]) out x.req s rfl ?_
      (.inr (by rw [Tasks.life_eq hx, hst]; rfl)) (FMap.get_insert_self ..) ?_
    · cases present
      · exact .inr ⟨old, rfl⟩
      · exact .inl rfl
    · intro u hu
      simp only [FMap.get_insert, if_neg (Ne.symm hu)]
  | refused t env wr x old level hx hst =>
    exact .one rfl (.inl rfl) (fun h => by cases h) (by simp)
  | packet t env after size p x s hx hst hd r hr =>
    exact .one rfl (.inl rfl) (fun _ => by rw [Tasks.life_eq hx, hst]; rfl) (by simp)
  | normalOn t env x s hx hst hd src m rest hi =>
    exact .one rfl (.inl rfl) (fun _ => by rw [Tasks.life_eq hx, hst]; rfl) (by simp)
  | normalOff t env x s hx hst hd src m rest hi =>
    exact .one rfl (.inl rfl) (fun h => by cases h) (by simp)
  | handOn t env x s hx hst b y q hq hy =>
    exact .two rfl rfl rfl rfl (waiting_off ho hq) (by simp)
  | handOff t env x s hx hst hd b y q hq hy msgs inbox hm =>
    exact .two rfl rfl rfl rfl (waiting_off ho hq) (by simp)
  | deny t env x s hx hst pr b y q hq hpr hy =>
    exact .one rfl (.inr (waiting_off ho hq)) (fun h => by cases h) (by simp)
  | ignored t env x s hx hst c q hq hc => exact .zero rfl (by simp)
  | kicked t env x s hx hst q hq => exact .one rfl (.inl rfl) (fun h => by cases h) (by simp)
  | expire t env x s hx hst hd time q hq hpr ht s' g m hw r route hrem =>
    exact .one rfl (.inl rfl) (fun h => by cases h) (by simp [willEvents_calm])
  | lateWill t env x s hx hst hd time q hq hpr ht s' g m hw =>
    exact .one rfl (.inl rfl) (fun h => by cases h) (by simp [willEvents_calm])
  | lose t x s hx hst => exact .one rfl (.inl rfl) (fun h => by cases h) (by simp)
  | closeQuiet t env lost x s hx hst hd =>
    exact .one rfl (.inl rfl) (fun h => by cases h) (by simp)
  | closeWill t env lost x s hx hst hd hp s' g m hw =>
    exact .one rfl (.inl rfl) (fun h => by cases h) (by simp [willEvents_calm])
  | closeDelayed t env lost x s hx hst hd hp =>
    exact .one rfl (.inl rfl) (fun h => by cases h) (by simp)
  | push t d x s hx hst m rest hq hk =>
    exact .one rfl (.inl rfl) (fun h => by
      rw [Tasks.life_eq hx, ← setSession_on hst]; exact h) (by simp)
  | flush t d x hx m q hk hi hl =>
    exact .one rfl (.inl rfl) (fun h => by rw [Tasks.life_eq hx]; exact h) (by simp)
  | giveUp t d x s hx hst hi =>
    exact .one rfl (.inl rfl) (fun h => by
      rw [Tasks.life_eq hx, ← setSession_on hst]; exact h) (by simp)
  | remove t x s hx hst hd r route hrem =>
    exact .one rfl (.inl rfl) (fun h => by cases h) (by simp)
  | rest t x s hx hst hd he r hr timers htm =>
    exact .one rfl (.inl rfl) (fun h => by cases h) (by simp)
  | fire i tm ht _ hw =>
    rcases hw with ⟨rfl, _⟩ | ⟨q, _, _, rfl⟩ <;> exact .zero rfl (by simp)
  | kick id q hr hq => exact .zero rfl (by simp)

/-! ## A task that ends with an error -/

/-- What `vanish` does. -/
inductive Vanished (w : World) (t : TaskId) : World → Prop
  | same (h : ∀ x s, w.tasks.get t = some x → x.stage ≠ .online s ∧ x.stage ≠ .closed s) :
      Vanished w t w
  | gone (x : Task) (s : Session) (hx : w.tasks.get t = some x)
      (hst : x.stage = .online s ∨ x.stage = .closed s) :
      Vanished w t { w with
        tasks := w.tasks.insert t { req := x.req, stage := .gone }
        inbox := w.inbox.erase s.clientId, control := w.control.erase s.clientId }

theorem vanish_cases (w : World) (t : TaskId) : Vanished w t (w.vanish t) := by
  unfold World.vanish
  split
  · rename_i x hx
    split
    · rename_i s hst; exact .gone x s hx (.inl hst)
    · rename_i s hst; exact .gone x s hx (.inr hst)
    · rename_i h1 h2
      refine .same fun y s hy => ?_
      rw [hx] at hy
      cases hy
      exact ⟨h1 s, h2 s⟩
  · rename_i hx
    exact .same fun y s hy => by rw [hx] at hy; cases hy

theorem BrokerInv.vanish (h : BrokerInv w) (t : TaskId) : BrokerInv (w.vanish t) := by
  have hv := vanish_cases w t
  generalize w.vanish t = w' at hv
  cases hv with
  | same => exact h
  | gone x s hx hst =>
    have hs : x.stage.session? = some s := by rcases hst with g | g <;> rw [g] <;> rfl
    have ho := h.own
    have ho' : OInv { w with
        tasks := w.tasks.insert t { req := x.req, stage := .gone }
        inbox := w.inbox.erase s.clientId, control := w.control.erase s.clientId } :=
      ho.drop (x' := { req := x.req, stage := .gone }) hx (s := s) hs rfl rfl rfl rfl ho.reg
        (fun _ _ _ => Iff.rfl) rfl rfl rfl
    refine ⟨ho', ?_, h.plain⟩
    refine h.time.frame ho' ?_ fun id' c hp hn => .inl (hp.of_sub (fun i q hq c hc _ =>
      sub_erase i q hq c hc) rfl hn)
    obtain ⟨v1, _, _, _, v5⟩ := Tasks.views hx
    obtain ⟨u1, u2, u3⟩ := Tasks.timeViews hx
    have hpast : x.stage.past = false := by rcases hst with g | g <;> rw [g] <;> rfl
    rw [hs] at v1
    constructor <;> simp only
    case next => exact Nat.le_refl _
    case clock => omega
    case keeps => grind
    case time => grind
    case once => have := h.time.clock; grind
    case live => have := h.time.live; grind
    case holder =>
      intro t' id' h1
      right; exact ⟨t', by grind, by grind⟩

theorem vanish_request (w : World) (t u : TaskId) : (w.vanish t).request u = w.request u := by
  have hv := vanish_cases w t
  generalize w.vanish t = w' at hv
  cases hv with
  | same => rfl
  | gone x s hx hst =>
    unfold World.request
    simp only [FMap.get_insert]
    split
    · rename_i h; subst h; rw [hx]; rfl
    · rfl

theorem vanish_nextTask (w : World) (t : TaskId) : (w.vanish t).nextTask = w.nextTask := by
  have hv := vanish_cases w t
  generalize w.vanish t = w' at hv
  cases hv <;> rfl

theorem vanish_life (w : World) (t u : TaskId) :
    Tasks.life (w.vanish t).tasks u = Tasks.life w.tasks u ∨
      (u = t ∧ Tasks.life (w.vanish t).tasks u = .gone) := by
  have hv := vanish_cases w t
  generalize w.vanish t = w' at hv
  cases hv with
  | same => exact .inl rfl
  | gone x s hx hst =>
    simp only [Tasks.life_insert]
    split
    · rename_i h; exact .inr ⟨h.symm, rfl⟩
    · exact .inl rfl

/-! ## One step -/

variable {flags : HookFlags} {c : ServerConfig} {x : ConnExt} {f f' : Front}

/-- A step of the broker: packets of the handshake, then what the tasks do. -/
theorem front_world {a : FrontAct} {fevs : List FrontEvent}
    (h : f.step c x ext a = some (f', fevs)) :
    ∃ rs evs, fevs = rs ++ evs.map .event ∧ (∀ e ∈ rs, ∃ k r, e = .reply k r) ∧
      ((f'.world = f.world ∧ evs = []) ∨
        ∃ cfg b, c.limits = some cfg ∧ f.world.step cfg ext b = some (f'.world, evs) ∧
          (a = .act b ∨ ((∃ req env wr, b = .connect req env wr) ∧ ∀ b', a ≠ .act b'))) := by
  have hrep : ∀ cfg conns l, ∀ e ∈ connacks c cfg conns l, ∃ k r, e = .reply k r := by
    intro cfg conns l e he
    unfold connacks at he
    rw [List.mem_flatMap] at he
    obtain ⟨b, _, he⟩ := he
    rw [List.mem_filterMap] at he
    obtain ⟨v, _, he⟩ := he
    split at he
    · split at he
      · cases he; exact ⟨_, _, rfl⟩
      · cases he
    · cases he
  cases fcases h with
  | idle _ ha => exact ⟨[], [], rfl, by simp, .inl ⟨rfl, rfl⟩⟩
  | helloOver p uuid random env wr out ho =>
    refine ⟨fevs, [], by simp, ?_, .inl ⟨rfl, rfl⟩⟩
    rcases ho with ⟨r, _, rfl⟩ | ⟨_, rfl⟩ <;> simp
  | helloChallenge p uuid random env wr o m r hr =>
    exact ⟨[.reply f.nextConn r], [], rfl, by simp, .inl ⟨rfl, rfl⟩⟩
  | helloGo cfg hcfg p uuid random env wr o final hr w evs hw =>
    exact ⟨_, _, rfl, hrep _ _ _, .inr ⟨cfg, _, hcfg, hw, .inr ⟨⟨_, _, _, rfl⟩, by simp⟩⟩⟩
  | authOver k b env wr p o m hk r hr => exact ⟨[.reply k r], [], rfl, by simp, .inl ⟨rfl, rfl⟩⟩
  | authGo cfg hcfg k b env wr p o m hk final hr w evs hw =>
    exact ⟨_, _, rfl, hrep _ _ _, .inr ⟨cfg, _, hcfg, hw, .inr ⟨⟨_, _, _, rfl⟩, by simp⟩⟩⟩
  | stray k malformed p o m hk => exact ⟨_, [], (List.append_nil _).symm, by simp, .inl ⟨rfl, rfl⟩⟩
  | leave k p o m hk => exact ⟨[], [], rfl, by simp, .inl ⟨rfl, rfl⟩⟩
  | act cfg hcfg b hb w evs hw => exact ⟨_, _, rfl, hrep _ _ _, .inr ⟨cfg, _, hcfg, hw, .inl rfl⟩⟩

theorem accepts_replies {rs : List FrontEvent} (h : ∀ e ∈ rs, ∃ k r, e = .reply k r) :
    rs.findSome? FrontEvent.accepts = none := by
  rw [List.findSome?_eq_none_iff]
  intro e he
  obtain ⟨k, r, rfl⟩ := h e he
  rfl

theorem accepts_none {evs : List Event} (h : ∀ t p, .accepted t p ∉ evs) :
    (evs.map FrontEvent.event).findSome? FrontEvent.accepts = none := by
  rw [List.findSome?_eq_none_iff]
  intro e he
  obtain ⟨v, hv, rfl⟩ := List.mem_map.1 he
  cases v with
  | accepted t p => exact absurd hv (h t p)
  | _ => rfl

/-- The hook after a connection fails, or what follows cannot be written. -/
def HookTick.fails (flags : HookFlags) (tick : HookTick) : Bool :=
  (flags.beforeConnect && !tick.after) || !tick.written

def saysConnect (flags : HookFlags) (t : TaskId) (p : Bool) : List HookCall :=
  if flags.beforeConnect then [.afterConnect t p] else []

def saysBye (flags : HookFlags) (t : TaskId) (b : Bool) : List HookCall :=
  if flags.afterDisconnect then [.afterDisconnect t b] else []

/-- What a step with hooks can do after a step of the broker without hooks. -/
inductive HookMove (flags : HookFlags) (tick : HookTick) (f f1 : Front) (rs : List FrontEvent)
    (evs : List Event) : Front → List HookedEvent → Prop
  | up (t : TaskId) (p : Bool) (pre : List Event) (out : List OutPkt) (req : Request) (s : Session)
      (time : Nat) (he : evs = pre ++ [.accepted t p, .sent t out])
      (hpre : pre = [] ∨ ∃ old, pre = [.discarded t old])
      (hold : Tasks.life f.world.tasks t = .absent ∨ Tasks.life f.world.tasks t = .early)
      (hnew : f1.world.tasks.get t = some { req, stage := .online s, connectedAt := some time })
      (hoth : ∀ u, u ≠ t → f1.world.tasks.get u = f.world.tasks.get u) :
      HookMove flags tick f f1 rs evs
        (if tick.fails flags then { f1 with world := f1.world.vanish t } else f1)
        ((rs ++ (pre ++ [Event.accepted t p]).map FrontEvent.event).map .front ++
          (saysConnect flags t p).map .called ++
          if tick.fails flags then [] else [.front (.event (.sent t out))])
  | down (t : TaskId) (a : Act) (hact : tick.act = .act a)
      (he : ∀ t p, .accepted t p ∉ evs)
      (h1 : (Tasks.life f.world.tasks t).on = true) (h2 : (Tasks.life f1.world.tasks t).on = false)
      (hon : ∀ u, u ≠ t → (Tasks.life f1.world.tasks u).on = (Tasks.life f.world.tasks u).on) :
      HookMove flags tick f f1 rs evs
        (if flags.afterDisconnect && (!tick.bye && !(Tasks.life f1.world.tasks t).over) then
          { f1 with world := f1.world.vanish t } else f1)
        ((rs ++ evs.map FrontEvent.event).map .front ++
          (saysBye flags t (Tasks.life f1.world.tasks t).over).map .called)
  | plain (he : ∀ t p, .accepted t p ∉ evs)
      (hon : ∀ u, (Tasks.life f1.world.tasks u).on = (Tasks.life f.world.tasks u).on) :
      HookMove flags tick f f1 rs evs f1 ((rs ++ evs.map FrontEvent.event).map .front)

theorem sends_replies {rs : List FrontEvent} (h : ∀ e ∈ rs, ∃ k r, e = .reply k r) (t : TaskId) :
    rs.filter (fun e => !e.sends t) = rs ∧ rs.filter (fun e => e.sends t) = [] := by
  constructor
  · rw [List.filter_eq_self]
    intro e he
    obtain ⟨k, r, rfl⟩ := h e he
    rfl
  · rw [List.filter_eq_nil_iff]
    intro e he
    obtain ⟨k, r, rfl⟩ := h e he
    simp [FrontEvent.sends]

theorem hooked_cases {tick : HookTick} {l : List HookedEvent} (hb : BrokerInv f.world)
    (h : f.hooked flags c x ext tick = some (f', l)) :
    ∃ f1 rs evs, f.step c x ext tick.act = some (f1, rs ++ evs.map .event) ∧
      (∀ e ∈ rs, ∃ k r, e = .reply k r) ∧
      ((f1.world = f.world ∧ evs = []) ∨ ∃ cfg b, c.limits = some cfg ∧
        f.world.step cfg ext b = some (f1.world, evs) ∧
          (tick.act = .act b ∨ ((∃ req env wr, b = .connect req env wr) ∧ ∀ b', tick.act ≠ .act b'))) ∧
      HookMove flags tick f f1 rs evs f' l := by
  unfold Front.hooked at h
  split at h
  · cases h
  rename_i f1 fevs hs
  obtain ⟨rs, evs, rfl, hrs, hw⟩ := front_world hs
  refine ⟨f1, rs, evs, hs, hrs, hw, ?_⟩
  rw [List.findSome?_append, accepts_replies hrs, Option.none_or] at h
  rcases hw with ⟨hw, rfl⟩ | ⟨cfg, b, hcfg, hstep, hact⟩
  · simp only [List.map_nil, List.findSome?_nil, List.append_nil] at h
    have hl : loopEnds f.world f1.world tick.act = none := by
      rw [hw]
      unfold loopEnds
      split
      · split
        · rw [if_neg]; simp
        · rfl
      · rfl
    rw [hl] at h
    cases h
    have := HookMove.plain (flags := flags) (tick := tick) (f := f) (f1 := f') (rs := rs) (evs := [])
      (by simp) (by rw [hw]; exact fun _ => rfl)
    simpa using this
  · cases online_move hb.own (step_cases hstep) with
    | up t p pre out req s he hpre hold hnew hoth =>
      have hfind : (evs.map FrontEvent.event).findSome? FrontEvent.accepts = some (t, p) := by
        rw [he]
        rcases hpre with rfl | ⟨old, rfl⟩ <;> rfl
      rw [hfind] at h
      simp only [Option.some.injEq] at h
      have key : afterConnected flags tick f1 (rs ++ evs.map .event) t p =
          ((if tick.fails flags then { f1 with world := f1.world.vanish t } else f1),
          ((rs ++ (pre ++ [Event.accepted t p]).map FrontEvent.event).map .front ++
            (saysConnect flags t p).map .called ++
            if tick.fails flags then [] else [.front (.event (.sent t out))])) := by
        unfold afterConnected
        rw [List.filter_append, List.filter_append, (sends_replies hrs t).1,
          (sends_replies hrs t).2, he]
        have h1 : ((pre ++ [Event.accepted t p, .sent t out]).map FrontEvent.event).filter
            (fun e => !e.sends t) = (pre ++ [Event.accepted t p]).map .event := by
          rcases hpre with rfl | ⟨old, rfl⟩ <;> simp [FrontEvent.sends]
        have h2 : ((pre ++ [Event.accepted t p, .sent t out]).map FrontEvent.event).filter
            (fun e => e.sends t) = [.event (.sent t out)] := by
          rcases hpre with rfl | ⟨old, rfl⟩ <;> simp [FrontEvent.sends]
        rw [h1, h2]
        unfold HookTick.fails saysConnect
        simp only
        cases flags.beforeConnect <;> split <;> simp_all
      rw [key] at h
      simp only [Prod.mk.injEq] at h
      obtain ⟨rfl, rfl⟩ := h
      exact .up t p pre out req s _ he hpre hold hnew hoth
    | calm he hon hoff =>
      rw [accepts_none he] at h
      simp only at h
      cases hl : loopEnds f.world f1.world tick.act with
      | none =>
        rw [hl] at h
        cases h
        refine .plain he fun u => ?_
        cases h1 : (Tasks.life f.world.tasks u).on with
        | false =>
          cases h2 : (Tasks.life f'.world.tasks u).on with
          | false => rfl
          | true => rw [hon u h2] at h1; cases h1
        | true =>
          cases h2 : (Tasks.life f'.world.tasks u).on with
          | true => rfl
          | false =>
            have ht := hoff u h1 h2
            rcases hact with hact | ⟨⟨req, env, wr, rfl⟩, _⟩
            · rw [hact] at hl
              simp [loopEnds, ht, isOnline_eq, h1, h2] at hl
            · cases ht
      | some r =>
        obtain ⟨t, b'⟩ := r
        rw [hl] at h
        simp only [Option.some.injEq] at h
        have hl' := hl
        unfold loopEnds at hl
        split at hl
        · rename_i a hact'
          split at hl
          · rename_i u hu
            split at hl
            · rename_i hcond
              simp only [Option.some.injEq, Prod.mk.injEq] at hl
              obtain ⟨rfl, rfl⟩ := hl
              simp only [isOnline_eq, Bool.and_eq_true, Bool.not_eq_true'] at hcond
              have key : afterLoop flags tick f1 (rs ++ evs.map .event) u (f1.world.isGone u) =
                  ((if flags.afterDisconnect && (!tick.bye && !(Tasks.life f1.world.tasks u).over) then
                    { f1 with world := f1.world.vanish u } else f1),
                  ((rs ++ evs.map FrontEvent.event).map .front ++
                    (saysBye flags u (Tasks.life f1.world.tasks u).over).map .called)) := by
                unfold afterLoop saysBye
                rw [isGone_eq]
                cases flags.afterDisconnect <;> simp
              rw [key] at h
              simp only [Prod.mk.injEq] at h
              obtain ⟨rfl, rfl⟩ := h
              refine .down u a hact' he hcond.1 hcond.2 fun v hv => ?_
              have hab : a = b := by
                rcases hact with hact | ⟨_, hno⟩
                · rw [hact'] at hact; cases hact; rfl
                · exact absurd hact' (hno a)
              cases h1 : (Tasks.life f.world.tasks v).on with
              | false =>
                cases h2 : (Tasks.life f1.world.tasks v).on with
                | false => rfl
                | true => rw [hon v h2] at h1; cases h1
              | true =>
                cases h2 : (Tasks.life f1.world.tasks v).on with
                | true => rfl
                | false =>
                  have ht := hoff v h1 h2
                  rw [← hab, hu, Option.some.injEq] at ht
                  exact absurd ht.symm hv
            · cases hl
          · cases hl
        · cases hl

/-- The question to the hook before a connection. -/
def asking (flags : HookFlags) (f : Front) (tick : HookTick) : List HookedEvent :=
  match tick.act with
  | .hello p _ _ _ _ =>
    if flags.beforeConnect then [.called (.beforeConnect f.nextConn p tick.before)] else []
  | _ => []

/-- What a step with hooks can do. -/
inductive HCase (flags : HookFlags) (c : ServerConfig) (x : ConnExt) (ext : Ext) (f : Front)
    (tick : HookTick) : Front → List HookedEvent → Prop
  | away (p : ConnectPkt) (uuid random : Str) (env : Env) (wr : Bool)
      (hact : tick.act = .hello p uuid random env wr) (hf : flags.beforeConnect = true)
      (hno : tick.before ≠ some .success) :
      HCase flags c x ext f tick
        { f with conns := f.conns.insert f.nextConn ⟨p, openV5 c uuid p, .over⟩
                 nextConn := f.nextConn + 1 }
        (asking flags f tick ++ (f.turnAway c p uuid tick.before).2)
  | goes (f1 f' : Front) (rs : List FrontEvent) (evs : List Event) (l : List HookedEvent)
      (hok : flags.beforeConnect = true → (∃ p uuid random env wr,
        tick.act = .hello p uuid random env wr) → tick.before = some .success)
      (hs : f.step c x ext tick.act = some (f1, rs ++ evs.map .event))
      (hrs : ∀ e ∈ rs, ∃ k r, e = .reply k r)
      (hw : (f1.world = f.world ∧ evs = []) ∨ ∃ cfg b, c.limits = some cfg ∧
        f.world.step cfg ext b = some (f1.world, evs) ∧
          (tick.act = .act b ∨ ((∃ req env wr, b = .connect req env wr) ∧ ∀ b', tick.act ≠ .act b')))
      (hm : HookMove flags tick f f1 rs evs f' l) :
      HCase flags c x ext f tick f' (asking flags f tick ++ l)

theorem hcases {tick : HookTick} {log : List HookedEvent} (hb : BrokerInv f.world)
    (h : f.hookStep flags c x ext tick = some (f', log)) : HCase flags c x ext f tick f' log := by
  unfold Front.hookStep at h
  split at h
  · rename_i p uuid random env wr hact
    split at h
    · rename_i hf
      split at h
      · rename_i hyes
        rw [Option.map_eq_some_iff] at h
        obtain ⟨⟨f2, l⟩, h1, h2⟩ := h
        simp only [Prod.mk.injEq] at h2
        obtain ⟨rfl, rfl⟩ := h2
        obtain ⟨f1, rs, evs, g1, g2, g3, g4⟩ := hooked_cases hb h1
        have := HCase.goes f1 f2 rs evs l (fun _ _ => hyes) g1 g2 g3 g4
        simpa [asking, hact, hf] using this
      · rename_i hno
        simp only [Option.some.injEq, Prod.mk.injEq] at h
        obtain ⟨rfl, rfl⟩ := h
        have := HCase.away (c := c) (x := x) (ext := ext) (f := f) p uuid random env wr hact hf hno
        simpa [asking, hact, hf, Front.turnAway] using this
    · rename_i hf
      obtain ⟨f1, rs, evs, g1, g2, g3, g4⟩ := hooked_cases hb h
      have := HCase.goes f1 f' rs evs log (fun h => absurd h hf) g1 g2 g3 g4
      simpa [asking, hact, hf] using this
  · rename_i hact
    obtain ⟨f1, rs, evs, g1, g2, g3, g4⟩ := hooked_cases hb h
    have := HCase.goes f1 f' rs evs log (fun _ ⟨p, uuid, random, env, wr, hh⟩ =>
      absurd hh (hact p uuid random env wr)) g1 g2 g3 g4
    have ha : asking flags f tick = [] := by
      unfold asking
      split
      · rename_i h; exact absurd h (hact _ _ _ _ _)
      · rfl
    simpa [ha] using this

theorem run_snoc_hook {ticks : List HookTick} {a : HookTick} {f0 f2 : Front}
    {log : List HookedEvent} :
    Front.hookRun flags c x ext f0 (ticks ++ [a]) = some (f2, log) ↔
      ∃ f1 e1 e2, Front.hookRun flags c x ext f0 ticks = some (f1, e1) ∧
        f1.hookStep flags c x ext a = some (f2, e2) ∧ log = e1 ++ e2 := by
  induction ticks generalizing f0 log with
  | nil =>
    simp only [List.nil_append, Front.hookRun]
    constructor
    · intro h
      cases hs : f0.hookStep flags c x ext a with
      | none => rw [hs] at h; cases h
      | some r =>
        rw [hs] at h
        simp only [Option.map_some, List.append_nil, Option.some.injEq] at h
        obtain ⟨r1, r2⟩ := r
        cases h
        exact ⟨f0, [], r2, rfl, hs, rfl⟩
    · rintro ⟨w1, e1, e2, h1, h2, rfl⟩
      cases h1
      rw [h2]
      simp
  | cons b bs ih =>
    simp only [List.cons_append, Front.hookRun]
    cases hs : f0.hookStep flags c x ext b with
    | none => simp
    | some r =>
      simp only [Option.map_eq_some_iff]
      constructor
      · rintro ⟨⟨w3, e3⟩, h1, h2⟩
        cases h2
        obtain ⟨w1, e1, e2, h3, h4, rfl⟩ := ih.mp h1
        exact ⟨w1, r.2 ++ e1, e2, ⟨(w1, e1), h3, rfl⟩, h4, by simp⟩
      · rintro ⟨w1, e1, e2, ⟨⟨w3, e3⟩, h3, h5⟩, h4, rfl⟩
        simp only [Prod.mk.injEq] at h5
        obtain ⟨rfl, rfl⟩ := h5
        exact ⟨(f2, e3 ++ e2), ih.mpr ⟨w3, e3, e2, h3, h4, rfl⟩, by simp⟩

/-- Induction over runs from any state. -/
theorem hook_induction {f0 : Front} {P : List HookTick → Front → List HookedEvent → Prop}
    (h0 : P [] f0 [])
    (hstep : ∀ ticks f log a f' e, P ticks f log → f.hookStep flags c x ext a = some (f', e) →
      P (ticks ++ [a]) f' (log ++ e))
    {ticks : List HookTick} {log : List HookedEvent}
    (h : Front.hookRun flags c x ext f0 ticks = some (f, log)) : P ticks f log := by
  induction ticks using snoc_induction generalizing f log with
  | nil => cases h; exact h0
  | snoc ticks a ih =>
    obtain ⟨w1, e1, e2, h1, h2, rfl⟩ := run_snoc_hook.mp h
    exact hstep _ _ _ _ _ _ (ih h1) h2

theorem HookMove.broker {tick : HookTick} {f1 : Front} {rs : List FrontEvent} {evs : List Event}
    {l : List HookedEvent} (h : HookMove flags tick f f1 rs evs f' l) (hb : BrokerInv f1.world) :
    BrokerInv f'.world := by
  cases h with
  | up t =>
    split
    · exact hb.vanish t
    · exact hb
  | down t =>
    split
    · exact hb.vanish t
    · exact hb
  | plain => exact hb

theorem hook_broker {tick : HookTick} {log : List HookedEvent} (hb : BrokerInv f.world)
    (h : f.hookStep flags c x ext tick = some (f', log)) : BrokerInv f'.world := by
  cases hcases hb h with
  | away => exact hb
  | goes f1 f' rs evs l hok hs hrs hw hm =>
    refine hm.broker ?_
    rcases hw with ⟨hw, _⟩ | ⟨cfg, b, _, hstep, _⟩
    · rw [hw]; exact hb
    · exact hb.step hstep

end Akasa
