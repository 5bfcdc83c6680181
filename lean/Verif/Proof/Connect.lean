import Verif.Spec.Connect
import Verif.Proof.WorldWill
/-! # The handshake -/
namespace Akasa

variable {cfg : Config} {ext : Ext} {w w' : World} {evs : List Event}

theorem request_insert {m : FMap TaskId Task} {t u : TaskId} {x x' : Task}
    (hx : m.get t = some x) (h : x'.req = x.req) :
    ((m.insert t x').get u).map (·.req) = (m.get u).map (·.req) := by
  rw [FMap.get_insert]
  split
  · rename_i e; subst e; rw [hx]; simp [h]
  · rfl

theorem request_insert2 {m : FMap TaskId Task} {t b u : TaskId} {x x' y y' : Task}
    (hx : m.get t = some x) (hy : m.get b = some y) (h : x'.req = x.req) (h' : y'.req = y.req) :
    (((m.insert t x').insert b y').get u).map (·.req) = (m.get u).map (·.req) := by
  by_cases hb : t = b
  · subst hb
    rw [hx] at hy
    cases hy
    exact (request_insert (FMap.get_insert_self m t x') (h'.trans h.symm)).trans (request_insert hx h)
  · exact (request_insert (x := y) (by rw [FMap.get_insert, if_neg hb]; exact hy) h').trans
      (request_insert hx h)

/-- Only a CONNECT makes a new task, and the request of a task never changes. -/
theorem request_other {a : Act} (hc : WCase cfg ext w a w' evs)
    (ha : ∀ req env wr, a ≠ .connect req env wr) :
    w'.nextTask = w.nextTask ∧ ∀ u, w'.request u = w.request u := by
  unfold World.request
  cases hc with
  | idle => exact ⟨rfl, fun _ => rfl⟩
  | fresh req env => exact absurd rfl (ha _ _ _)
  | stillborn req env => exact absurd rfl (ha _ _ _)
  | wait req env => exact absurd rfl (ha _ _ _)
  | locked req env => exact absurd rfl (ha _ _ _)
  | accept t env x old level hx => exact ⟨rfl, fun u => request_insert hx rfl⟩
  | refused t env wr x old level hx => exact ⟨rfl, fun u => request_insert hx rfl⟩
  | packet t env after size p x s hx => exact ⟨rfl, fun u => request_insert hx rfl⟩
  | normalOn t env x s hx => exact ⟨rfl, fun u => request_insert hx rfl⟩
  | normalOff t env x s hx => exact ⟨rfl, fun u => request_insert hx rfl⟩
  | handOn t env x s hx hst b y q hq hy => exact ⟨rfl, fun u => request_insert2 hx hy rfl rfl⟩
  | handOff t env x s hx hst hd b y q hq hy => exact ⟨rfl, fun u => request_insert2 hx hy rfl rfl⟩
  | deny t env x s hx hst pr b y q hq hpr hy => exact ⟨rfl, fun u => request_insert hy rfl⟩
  | ignored => exact ⟨rfl, fun _ => rfl⟩
  | kicked t env x s hx => exact ⟨rfl, fun u => request_insert hx rfl⟩
  | expire t env x s hx => exact ⟨rfl, fun u => request_insert hx rfl⟩
  | lateWill t env x s hx => exact ⟨rfl, fun u => request_insert hx rfl⟩
  | lose t x s hx => exact ⟨rfl, fun u => request_insert hx rfl⟩
  | closeQuiet t env lost x s hx => exact ⟨rfl, fun u => request_insert hx rfl⟩
  | closeWill t env lost x s hx => exact ⟨rfl, fun u => request_insert hx rfl⟩
  | closeDelayed t env lost x s hx => exact ⟨rfl, fun u => request_insert hx rfl⟩
  | push t d x s hx => exact ⟨rfl, fun u => request_insert hx rfl⟩
  | flush t d x hx => exact ⟨rfl, fun u => request_insert hx rfl⟩
  | giveUp t d x s hx => exact ⟨rfl, fun u => request_insert hx rfl⟩
  | remove t x s hx => exact ⟨rfl, fun u => request_insert hx rfl⟩
  | rest t x s hx => exact ⟨rfl, fun u => request_insert hx rfl⟩
  | fire i tm ht w2 hw => rcases hw with ⟨rfl, _⟩ | ⟨q, _, _, rfl⟩ <;> exact ⟨rfl, fun _ => rfl⟩
  | kick => exact ⟨rfl, fun _ => rfl⟩

theorem request_connect {req : Request} {env : Env} {wr : Bool}
    (h : w.step cfg ext (.connect req env wr) = some (w', evs)) :
    w'.nextTask = w.nextTask + 1 ∧
    ∀ u, w'.request u = if u = w.nextTask then some req else w.request u := by
  simp only [World.step, World.connect] at h
  unfold World.request
  split at h
  · cases h
  · simp only [Option.some.injEq] at h
    rcases setUp_cases h with ⟨_, _, rfl, _⟩ | ⟨_, rfl, _⟩
    · refine ⟨rfl, fun u => ?_⟩
      simp only [FMap.get_insert, eq_comm (a := u)]
      split <;> rfl
    · refine ⟨rfl, fun u => ?_⟩
      simp only [World.setTask, World.dropReceivers, FMap.get_insert, eq_comm (a := u)]
      split <;> rfl
  · split at h
    · cases h
      refine ⟨rfl, fun u => ?_⟩
      simp only [FMap.get_insert, eq_comm (a := u)]
      split <;> rfl
    · cases h
      refine ⟨rfl, fun u => ?_⟩
      simp only [World.setTask, FMap.get_insert, eq_comm (a := u)]
      split <;> rfl
/-- Everything a step of the handshake can do. -/
inductive FCase (c : ServerConfig) (x : ConnExt) (ext : Ext) (f : Front) :
    FrontAct → Front → List FrontEvent → Prop
  | idle (a : FrontAct) (ha : hellos [a] = []) : FCase c x ext f a f []
  | helloOver (p : ConnectPkt) (uuid random : Str) (env : Env) (wr : Bool) (out : List FrontEvent)
      (h : (∃ r, handleConnect c x uuid random p = .refuse r ∧ out = [.reply f.nextConn r]) ∨
        (handleConnect c x uuid random p = .fail ∧ out = [])) :
      FCase c x ext f (.hello p uuid random env wr)
        { f with conns := f.conns.insert f.nextConn ⟨p, openV5 c uuid p, .over⟩
                 nextConn := f.nextConn + 1 } out
  | helloChallenge (p : ConnectPkt) (uuid random : Str) (env : Env) (wr : Bool) (o : Opening)
      (m : Scram.Server) (r : Reply) (h : handleConnect c x uuid random p = .challenge o m r) :
      FCase c x ext f (.hello p uuid random env wr)
        { f with conns := f.conns.insert f.nextConn ⟨p, o, .authorizing m⟩
                 nextConn := f.nextConn + 1 } [.reply f.nextConn r]
  | helloGo (cfg : Config) (hcfg : c.limits = some cfg) (p : ConnectPkt) (uuid random : Str)
      (env : Env) (wr : Bool) (o : Opening)
      (final : Option Str) (h : handleConnect c x uuid random p = .go o final) (w : World)
      (evs : List Event) (hs : f.world.step cfg ext (.connect (o.request c) env wr) = some (w, evs)) :
      FCase c x ext f (.hello p uuid random env wr)
        { world := w
          conns := f.conns.insert f.nextConn ⟨p, o, .task f.world.nextTask final⟩
          nextConn := f.nextConn + 1 }
        (connacks c cfg (f.conns.insert f.nextConn ⟨p, o, .task f.world.nextTask final⟩)
          (acked (f.world.refusing cfg (.connect (o.request c) env wr)) evs) ++ evs.map .event)
  | authOver (k : ConnId) (a : AuthPkt) (env : Env) (wr : Bool) (p : ConnectPkt) (o : Opening)
      (m : Scram.Server) (hk : f.conns.get k = some ⟨p, o, .authorizing m⟩) (r : Reply)
      (h : handleAuth x o m a = .refuse r) :
      FCase c x ext f (.auth k a env wr) { f with conns := f.conns.insert k ⟨p, o, .over⟩ }
        [.reply k r]
  | authGo (cfg : Config) (hcfg : c.limits = some cfg) (k : ConnId) (a : AuthPkt) (env : Env)
      (wr : Bool) (p : ConnectPkt) (o : Opening)
      (m : Scram.Server) (hk : f.conns.get k = some ⟨p, o, .authorizing m⟩) (final : Option Str)
      (h : handleAuth x o m a = .go o final) (w : World)
      (evs : List Event) (hs : f.world.step cfg ext (.connect (o.request c) env wr) = some (w, evs)) :
      FCase c x ext f (.auth k a env wr)
        { world := w
          conns := f.conns.insert k ⟨p, o, .task f.world.nextTask final⟩
          nextConn := f.nextConn }
        (connacks c cfg (f.conns.insert k ⟨p, o, .task f.world.nextTask final⟩)
          (acked (f.world.refusing cfg (.connect (o.request c) env wr)) evs) ++ evs.map .event)
  | stray (k : ConnId) (malformed : Bool) (p : ConnectPkt) (o : Opening)
      (m : Scram.Server) (hk : f.conns.get k = some ⟨p, o, .authorizing m⟩) :
      FCase c x ext f (.stray k malformed) { f with conns := f.conns.insert k ⟨p, o, .over⟩ }
        [.reply k (.connack false (if malformed then .malformedPacket else .protocolError) {})]
  | leave (k : ConnId) (p : ConnectPkt) (o : Opening)
      (m : Scram.Server) (hk : f.conns.get k = some ⟨p, o, .authorizing m⟩) :
      FCase c x ext f (.leave k) { f with conns := f.conns.insert k ⟨p, o, .over⟩ } []
  | act (cfg : Config) (hcfg : c.limits = some cfg) (a : Act)
      (ha : ∀ req env wr, a ≠ .connect req env wr) (w : World)
      (evs : List Event) (hs : f.world.step cfg ext a = some (w, evs)) :
      FCase c x ext f (.act a) { f with world := w }
        (connacks c cfg f.conns (acked (f.world.refusing cfg a) evs) ++ evs.map .event)

variable {c : ServerConfig} {x : ConnExt} {f f' : Front} {fevs : List FrontEvent}

theorem handleAuth_cases (x : ConnExt) (o : Opening) (m : Scram.Server) (a : AuthPkt) :
    (∃ r, handleAuth x o m a = .refuse r) ∨ ∃ s, handleAuth x o m a = .go o (some s) := by
  unfold handleAuth refuse
  split
  · exact .inl ⟨_, rfl⟩
  · split
    · exact .inl ⟨_, rfl⟩
    · split
      · exact .inl ⟨_, rfl⟩
      · exact .inl ⟨_, rfl⟩
      · split
        · exact .inl ⟨_, rfl⟩
        · split
          · exact .inr ⟨_, rfl⟩
          · exact .inl ⟨_, rfl⟩

theorem fcase_world {cfg : Config} {conns : FMap ConnId Conn} {a : Act}
    (h : f.world' c cfg ext conns a = some (f', fevs)) :
    ∃ w evs, f.world.step cfg ext a = some (w, evs) ∧ f' = { f with world := w, conns } ∧
      fevs = connacks c cfg conns (acked (f.world.refusing cfg a) evs) ++ evs.map .event := by
  unfold Front.world' at h
  split at h
  · cases h
  · rename_i w evs hs
    cases h
    exact ⟨w, evs, hs, rfl, rfl⟩

theorem fcases {a : FrontAct} (h : f.step c x ext a = some (f', fevs)) :
    FCase c x ext f a f' fevs := by
  cases a with
  | hello p uuid random env wr =>
    simp only [Front.step] at h
    split at h
    · cases h
    · rename_i cfg hcfg
      cases ha : handleConnect c x uuid random p with
      | refuse r =>
        rw [ha] at h
        simp only [Front.answer, Option.some.injEq, Prod.mk.injEq] at h
        obtain ⟨rfl, rfl⟩ := h
        exact .helloOver p uuid random env wr _ (.inl ⟨r, ha, rfl⟩)
      | fail =>
        rw [ha] at h
        simp only [Front.answer, Option.some.injEq, Prod.mk.injEq] at h
        obtain ⟨rfl, rfl⟩ := h
        exact .helloOver p uuid random env wr _ (.inr ⟨ha, rfl⟩)
      | challenge o m r =>
        rw [ha] at h
        simp only [Front.answer, Option.some.injEq, Prod.mk.injEq] at h
        obtain ⟨rfl, rfl⟩ := h
        exact .helloChallenge p uuid random env wr o m r ha
      | go o final =>
        rw [ha] at h
        obtain ⟨w, evs, hs, rfl, rfl⟩ := fcase_world h
        exact .helloGo cfg hcfg p uuid random env wr o final ha w evs hs
  | auth k a env wr =>
    simp only [Front.step] at h
    split at h
    · cases h
    · rename_i cfg p o m hcfg hk
      rcases handleAuth_cases x o m a with ⟨r, hr⟩ | ⟨s, hr⟩
      · rw [hr] at h
        simp only [Front.answer, Option.some.injEq, Prod.mk.injEq] at h
        obtain ⟨rfl, rfl⟩ := h
        exact .authOver k a env wr p o m hk r hr
      · rw [hr] at h
        obtain ⟨w, evs, hs, rfl, rfl⟩ := fcase_world h
        exact .authGo cfg hcfg k a env wr p o m hk _ hr w evs hs
    · cases h
      exact .idle _ rfl
  | stray k malformed =>
    simp only [Front.step] at h
    split at h
    · rename_i p o m hk
      cases h
      exact .stray k malformed p o m hk
    · cases h
      exact .idle _ rfl
  | leave k =>
    simp only [Front.step] at h
    split at h
    · rename_i p o m hk
      cases h
      exact .leave k p o m hk
    · cases h
      exact .idle _ rfl
  | act a =>
    simp only [Front.step] at h
    split at h
    · cases h
    · cases h
      exact .idle _ rfl
    · rename_i cfg hcfg hne
      obtain ⟨w, evs, hs, rfl, rfl⟩ := fcase_world h
      refine .act cfg hcfg _ ?_ w evs hs
      intro req env wr e
      exact hne req env wr e

theorem run_snoc_front {acts : List FrontAct} {a : FrontAct} {f0 f2 : Front}
    {evs : List FrontEvent} :
    Front.run c x ext f0 (acts ++ [a]) = some (f2, evs) ↔
      ∃ f1 e1 e2, Front.run c x ext f0 acts = some (f1, e1) ∧ f1.step c x ext a = some (f2, e2) ∧
        evs = e1 ++ e2 := by
  induction acts generalizing f0 evs with
  | nil =>
    simp only [List.nil_append, Front.run]
    constructor
    · intro h
      cases hs : f0.step c x ext a with
      | none => rw [hs] at h; cases h
      | some r =>
        rw [hs] at h
        simp only [Option.map_some, List.append_nil, Option.some.injEq] at h
        obtain ⟨r1, r2⟩ := r
        cases h
        exact ⟨f0, [], r2, rfl, hs, rfl⟩
    · rintro ⟨w1, e1, e2, h1, h2, rfl⟩
      cases h1
      rw [h2]
      simp
  | cons b bs ih =>
    simp only [List.cons_append, Front.run]
    cases hs : f0.step c x ext b with
    | none => simp
    | some r =>
      simp only [Option.map_eq_some_iff]
      constructor
      · rintro ⟨⟨w3, e3⟩, h1, h2⟩
        cases h2
        obtain ⟨w1, e1, e2, h3, h4, rfl⟩ := ih.mp h1
        exact ⟨w1, r.2 ++ e1, e2, ⟨(w1, e1), h3, rfl⟩, h4, by simp⟩
      · rintro ⟨w1, e1, e2, ⟨⟨w3, e3⟩, h3, h5⟩, h4, rfl⟩
        simp only [Prod.mk.injEq] at h5
        obtain ⟨rfl, rfl⟩ := h5
        exact ⟨(f2, e3 ++ e2), ih.mpr ⟨w3, e3, e2, h3, h4, rfl⟩, by simp⟩

/-- A statement about acts, state and everything observed holds after every run if it holds at the
start and every step keeps it. -/
theorem front_induction {P : List FrontAct → Front → List FrontEvent → Prop} (h0 : P [] {} [])
    (hstep : ∀ acts f evs a f' e, P acts f evs → f.step c x ext a = some (f', e) →
      P (acts ++ [a]) f' (evs ++ e))
    {acts : List FrontAct} (h : FrontReaches c x ext acts f fevs) : P acts f fevs := by
  unfold FrontReaches at h
  induction acts using snoc_induction generalizing f fevs with
  | nil => cases h; exact h0
  | snoc acts a ih =>
    obtain ⟨w1, e1, e2, h1, h2, rfl⟩ := run_snoc_front.mp h
    exact hstep _ _ _ _ _ _ (ih h1) h2

theorem worldEvents_append (a b : List FrontEvent) :
    worldEvents (a ++ b) = worldEvents a ++ worldEvents b := List.filterMap_append

theorem worldEvents_map (evs : List Event) : worldEvents (evs.map .event) = evs := by
  unfold worldEvents
  rw [List.filterMap_map]
  exact List.filterMap_some

theorem worldEvents_connacks (c : ServerConfig) (cfg : Config) (conns : FMap ConnId Conn)
    (l : List (TaskId × Bool)) : worldEvents (connacks c cfg conns l) = [] := by
  unfold worldEvents
  rw [List.filterMap_eq_nil_iff]
  intro e he
  unfold connacks at he
  rw [List.mem_flatMap] at he
  obtain ⟨a, _, he⟩ := he
  rw [List.mem_filterMap] at he
  obtain ⟨b, _, he⟩ := he
  split at he
  · split at he
    · cases he; rfl
    · cases he
  · cases he

theorem hellos_append (a b : List FrontAct) : hellos (a ++ b) = hellos a ++ hellos b :=
  List.filterMap_append

/-- What is known of a connection. -/
def Story (c : ServerConfig) (x : ConnExt) (acts : List FrontAct) (k : ConnId) (n : Conn) : Prop :=
  ∃ uuid random, (hellos acts)[k]? = some (n.pkt, uuid, random) ∧
    match n.stage with
    | .over => True
    | .authorizing m => ∃ r, handleConnect c x uuid random n.pkt = .challenge n.opening m r
    | .task _ final => handleConnect c x uuid random n.pkt = .go n.opening final ∨
        ∃ m r a env wr, handleConnect c x uuid random n.pkt = .challenge n.opening m r ∧
          FrontAct.auth k a env wr ∈ acts ∧ handleAuth x n.opening m a = .go n.opening final

/-- The acts of the rest of the broker are CONNECTs and those named. -/
def ActsFrom (acts : List FrontAct) (wacts : List Act) : Prop :=
  ∀ a ∈ wacts, FrontAct.act a ∈ acts ∨ ∃ req env wr, a = .connect req env wr

theorem ActsFrom.mono {acts : List FrontAct} {wacts : List Act} (h : ActsFrom acts wacts)
    (b : List FrontAct) : ActsFrom (acts ++ b) wacts :=
  fun a ha => (h a ha).imp_left (List.mem_append_left _)

theorem ActsFrom.snoc {acts : List FrontAct} {wacts : List Act} (h : ActsFrom acts wacts)
    {b : FrontAct} {a : Act} (ha : b = .act a ∨ ∃ req env wr, a = .connect req env wr) :
    ActsFrom (acts ++ [b]) (wacts ++ [a]) := by
  intro a' ha'
  rcases List.mem_append.1 ha' with h1 | h1
  · exact h.mono _ a' h1
  · cases List.mem_singleton.1 h1
    exact ha.imp_left fun h => by subst h; simp

/-- The invariant of the handshake. -/
structure FrontInv (c : ServerConfig) (x : ConnExt) (ext : Ext) (acts : List FrontAct) (f : Front)
    (evs : List FrontEvent) : Prop where
  count : (hellos acts).length = f.nextConn
  fresh : ∀ k n, f.conns.get k = some n → k < f.nextConn
  wf : f.conns.WF
  story : ∀ k n, f.conns.get k = some n → Story c x acts k n
  asked : ∀ t r, f.world.request t = some r → ∃ k n final, f.conns.get k = some n ∧
    n.stage = .task t final ∧ r = n.opening.request c
  serves : ∀ k n t final, f.conns.get k = some n → n.stage = .task t final →
    f.world.request t = some (n.opening.request c) ∧ t < f.world.nextTask
  one : ∀ k k' n n' t a b, f.conns.get k = some n → f.conns.get k' = some n' →
    n.stage = .task t a → n'.stage = .task t b → k = k'
  reaches : ∀ cfg, c.limits = some cfg → ∃ wacts, Reaches cfg ext wacts f.world (worldEvents evs) ∧
    ActsFrom acts wacts

theorem Story.mono {acts : List FrontAct} {k : ConnId} {n : Conn} (h : Story c x acts k n)
    (a : FrontAct) : Story c x (acts ++ [a]) k n := by
  obtain ⟨uuid, random, h1, h2⟩ := h
  refine ⟨uuid, random, ?_, ?_⟩
  · rw [hellos_append, List.getElem?_append_left]
    · exact h1
    · exact (List.getElem?_eq_some_iff.1 h1).1
  · split <;> rename_i hs <;> rw [hs] at h2
    · exact h2
    · exact h2
    · rcases h2 with h2 | ⟨m, r, b, env, wr, h3, h4, h5⟩
      · exact .inl h2
      · exact .inr ⟨m, r, b, env, wr, h3, List.mem_append_left _ h4, h5⟩

/-- The connections and tasks after a step that does not concern the rest of the broker: one
connection is added or changed and does not become a task. -/
theorem FrontInv.quiet {acts : List FrontAct} {a : FrontAct} {evs e : List FrontEvent}
    (h : FrontInv c x ext acts f evs) {k : ConnId} {n : Conn} {m : Nat}
    (hw : f'.world = f.world) (hc : f'.conns = f.conns.insert k n) (hm : f'.nextConn = m)
    (hcount : (hellos (acts ++ [a])).length = m) (hk : k < m) (hle : f.nextConn ≤ m)
    (hold : ∀ o, f.conns.get k = some o → ∀ t final, o.stage ≠ .task t final)
    (hnew : ∀ t final, n.stage ≠ .task t final)
    (hs : Story c x (acts ++ [a]) k n) (he : worldEvents e = []) :
    FrontInv c x ext (acts ++ [a]) f' (evs ++ e) := by
  constructor
  · rw [hcount, hm]
  · intro k' n' h1
    rw [hc, FMap.get_insert] at h1
    rw [hm]
    split at h1
    · rename_i e; subst e; exact hk
    · exact Nat.lt_of_lt_of_le (h.fresh _ _ h1) hle
  · rw [hc]; exact FMap.wf_insert h.wf _ _
  · intro k' n' h1
    rw [hc, FMap.get_insert] at h1
    split at h1
    · rename_i e; subst e; cases h1; exact hs
    · exact (h.story _ _ h1).mono a
  · intro t r h1
    rw [hw] at h1
    obtain ⟨k', n', final, h2, h3, h4⟩ := h.asked t r h1
    refine ⟨k', n', final, ?_, h3, h4⟩
    rw [hc, FMap.get_insert]
    split
    · rename_i e; subst e; exact absurd h3 (hold _ h2 _ _)
    · exact h2
  · intro k' n' t final h1 h2
    rw [hc, FMap.get_insert] at h1
    rw [hw]
    split at h1
    · cases h1; exact absurd h2 (hnew _ _)
    · exact h.serves _ _ _ _ h1 h2
  · intro k1 k2 n1 n2 t b1 b2 h1 h2 h3 h4
    rw [hc, FMap.get_insert] at h1 h2
    split at h1
    · cases h1; exact absurd h3 (hnew _ _)
    · split at h2
      · cases h2; exact absurd h4 (hnew _ _)
      · exact h.one _ _ _ _ _ _ _ h1 h2 h3 h4
  · rw [worldEvents_append, he, List.append_nil, hw]
    intro cfg hcfg
    obtain ⟨wacts, hr, ha⟩ := h.reaches cfg hcfg
    exact ⟨wacts, hr, ha.mono _⟩

/-- A connection becomes a task. -/
theorem FrontInv.becomes {acts : List FrontAct} {a : FrontAct} {evs e : List FrontEvent}
    (h : FrontInv c x ext acts f evs) {cfg : Config} (hcfg : c.limits = some cfg) {k : ConnId}
    {n : Conn} {m : Nat} {final : Option Str} {env : Env} {wr : Bool} {wevs : List Event}
    (hs : f.world.step cfg ext (.connect (n.opening.request c) env wr) = some (f'.world, wevs))
    (hc : f'.conns = f.conns.insert k n) (hm : f'.nextConn = m)
    (hcount : (hellos (acts ++ [a])).length = m) (hk : k < m) (hle : f.nextConn ≤ m)
    (hold : ∀ o, f.conns.get k = some o → ∀ t final, o.stage ≠ .task t final)
    (hnew : n.stage = .task f.world.nextTask final)
    (hst : Story c x (acts ++ [a]) k n) (he : worldEvents e = wevs) :
    FrontInv c x ext (acts ++ [a]) f' (evs ++ e) := by
  obtain ⟨r1, r2⟩ := request_connect hs
  constructor
  · rw [hcount, hm]
  · intro k' n' h1
    rw [hc, FMap.get_insert] at h1
    rw [hm]
    split at h1
    · rename_i e; subst e; exact hk
    · exact Nat.lt_of_lt_of_le (h.fresh _ _ h1) hle
  · rw [hc]; exact FMap.wf_insert h.wf _ _
  · intro k' n' h1
    rw [hc, FMap.get_insert] at h1
    split at h1
    · rename_i e; subst e; cases h1; exact hst
    · exact (h.story _ _ h1).mono a
  · intro t r h1
    rw [r2] at h1
    split at h1
    · rename_i e
      subst e
      cases h1
      exact ⟨k, n, final, by rw [hc, FMap.get_insert_self], hnew, rfl⟩
    · obtain ⟨k', n', final', h2, h3, h4⟩ := h.asked t r h1
      refine ⟨k', n', final', ?_, h3, h4⟩
      rw [hc, FMap.get_insert]
      split
      · rename_i e; subst e; exact absurd h3 (hold _ h2 _ _)
      · exact h2
  · intro k' n' t final' h1 h2
    rw [hc, FMap.get_insert] at h1
    rw [r1, r2]
    split at h1
    · cases h1
      rw [hnew] at h2
      cases h2
      exact ⟨if_pos rfl, Nat.lt_succ_self _⟩
    · obtain ⟨h3, h4⟩ := h.serves _ _ _ _ h1 h2
      exact ⟨by rw [if_neg (Nat.ne_of_lt h4)]; exact h3, Nat.lt_succ_of_lt h4⟩
  · intro k1 k2 n1 n2 t b1 b2 h1 h2 h3 h4
    rw [hc, FMap.get_insert] at h1 h2
    split at h1
    · rename_i e1
      split at h2
      · rename_i e2; exact e1.symm.trans e2
      · cases h1
        rw [hnew] at h3
        cases h3
        exact absurd (h.serves _ _ _ _ h2 h4).2 (Nat.lt_irrefl _)
    · split at h2
      · cases h2
        rw [hnew] at h4
        cases h4
        exact absurd (h.serves _ _ _ _ h1 h3).2 (Nat.lt_irrefl _)
      · exact h.one _ _ _ _ _ _ _ h1 h2 h3 h4
  · intro cfg' hcfg'
    rw [hcfg] at hcfg'
    cases hcfg'
    obtain ⟨wacts, hr, ha⟩ := h.reaches _ hcfg
    rw [worldEvents_append, he]
    exact ⟨wacts ++ [.connect (n.opening.request c) env wr],
      run_snoc_world.mpr ⟨_, _, _, hr, hs, rfl⟩, ha.snoc (.inr ⟨_, _, _, rfl⟩)⟩

theorem worldEvents_step (c : ServerConfig) (cfg : Config) (conns : FMap ConnId Conn)
    (l : List (TaskId × Bool)) (evs : List Event) :
    worldEvents (connacks c cfg conns l ++ evs.map .event) = evs := by
  rw [worldEvents_append, worldEvents_connacks, worldEvents_map]; rfl

theorem FrontInv.step {acts : List FrontAct} {a : FrontAct} {evs e : List FrontEvent}
    (h : FrontInv c x ext acts f evs) (hs : f.step c x ext a = some (f', e)) :
    FrontInv c x ext (acts ++ [a]) f' (evs ++ e) := by
  have hadd : ∀ p uuid random env wr,
      (hellos (acts ++ [.hello p uuid random env wr])).length = f.nextConn + 1 := by
    intros; rw [hellos_append, List.length_append, h.count]; rfl
  have hget : ∀ p uuid random env wr,
      (hellos (acts ++ [.hello p uuid random env wr]))[f.nextConn]? = some (p, uuid, random) := by
    intros
    rw [hellos_append, List.getElem?_append_right (Nat.le_of_eq h.count), h.count, Nat.sub_self]
    rfl
  have hnone : ∀ o, f.conns.get f.nextConn = some o → ∀ t final, o.stage ≠ .task t final :=
    fun o ho => absurd (h.fresh _ _ ho) (Nat.lt_irrefl _)
  have hsame : ∀ b : FrontAct, hellos [b] = [] → (hellos (acts ++ [b])).length = f.nextConn := by
    intro b hb; rw [hellos_append, hb, List.append_nil, h.count]
  have hold : ∀ {k p o m}, f.conns.get k = some ⟨p, o, .authorizing m⟩ →
      ∀ n, f.conns.get k = some n → ∀ t final, n.stage ≠ .task t final := by
    intro k p o m h1 n h2 t final h3
    rw [h1] at h2
    cases h2
    cases h3
  cases fcases hs with
  | idle _ ha =>
    constructor
    · rw [hsame a ha]
    · exact h.fresh
    · exact h.wf
    · exact fun k n hk => (h.story k n hk).mono a
    · exact h.asked
    · exact h.serves
    · exact h.one
    · rw [List.append_nil]
      intro cfg hcfg
      obtain ⟨wacts, hr, ha⟩ := h.reaches cfg hcfg
      exact ⟨wacts, hr, ha.mono _⟩
  | helloOver p uuid random env wr out ho =>
    refine h.quiet rfl rfl rfl (hadd ..) (Nat.lt_succ_self _) (Nat.le_succ _) hnone
      (fun t final e => by cases e) ⟨uuid, random, hget .., trivial⟩ ?_
    rcases ho with ⟨r, _, rfl⟩ | ⟨_, rfl⟩ <;> rfl
  | helloChallenge p uuid random env wr o m r hr =>
    exact h.quiet rfl rfl rfl (hadd ..) (Nat.lt_succ_self _) (Nat.le_succ _) hnone
      (fun t final e => by cases e) ⟨uuid, random, hget .., r, hr⟩ rfl
  | helloGo cfg hcfg p uuid random env wr o final hr w evs hw =>
    exact h.becomes hcfg (n := ⟨p, o, .task f.world.nextTask final⟩) hw rfl rfl (hadd ..)
      (Nat.lt_succ_self _) (Nat.le_succ _) hnone rfl ⟨uuid, random, hget .., .inl hr⟩
      (worldEvents_step ..)
  | authOver k b env wr p o m hk r hr =>
    obtain ⟨uuid, random, h1, _⟩ := h.story _ _ hk
    refine h.quiet rfl rfl rfl (hsame _ rfl) (h.fresh _ _ hk) (Nat.le_refl _) (hold hk)
      (fun t final e => by cases e) ⟨uuid, random, ?_, trivial⟩ rfl
    rw [hellos_append]; simpa [hellos] using h1
  | authGo cfg hcfg k b env wr p o m hk final hr w evs hw =>
    obtain ⟨uuid, random, h1, r, h2⟩ := h.story _ _ hk
    refine h.becomes hcfg (n := ⟨p, o, .task f.world.nextTask final⟩) hw rfl rfl (hsame _ rfl)
      (h.fresh _ _ hk) (Nat.le_refl _) (hold hk) rfl ⟨uuid, random, ?_, .inr ⟨m, r, b, env, wr, h2,
        List.mem_append_right _ (List.mem_singleton.2 rfl), hr⟩⟩ (worldEvents_step ..)
    rw [hellos_append]; simpa [hellos] using h1
  | stray k malformed p o m hk =>
    obtain ⟨uuid, random, h1, _⟩ := h.story _ _ hk
    refine h.quiet rfl rfl rfl (hsame _ rfl) (h.fresh _ _ hk) (Nat.le_refl _) (hold hk)
      (fun t final e => by cases e) ⟨uuid, random, ?_, trivial⟩ rfl
    rw [hellos_append]; simpa [hellos] using h1
  | leave k p o m hk =>
    obtain ⟨uuid, random, h1, _⟩ := h.story _ _ hk
    refine h.quiet rfl rfl rfl (hsame _ rfl) (h.fresh _ _ hk) (Nat.le_refl _) (hold hk)
      (fun t final e => by cases e) ⟨uuid, random, ?_, trivial⟩ rfl
    rw [hellos_append]; simpa [hellos] using h1
  | act cfg hcfg b hb w evs hw =>
    obtain ⟨r1, r2⟩ := request_other (step_cases hw) hb
    constructor
    · exact hsame _ rfl
    · exact h.fresh
    · exact h.wf
    · exact fun k n hk => (h.story k n hk).mono _
    · intro t r h1; exact h.asked t r (by rw [← r2]; exact h1)
    · intro k n t final h1 h2
      have := h.serves k n t final h1 h2
      exact ⟨(r2 t).trans this.1, by rw [r1]; exact this.2⟩
    · exact h.one
    · intro cfg' hcfg'
      rw [hcfg] at hcfg'
      cases hcfg'
      obtain ⟨wacts, hr, ha⟩ := h.reaches _ hcfg
      rw [worldEvents_append, worldEvents_step]
      exact ⟨wacts ++ [b], run_snoc_world.mpr ⟨_, _, _, hr, hw, rfl⟩, ha.snoc (.inl rfl)⟩

theorem frontInv {acts : List FrontAct} {evs : List FrontEvent}
    (h : FrontReaches c x ext acts f evs) : FrontInv c x ext acts f evs := by
  refine front_induction (P := FrontInv c x ext) ?_ (fun _ _ _ _ _ _ h hs => h.step hs) h
  constructor
  · rfl
  · intro k n h; cases h
  · exact FMap.wf_nil
  · intro k n h; cases h
  · intro t r h; cases h
  · intro k n t final h; cases h
  · intro k k' n n' t a b h; cases h
  · exact fun cfg _ => ⟨[], rfl, fun a ha => by cases ha⟩

end Akasa
