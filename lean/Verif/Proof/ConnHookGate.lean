import Verif.Proof.ConnHookInv
/-! # The connections and the hook before them -/
namespace Akasa

variable {cfg : Config} {ext : Ext} {w w' : World} {evs : List Event}
variable {flags : HookFlags} {c : ServerConfig} {x : ConnExt} {f f' f1 : Front}

/-- What a step of the handshake does to the connections. -/
structure ConnMove (c : ServerConfig) (f f1 : Front) (a : FrontAct) (fevs : List FrontEvent) :
    Prop where
  wf : f1.conns.WF
  fresh : ∀ k n, f1.conns.get k = some n → k < f1.nextConn
  next : f.nextConn ≤ f1.nextConn
  new : ∀ k n1, f1.conns.get k = some n1 → n1.stage ≠ .over →
    (∃ n, f.conns.get k = some n ∧ n.pkt = n1.pkt ∧ n.stage ≠ .over) ∨
    (k = f.nextConn ∧ ∃ uuid random env wr, a = .hello n1.pkt uuid random env wr)
  hello : (∃ p uuid random env wr, a = .hello p uuid random env wr) → f1.nextConn = f.nextConn + 1
  stay : (∀ p uuid random env wr, a ≠ .hello p uuid random env wr) → f1.nextConn = f.nextConn
  over : ∀ k n, f.conns.get k = some n → n.stage = .over →
    f1.conns.get k = some n ∧ ∀ r, .reply k r ∉ fevs
  later : ∀ k, f1.nextConn ≤ k → ∀ r, .reply k r ∉ fevs
  asked : (∀ t r, f.world.request t = some r → ∃ k n final, f.conns.get k = some n ∧
      n.stage = .task t final ∧ r = n.opening.request c) →
    ∀ t r, f1.world.request t = some r → ∃ k n final, f1.conns.get k = some n ∧
      n.stage = .task t final ∧ r = n.opening.request c

theorem reply_connacks {cfg : Config} {conns : FMap ConnId Conn} {l : List (TaskId × Bool)}
    (hwf : conns.WF) {k : ConnId} {r : Reply} (h : .reply k r ∈ connacks c cfg conns l) :
    ∃ n t final, conns.get k = some n ∧ n.stage = .task t final := by
  unfold connacks at h
  rw [List.mem_flatMap] at h
  obtain ⟨a, _, h⟩ := h
  rw [List.mem_filterMap] at h
  obtain ⟨⟨k', n⟩, hm, h⟩ := h
  split at h
  · rename_i t final hst
    split at h
    · cases h
      exact ⟨n, t, final, FMap.get_of_mem hwf hm, hst⟩
    · cases h
  · cases h

theorem asked_insert {k : ConnId} {n : Conn} {conns : FMap ConnId Conn} {w : World}
    (hno : ∀ o, conns.get k = some o → ∀ t final, o.stage ≠ .task t final)
    (h : ∀ t r, w.request t = some r → ∃ k n final, conns.get k = some n ∧
      n.stage = .task t final ∧ r = n.opening.request c) (t : TaskId) (r : Request)
    (hr : w.request t = some r) : ∃ k' n' final, (conns.insert k n).get k' = some n' ∧
      n'.stage = .task t final ∧ r = n'.opening.request c := by
  obtain ⟨k', n', final, h1, h2, h3⟩ := h t r hr
  refine ⟨k', n', final, ?_, h2, h3⟩
  rw [FMap.get_insert, if_neg]
  · exact h1
  · rintro rfl; exact hno _ h1 _ _ h2

theorem conn_move {a : FrontAct} {fevs : List FrontEvent} (hwf : f.conns.WF)
    (hfresh : ∀ k n, f.conns.get k = some n → k < f.nextConn)
    (hs : f.step c x ext a = some (f1, fevs)) : ConnMove c f f1 a fevs := by
  have hnone : ∀ o, f.conns.get f.nextConn = some o → ∀ t final, o.stage ≠ .task t final :=
    fun o ho => absurd (hfresh _ _ ho) (Nat.lt_irrefl _)
  have hold : ∀ {k p o m}, f.conns.get k = some ⟨p, o, .authorizing m⟩ →
      ∀ n, f.conns.get k = some n → ∀ t final, n.stage ≠ .task t final := by
    intro k p o m h1 n h2 t final h3
    rw [h1] at h2
    cases h2
    cases h3
  -- a connection is added
  have add : ∀ {f1 : Front} {p : ConnectPkt} {uuid random env wr} {n : Conn} {fevs : List FrontEvent},
      n.pkt = p →
      f1.conns = f.conns.insert f.nextConn n → f1.nextConn = f.nextConn + 1 →
      (∀ k r, .reply k r ∈ fevs → ∃ n, f1.conns.get k = some n ∧ (n.stage ≠ .over ∨ k = f.nextConn)) →
      ((∀ t r, f.world.request t = some r → ∃ k n final, f.conns.get k = some n ∧
        n.stage = .task t final ∧ r = n.opening.request c) →
        ∀ t r, f1.world.request t = some r → ∃ k n final, f1.conns.get k = some n ∧
        n.stage = .task t final ∧ r = n.opening.request c) →
      ConnMove c f f1 (.hello p uuid random env wr) fevs := by
    intro f1 p uuid random env wr n fevs hp hc hn hr hask
    have hfr : ∀ k n, f1.conns.get k = some n → k < f1.nextConn := by
      intro k n' h
      rw [hc, FMap.get_insert] at h
      rw [hn]
      split at h
      · rename_i e; subst e; exact Nat.lt_succ_self _
      · exact Nat.lt_succ_of_lt (hfresh _ _ h)
    refine ⟨by rw [hc]; exact FMap.wf_insert hwf _ _, hfr, by rw [hn]; exact Nat.le_succ _, ?_,
      fun _ => hn, fun h => absurd rfl (h _ _ _ _ _), ?_, ?_, hask⟩
    · intro k n1 h1 h2
      rw [hc, FMap.get_insert] at h1
      split at h1
      · rename_i e
        cases h1
        exact .inr ⟨e.symm, uuid, random, env, wr, by rw [hp]⟩
      · exact .inl ⟨n1, h1, rfl, h2⟩
    · intro k n' h1 h2
      have hk : k ≠ f.nextConn := Nat.ne_of_lt (hfresh _ _ h1)
      refine ⟨by rw [hc, FMap.get_insert, if_neg (Ne.symm hk)]; exact h1, fun r hm => ?_⟩
      obtain ⟨n2, h3, h4⟩ := hr k r hm
      rw [hc, FMap.get_insert, if_neg (Ne.symm hk), h1] at h3
      cases h3
      rcases h4 with h4 | h4
      · exact h4 h2
      · exact hk h4
    · intro k hk r hm
      obtain ⟨n2, h3, _⟩ := hr k r hm
      exact absurd (hfr _ _ h3) (Nat.not_lt.2 hk)
  -- a connection that expects AUTH changes
  have change : ∀ {f1 : Front} {a : FrontAct} {k : ConnId} {p : ConnectPkt} {o : Opening} {m}
      {st : ConnStage} {fevs : List FrontEvent}, f.conns.get k = some ⟨p, o, .authorizing m⟩ →
      (∀ p uuid random env wr, a ≠ .hello p uuid random env wr) →
      f1.conns = f.conns.insert k ⟨p, o, st⟩ → f1.nextConn = f.nextConn →
      (∀ k' r, .reply k' r ∈ fevs → ∃ n, f1.conns.get k' = some n ∧ (n.stage ≠ .over ∨ k' = k)) →
      ((∀ t r, f.world.request t = some r → ∃ k n final, f.conns.get k = some n ∧
        n.stage = .task t final ∧ r = n.opening.request c) →
        ∀ t r, f1.world.request t = some r → ∃ k n final, f1.conns.get k = some n ∧
        n.stage = .task t final ∧ r = n.opening.request c) →
      ConnMove c f f1 a fevs := by
    intro f1 a k p o m st fevs hk hne hc hn hr hask
    have hfr : ∀ k n, f1.conns.get k = some n → k < f1.nextConn := by
      intro k' n' h
      rw [hc, FMap.get_insert] at h
      rw [hn]
      split at h
      · rename_i e; subst e; exact hfresh _ _ hk
      · exact hfresh _ _ h
    refine ⟨by rw [hc]; exact FMap.wf_insert hwf _ _, hfr, by rw [hn]; exact Nat.le_refl _, ?_,
      fun ⟨p, uuid, random, env, wr, e⟩ => absurd e (hne _ _ _ _ _), fun _ => hn, ?_, ?_, hask⟩
    · intro k' n1 h1 h2
      rw [hc, FMap.get_insert] at h1
      split at h1
      · rename_i e
        subst e
        cases h1
        exact .inl ⟨_, hk, rfl, by simp⟩
      · exact .inl ⟨n1, h1, rfl, h2⟩
    · intro k' n' h1 h2
      have hkk : k' ≠ k := by rintro rfl; rw [hk] at h1; cases h1; cases h2
      refine ⟨by rw [hc, FMap.get_insert, if_neg (Ne.symm hkk)]; exact h1, fun r hm => ?_⟩
      obtain ⟨n2, h3, h4⟩ := hr k' r hm
      rw [hc, FMap.get_insert, if_neg (Ne.symm hkk), h1] at h3
      cases h3
      rcases h4 with h4 | h4
      · exact h4 h2
      · exact hkk h4
    · intro k' hk' r hm
      obtain ⟨n2, h3, _⟩ := hr k' r hm
      exact absurd (hfr _ _ h3) (Nat.not_lt.2 hk')
  -- CONNACK of the tasks
  have acks : ∀ {cfg conns l} {evs : List Event}, FMap.WF conns → ∀ k r,
      .reply k r ∈ connacks c cfg conns l ++ evs.map .event →
      ∃ n, conns.get k = some n ∧ n.stage ≠ .over := by
    intro cfg conns l evs hw k r hm
    rcases List.mem_append.1 hm with hm | hm
    · obtain ⟨n, t, final, h1, h2⟩ := reply_connacks hw hm
      exact ⟨n, h1, by rw [h2]; simp⟩
    · obtain ⟨_, _, e⟩ := List.mem_map.1 hm; cases e
  -- a task begins
  have begins : ∀ {cfg : Config} {k : ConnId} {n : Conn} {final : Option Str} {env : Env} {wr : Bool}
      {w : World} {evs : List Event},
      f.world.step cfg ext (.connect (n.opening.request c) env wr) = some (w, evs) →
      (∀ o, f.conns.get k = some o → ∀ t final, o.stage ≠ .task t final) →
      n.stage = .task f.world.nextTask final →
      (∀ t r, f.world.request t = some r → ∃ k n final, f.conns.get k = some n ∧
        n.stage = .task t final ∧ r = n.opening.request c) →
      ∀ t r, w.request t = some r → ∃ k' n' final, (f.conns.insert k n).get k' = some n' ∧
        n'.stage = .task t final ∧ r = n'.opening.request c := by
    intro cfg k n final env wr w evs hw hno hst h t r hr
    rw [(request_connect hw).2] at hr
    split at hr
    · rename_i e
      subst e
      cases hr
      exact ⟨k, n, final, FMap.get_insert_self .., hst, rfl⟩
    · exact asked_insert hno h t r hr
  cases fcases hs with
  | idle _ ha =>
    refine ⟨hwf, hfresh, Nat.le_refl _, fun k n1 h1 h2 => .inl ⟨n1, h1, rfl, h2⟩, ?_,
      fun _ => rfl, fun k n h1 h2 => ⟨h1, by simp⟩, by simp, id⟩
    rintro ⟨p, uuid, random, env, wr, rfl⟩
    cases ha
  | helloOver p uuid random env wr out ho =>
    refine add rfl rfl rfl ?_ (asked_insert hnone)
    intro k r hm
    have : k = f.nextConn := by
      rcases ho with ⟨r', _, rfl⟩ | ⟨_, rfl⟩
      · cases List.mem_singleton.1 hm; rfl
      · cases hm
    subst this
    exact ⟨_, FMap.get_insert_self .., .inr rfl⟩
  | helloChallenge p uuid random env wr o m r hr =>
    refine add rfl rfl rfl ?_ (asked_insert hnone)
    intro k r hm
    cases List.mem_singleton.1 hm
    exact ⟨_, FMap.get_insert_self .., .inr rfl⟩
  | helloGo cfg hcfg p uuid random env wr o final hr w evs hw =>
    refine add rfl rfl rfl ?_ (begins (n := ⟨p, o, .task f.world.nextTask final⟩) hw hnone rfl)
    intro k r hm
    obtain ⟨n, h1, h2⟩ := acks (FMap.wf_insert hwf _ _) k r hm
    exact ⟨n, h1, .inl h2⟩
  | authOver k b env wr p o m hk r hr =>
    refine change hk (by simp) rfl rfl ?_ (asked_insert (hold hk))
    intro k' r hm
    cases List.mem_singleton.1 hm
    exact ⟨_, FMap.get_insert_self .., .inr rfl⟩
  | authGo cfg hcfg k b env wr p o m hk final hr w evs hw =>
    refine change hk (by simp) rfl rfl ?_
      (begins (n := ⟨p, o, .task f.world.nextTask final⟩) hw (hold hk) rfl)
    intro k' r hm
    obtain ⟨n, h1, h2⟩ := acks (FMap.wf_insert hwf _ _) k' r hm
    exact ⟨n, h1, .inl h2⟩
  | stray k malformed p o m hk =>
    refine change hk (by simp) rfl rfl ?_ (asked_insert (hold hk))
    intro k' r hm
    cases List.mem_singleton.1 hm
    exact ⟨_, FMap.get_insert_self .., .inr rfl⟩
  | leave k p o m hk =>
    refine change hk (by simp) rfl rfl ?_ (asked_insert (hold hk))
    intro k' r hm
    cases hm
  | act cfg hcfg b hb w evs hw =>
    obtain ⟨r1, r2⟩ := request_other (step_cases hw) hb
    have hrep := acks (cfg := cfg) (l := acked (f.world.refusing cfg b) evs) (evs := evs) hwf
    refine ⟨hwf, hfresh, Nat.le_refl _, fun k n1 h1 h2 => .inl ⟨n1, h1, rfl, h2⟩, ?_,
      fun _ => rfl, ?_, ?_, ?_⟩
    · rintro ⟨p, uuid, random, env, wr, e⟩; cases e
    · intro k n h1 h2
      refine ⟨h1, fun r hm => ?_⟩
      obtain ⟨n', h3, h4⟩ := hrep k r hm
      rw [h1] at h3
      cases h3
      exact h4 h2
    · intro k hk r hm
      obtain ⟨n', h3, _⟩ := hrep k r hm
      exact absurd (hfresh _ _ h3) (Nat.not_lt.2 hk)
    · intro h t r hr
      exact h t r (by rw [← r2]; exact hr)

/-! ## The invariant -/

/-- What a client is told of the answer of the hook. -/
def toldOf (p : ConnectPkt) (answer : Option HookConnectCode) : List Nat :=
  match p.level.proto, answer with
  | .v5, some code => [code.byte]
  | _, _ => []

structure GateInv (flags : HookFlags) (c : ServerConfig) (f : Front) (log : List HookedEvent) :
    Prop where
  wf : f.conns.WF
  fresh : ∀ k n, f.conns.get k = some n → k < f.nextConn
  asked : ∀ t r, f.world.request t = some r → ∃ k n final, f.conns.get k = some n ∧
    n.stage = .task t final ∧ r = n.opening.request c
  gate : flags.beforeConnect = true → ∀ k n, f.conns.get k = some n → n.stage ≠ .over →
    .called (.beforeConnect k n.pkt (some .success)) ∈ log
  answered : ∀ k p a, .called (.beforeConnect k p a) ∈ log → k < f.nextConn ∧
    (a ≠ some .success → (∃ o, f.conns.get k = some ⟨p, o, .over⟩) ∧ repliesOn k log = [] ∧
      refusalsOn k log = toldOf p a)
  future : ∀ k, f.nextConn ≤ k → repliesOn k log = [] ∧ refusalsOn k log = []

theorem repliesOn_append (k : ConnId) (a b : List HookedEvent) :
    repliesOn k (a ++ b) = repliesOn k a ++ repliesOn k b := List.filterMap_append

theorem refusalsOn_append (k : ConnId) (a b : List HookedEvent) :
    refusalsOn k (a ++ b) = refusalsOn k a ++ refusalsOn k b := List.filterMap_append

/-- What a step of the hooks adds to the log besides the questions: the events of the broker (perhaps
not all of them) and calls. -/
theorem HookMove.adds {tick : HookTick} {rs : List FrontEvent} {l : List HookedEvent}
    (h : HookMove flags tick f f1 rs evs f' l) :
    f'.conns = f1.conns ∧ f'.nextConn = f1.nextConn ∧
    (∀ t, f'.world.request t = f1.world.request t) ∧
    ∀ e ∈ l, (∃ v ∈ rs ++ evs.map FrontEvent.event, e = .front v) ∨
      (∃ t p, e = .called (.afterConnect t p)) ∨ ∃ t b, e = .called (.afterDisconnect t b) := by
  cases h with
  | plain he hon =>
    refine ⟨rfl, rfl, fun _ => rfl, fun e he => ?_⟩
    obtain ⟨v, hv, rfl⟩ := List.mem_map.1 he
    exact .inl ⟨v, hv, rfl⟩
  | down t a hact he h1 h2 hon =>
    refine ⟨by split <;> rfl, by split <;> rfl, fun u => ?_, fun e he => ?_⟩
    · split
      · exact vanish_request ..
      · rfl
    · rcases List.mem_append.1 he with he | he
      · obtain ⟨v, hv, rfl⟩ := List.mem_map.1 he
        exact .inl ⟨v, hv, rfl⟩
      · unfold saysBye at he
        split at he
        · obtain rfl := List.mem_singleton.1 he; exact .inr (.inr ⟨_, _, rfl⟩)
        · cases he
  | up t p pre out req s time he hpre hold hnew hoth =>
    refine ⟨by split <;> rfl, by split <;> rfl, fun u => ?_, fun e hm => ?_⟩
    · split
      · exact vanish_request ..
      · rfl
    · rcases List.mem_append.1 hm with hm | hm
      · rcases List.mem_append.1 hm with hm | hm
        · obtain ⟨v, hv, rfl⟩ := List.mem_map.1 hm
          refine .inl ⟨v, ?_, rfl⟩
          rcases List.mem_append.1 hv with hv | hv
          · exact List.mem_append_left _ hv
          · refine List.mem_append_right _ ?_
            obtain ⟨u, hu, rfl⟩ := List.mem_map.1 hv
            refine List.mem_map_of_mem ?_
            rw [he]
            rcases List.mem_append.1 hu with hu | hu
            · exact List.mem_append_left _ hu
            · cases List.mem_singleton.1 hu; simp
        · unfold saysConnect at hm
          split at hm
          · obtain rfl := List.mem_singleton.1 hm; exact .inr (.inl ⟨_, _, rfl⟩)
          · cases hm
      · split at hm
        · cases hm
        · obtain rfl := List.mem_singleton.1 hm
          exact .inl ⟨_, List.mem_append_right _ (List.mem_map_of_mem (by rw [he]; simp)), rfl⟩

theorem HookMove.silent {tick : HookTick} {rs : List FrontEvent} {l : List HookedEvent}
    (h : HookMove flags tick f f1 rs evs f' l) (k : ConnId) :
    refusalsOn k l = [] ∧
      ((∀ r, .reply k r ∉ rs ++ evs.map FrontEvent.event) → repliesOn k l = []) ∧
      ∀ k p a, .called (.beforeConnect k p a) ∉ l := by
  have ha := h.adds.2.2.2
  refine ⟨?_, fun hr => ?_, fun k p a hm => ?_⟩
  · unfold refusalsOn
    rw [List.filterMap_eq_nil_iff]
    intro e he
    rcases ha e he with ⟨v, _, rfl⟩ | ⟨t, p, rfl⟩ | ⟨t, p, rfl⟩ <;> rfl
  · unfold repliesOn
    rw [List.filterMap_eq_nil_iff]
    intro e he
    rcases ha e he with ⟨v, hv, rfl⟩ | ⟨t, p, rfl⟩ | ⟨t, p, rfl⟩
    · cases v with
      | reply k' r =>
        simp only
        rw [if_neg]
        rintro rfl
        exact hr r hv
      | event _ => rfl
    · rfl
    · rfl
  · rcases ha _ hm with ⟨v, _, h⟩ | ⟨t, p, h⟩ | ⟨t, p, h⟩ <;> cases h

theorem asking_silent (flags : HookFlags) (f : Front) (tick : HookTick) (k : ConnId) :
    repliesOn k (asking flags f tick) = [] ∧ refusalsOn k (asking flags f tick) = [] := by
  unfold asking
  split
  · split <;> exact ⟨rfl, rfl⟩
  · exact ⟨rfl, rfl⟩

theorem mem_asking {flags : HookFlags} {f : Front} {tick : HookTick} {k : ConnId} {p : ConnectPkt}
    {a : Option HookConnectCode} (h : .called (.beforeConnect k p a) ∈ asking flags f tick) :
    flags.beforeConnect = true ∧ k = f.nextConn ∧ a = tick.before ∧
      ∃ uuid random env wr, tick.act = .hello p uuid random env wr := by
  unfold asking at h
  split at h
  · rename_i hact
    split at h
    · rename_i hf
      cases List.mem_singleton.1 h
      exact ⟨hf, rfl, rfl, _, _, _, _, hact⟩
    · cases h
  · cases h

theorem GateInv.step {tick : HookTick} {log e : List HookedEvent} (h : GateInv flags c f log)
    (hb : BrokerInv f.world) (hs : f.hookStep flags c x ext tick = some (f', e)) :
    GateInv flags c f' (log ++ e) := by
  cases hcases hb hs with
  | away p uuid random env wr hact hf hno =>
    have hask : asking flags f tick = [.called (.beforeConnect f.nextConn p tick.before)] := by
      simp [asking, hact, hf]
    have hturn : ∀ k, repliesOn k (f.turnAway c p uuid tick.before).2 = [] ∧
        refusalsOn k (f.turnAway c p uuid tick.before).2 =
          if k = f.nextConn then toldOf p tick.before else [] := by
      intro k
      unfold Front.turnAway toldOf
      simp only
      cases p.level.proto <;> cases tick.before <;>
        first
        | (constructor <;> simp [repliesOn, refusalsOn]; done)
        | (by_cases hk : k = f.nextConn <;> simp [repliesOn, refusalsOn, hk, Ne.symm hk]; done)
        | (by_cases hk : k = f.nextConn
           · simp [repliesOn, refusalsOn, hk]
           · simp [repliesOn, refusalsOn, hk, Ne.symm hk])
    have hnocall : ∀ k q a, .called (.beforeConnect k q a) ∉ (f.turnAway c p uuid tick.before).2 := by
      intro k q a hm
      unfold Front.turnAway at hm
      simp only at hm
      split at hm
      · cases List.mem_singleton.1 hm
      · cases hm
    have hlog : ∀ k, repliesOn k (log ++ (asking flags f tick ++ (f.turnAway c p uuid tick.before).2)) =
        repliesOn k log ∧
        refusalsOn k (log ++ (asking flags f tick ++ (f.turnAway c p uuid tick.before).2)) =
        refusalsOn k log ++ if k = f.nextConn then toldOf p tick.before else [] := by
      intro k
      rw [repliesOn_append, repliesOn_append, refusalsOn_append, refusalsOn_append,
        (asking_silent ..).1, (asking_silent ..).2, (hturn k).1, (hturn k).2]
      simp
    constructor
    · exact FMap.wf_insert h.wf _ _
    · intro k n hk
      simp only [FMap.get_insert] at hk ⊢
      split at hk
      · rename_i e; subst e; exact Nat.lt_succ_self _
      · exact Nat.lt_succ_of_lt (h.fresh _ _ hk)
    · exact asked_insert (fun o ho => absurd (h.fresh _ _ ho) (Nat.lt_irrefl _)) h.asked
    · intro hf k n hk hst
      simp only [FMap.get_insert] at hk
      split at hk
      · cases hk; exact absurd rfl hst
      · exact List.mem_append_left _ (h.gate hf k n hk hst)
    · intro k q a hm
      rw [(hlog k).1, (hlog k).2]
      rcases List.mem_append.1 hm with hm | hm
      · obtain ⟨h1, h2⟩ := h.answered k q a hm
        have hk : k ≠ f.nextConn := Nat.ne_of_lt h1
        refine ⟨Nat.lt_succ_of_lt h1, fun ha => ?_⟩
        obtain ⟨⟨o, h3⟩, h4, h5⟩ := h2 ha
        refine ⟨⟨o, ?_⟩, h4, by rw [if_neg hk, List.append_nil]; exact h5⟩
        simp only [FMap.get_insert, if_neg (Ne.symm hk)]
        exact h3
      · rcases List.mem_append.1 hm with hm | hm
        · rw [hask] at hm
          cases List.mem_singleton.1 hm
          refine ⟨Nat.lt_succ_self _, fun _ => ⟨⟨_, FMap.get_insert_self ..⟩, ?_, ?_⟩⟩
          · exact (h.future _ (Nat.le_refl _)).1
          · rw [(h.future _ (Nat.le_refl _)).2, if_pos rfl]; rfl
        · exact absurd hm (hnocall k q a)
    · intro k hk
      rw [(hlog k).1, (hlog k).2]
      have hlt : f.nextConn < k := hk
      obtain ⟨h1, h2⟩ := h.future k (Nat.le_of_lt hlt)
      exact ⟨h1, by rw [h2, if_neg (Nat.ne_of_gt hlt)]; rfl⟩
  | goes f1 f' rs evs l hok hs0 hrs hw hm =>
    have hmove := conn_move h.wf h.fresh hs0
    obtain ⟨a1, a2, a3, _⟩ := hm.adds
    have hsil := fun k => hm.silent k
    have hlog : ∀ k, repliesOn k (log ++ (asking flags f tick ++ l)) =
        repliesOn k log ++ repliesOn k l ∧
        refusalsOn k (log ++ (asking flags f tick ++ l)) = refusalsOn k log := by
      intro k
      rw [repliesOn_append, repliesOn_append, refusalsOn_append, refusalsOn_append,
        (asking_silent ..).1, (asking_silent ..).2, (hsil k).1]
      simp
    constructor
    · rw [a1]; exact hmove.wf
    · rw [a1, a2]; exact hmove.fresh
    · rw [a1]
      intro t r hr
      rw [a3] at hr
      exact hmove.asked h.asked t r hr
    · intro hf k n hk hst
      rw [a1] at hk
      rcases hmove.new k n hk hst with ⟨n0, h1, h2, h3⟩ | ⟨h1, uuid, random, env, wr, h2⟩
      · rw [← h2]; exact List.mem_append_left _ (h.gate hf k n0 h1 h3)
      · refine List.mem_append_right _ (List.mem_append_left _ ?_)
        have := hok hf ⟨_, _, _, _, _, h2⟩
        simp [asking, h2, hf, this, h1]
    · intro k q a hmem
      rw [(hlog k).1, (hlog k).2, a1, a2]
      rcases List.mem_append.1 hmem with hmem | hmem
      · obtain ⟨h1, h2⟩ := h.answered k q a hmem
        refine ⟨Nat.lt_of_lt_of_le h1 hmove.next, fun ha => ?_⟩
        obtain ⟨⟨o, h3⟩, h4, h5⟩ := h2 ha
        obtain ⟨h6, h7⟩ := hmove.over k _ h3 rfl
        exact ⟨⟨o, h6⟩, by rw [h4, (hsil k).2.1 h7]; rfl, h5⟩
      · rcases List.mem_append.1 hmem with hmem | hmem
        · obtain ⟨hf, rfl, rfl, uuid, random, env, wr, hact⟩ := mem_asking hmem
          refine ⟨?_, fun ha => absurd (hok hf ⟨_, _, _, _, _, hact⟩) ha⟩
          rw [hmove.hello ⟨_, _, _, _, _, hact⟩]
          exact Nat.lt_succ_self _
        · exact absurd hmem ((hsil k).2.2 k q a)
    · intro k hk
      rw [a2] at hk
      rw [(hlog k).1, (hlog k).2]
      obtain ⟨h1, h2⟩ := h.future k (Nat.le_trans hmove.next hk)
      exact ⟨by rw [h1, (hsil k).2.1 (hmove.later k hk)]; rfl, h2⟩

theorem hook_gate {ticks : List HookTick} {log : List HookedEvent}
    (h : HookReaches flags c x ext ticks f log) : BrokerInv f.world ∧ GateInv flags c f log := by
  refine hook_induction (P := fun _ f log => BrokerInv f.world ∧ GateInv flags c f log) (f0 := {})
    ⟨.init, ?_⟩ (fun _ _ _ _ _ _ h hs => ⟨hook_broker h.1 hs, h.2.step h.1 hs⟩) h
  constructor
  · exact FMap.wf_nil
  · intro k n h; cases h
  · intro t r h; cases h
  · intro _ k n h; cases h
  · intro k p a h; cases h
  · intro k _; exact ⟨rfl, rfl⟩

end Akasa
