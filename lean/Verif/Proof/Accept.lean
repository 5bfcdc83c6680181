import Verif.Spec.Accept
/-! # Lemmas for C83, C84 and C85 -/
namespace Akasa.Accept

theorem rank_afterTls (a : Args) : a.afterTls.rank ≤ 18 := by
  unfold Args.afterTls; split <;> decide

theorem rank_afterProxy (a : Args) : a.afterProxy.rank ≤ 19 := by
  unfold Args.afterProxy
  split
  · decide
  · exact Nat.le_succ_of_le (rank_afterTls a)

/-- What a stage can come to. -/
theorem await_cases {α : Type} {t t' : Task} {g : Bool} {p : Poll α} {next : α → Task}
    (h : await t g p next = some t') :
    (∃ a, p = .ready a ∧ t' = next a) ∨
    (∃ why, t' = { t with stage := .ended why } ∧ why ≠ .timeout) ∨
    (t.token = true ∧ t' = { t with stage := .ended .timeout, token := false }) := by
  unfold await at h
  cases p with
  | ready a => cases h; exact .inl ⟨a, rfl, rfl⟩
  | failed => cases h; exact .inr (.inl ⟨_, rfl, by decide⟩)
  | panic => cases h; exact .inr (.inl ⟨_, rfl, by decide⟩)
  | pending =>
    simp only at h
    split at h
    · rename_i hg
      cases h
      simp only [Bool.and_eq_true] at hg
      exact .inr (.inr ⟨hg.2, rfl⟩)
    · cases h

theorem await_none {α : Type} {t : Task} {g : Bool} {p : Poll α} {next : α → Task}
    (h : await t g p next = none) : p = .pending ∧ (g && t.token) = false := by
  unfold await at h
  cases p with
  | pending =>
    simp only at h
    split at h
    · cases h
    · rename_i hg; exact ⟨rfl, by simpa using hg⟩
  | _ => cases h

theorem stage1_args {t t' : Task} {io : Io} (h : t.stage1 io = some t') : t'.args = t.args := by
  unfold Task.stage1 at h
  split at h
  case h_11 => cases h
  case h_12 => cases h
  all_goals
    rcases await_cases h with ⟨a, _, rfl⟩ | ⟨_, rfl, _⟩ | ⟨_, rfl⟩
    · first
        | rfl
        | (unfold Task.onProxy; repeat' split
           all_goals rfl)
        | (unfold Task.onAnswer; split <;> rfl)
    · rfl
    · rfl

theorem stage1_rank {t t' : Task} {io : Io} (h : t.stage1 io = some t') :
    t'.stage.rank < t.stage.rank := by
  unfold Task.stage1 at h
  split at h
  case h_11 => cases h
  case h_12 => cases h
  all_goals
    rename_i hs
    rw [hs]
    rcases await_cases h with ⟨a, _, rfl⟩ | ⟨_, rfl, _⟩ | ⟨_, rfl⟩
  case h_1.inl =>
    unfold Task.onProxy
    have := rank_afterProxy t.args
    repeat' split
    all_goals first | exact Nat.lt_succ_of_le this | exact Nat.succ_pos _
  case h_2.inl => exact Nat.lt_succ_of_le (rank_afterTls t.args)
  case h_7.inl => unfold Task.onAnswer; split <;> simp only [Stage.rank] <;> omega
  case h_10.inl => unfold Task.onAnswer; split <;> simp only [Stage.rank] <;> omega
  all_goals (try simp only); (try split); all_goals simp only [Stage.rank] <;> omega

/-- After a poll the task has to wait. -/
theorem stages_waits (io : Io) : ∀ (fuel : Nat) (t : Task), t.stage.rank < fuel →
    (t.stages io fuel).stage1 io = none := by
  intro fuel
  induction fuel with
  | zero => intro t h; omega
  | succ n ih =>
    intro t h
    unfold Task.stages
    cases h1 : t.stage1 io with
    | none => exact h1
    | some t' =>
      have := stage1_rank h1
      exact ih t' (by omega)

theorem poll_waits (t : Task) (io : Io) : (t.poll io).stage1 io = none :=
  stages_waits io _ t (Nat.lt_succ_self _)

/-- A property kept by every stage is kept by a poll. -/
theorem stages_keep {P : Task → Prop} {io : Io}
    (h : ∀ t t', P t → t.stage1 io = some t' → P t') :
    ∀ (fuel : Nat) (t : Task), P t → P (t.stages io fuel) := by
  intro fuel
  induction fuel with
  | zero => intro t ht; exact ht
  | succ n ih =>
    intro t ht
    unfold Task.stages
    cases h1 : t.stage1 io with
    | none => exact ht
    | some t' => exact ih t' (h t t' ht h1)

theorem run_append (t : Task) (a b : List Act) : t.run (a ++ b) = (t.run a).run b := by
  simp [Task.run]

/-- The token is there, or the task is over. -/
theorem stage1_token {t t' : Task} {io : Io} (h : t.stage1 io = some t')
    (ht : t.token = true ∨ t.stage.over = true) : t'.token = true ∨ t'.stage.over = true := by
  have hn : ∀ {α : Type} {g : Bool} {p : Poll α} {next : α → Task},
      await t g p next = some t' → (∀ a, (next a).token = t.token) → t.stage.over = false →
      t'.token = true ∨ t'.stage.over = true := by
    intro α g p next h hk hov
    rcases ht with ht | ht
    · rcases await_cases h with ⟨a, _, rfl⟩ | ⟨_, rfl, _⟩ | ⟨_, rfl⟩
      · exact .inl ((hk a).trans ht)
      · exact .inr rfl
      · exact .inr rfl
    · rw [hov] at ht; cases ht
  have hp : ∀ x, (t.onProxy x).token = t.token := by
    intro x; unfold Task.onProxy; repeat' split
    all_goals rfl
  have ha : ∀ l x, (t.onAnswer l x).token = t.token := by
    intro l x; unfold Task.onAnswer; split <;> rfl
  unfold Task.stage1 at h
  split at h
  case h_11 => cases h
  case h_12 => cases h
  all_goals
    rename_i hs
    refine hn h ?_ (by rw [hs]; rfl)
    first | exact hp | exact ha _ | exact fun _ => rfl

theorem act_token (t : Task) (a : Act) (ht : t.token = true ∨ t.stage.over = true) :
    (t.act a).token = true ∨ (t.act a).stage.over = true := by
  cases a with
  | timer => exact .inl rfl
  | poll io => exact stages_keep (fun _ _ ht h => stage1_token h ht) _ t ht

theorem run_token (acts : List Act) : ∀ (t : Task), t.token = true ∨ t.stage.over = true →
    (t.run acts).token = true ∨ (t.run acts).stage.over = true := by
  induction acts with
  | nil => intro t h; exact h
  | cons a acts ih => intro t h; exact ih _ (act_token t a h)

/-- Nothing is timed out before the timer has run. -/
theorem run_untimed (acts : List Act) : ∀ (t : Task), t.token = false →
    t.stage ≠ .ended .timeout → Act.timer ∉ acts →
    (t.run acts).token = false ∧ (t.run acts).stage ≠ .ended .timeout := by
  induction acts with
  | nil => intro t h1 h2 _; exact ⟨h1, h2⟩
  | cons a acts ih =>
    intro t h1 h2 h3
    cases a with
    | timer => simp at h3
    | poll io =>
      have hk : (t.poll io).token = false ∧ (t.poll io).stage ≠ .ended .timeout := by
        refine stages_keep (P := fun t => t.token = false ∧ t.stage ≠ .ended .timeout) ?_ _ t ⟨h1, h2⟩
        rintro t t' ⟨h1, h2⟩ h
        unfold Task.stage1 at h
        split at h
        case h_11 => cases h
        case h_12 => cases h
        all_goals
          rcases await_cases h with ⟨a, _, rfl⟩ | ⟨why, rfl, hw⟩ | ⟨ht, rfl⟩
        all_goals first
          | (rw [h1] at ht; cases ht)
          | exact ⟨h1, fun he => hw (Stage.ended.inj he)⟩
          | (unfold Task.onProxy Args.afterProxy Args.afterTls; repeat' split
             all_goals exact ⟨h1, by simp⟩)
          | (unfold Task.onAnswer; split <;> exact ⟨h1, by simp⟩)
          | (unfold Args.afterTls; split <;> exact ⟨h1, by simp⟩)
          | (simp only; split <;> exact ⟨h1, by simp⟩)
          | exact ⟨h1, by simp⟩
      exact ih _ hk.1 hk.2 (by simpa using h3)

/-! ## the order of the layers -/

theorem InOrder.weaken {ps : List (Io → Prop)} {ios : List Io} (h : InOrder ps ios) (io : Io) :
    InOrder ps (ios ++ [io]) := by
  induction h with
  | nil => exact .nil
  | here hp _ ih => exact .here hp ih
  | later _ ih => exact .later ih

theorem inOrder_last {p : Io → Prop} {io : Io} (hp : p io) : ∀ (ios : List Io),
    InOrder [p] (ios ++ [io])
  | [] => .here hp .nil
  | _ :: ios => .later (inOrder_last hp ios)

theorem InOrder.snoc {ps : List (Io → Prop)} {l : List Io} (h : InOrder ps l) :
    ∀ {p : Io → Prop} {io : Io} {ios : List Io}, l = ios ++ [io] → p io → InOrder (ps ++ [p]) l := by
  induction h with
  | nil => intro p io ios hl hp; rw [hl]; exact inOrder_last hp ios
  | here hq _ ih => intro p io ios hl hp; exact .here hq (ih hl hp)
  | @later ps io0 ios0 h ih =>
    intro p io ios hl hp
    cases ios with
    | nil =>
      cases hl
      cases h
      exact .here hp .nil
    | cons x xs =>
      simp only [List.cons_append, List.cons.injEq] at hl
      exact .later (ih hl.2 hp)

theorem polls_append (a b : List Act) : polls (a ++ b) = polls a ++ polls b := by
  induction a with
  | nil => rfl
  | cons x a ih => cases x <;> simp [polls, ih]

/-- What has been passed when a stage is reached. -/
def Args.passed (a : Args) : Stage → List (Io → Prop)
  | .proxy => []
  | .tls => if a.proxy then [ProxyDone] else []
  | .websocket => (if a.proxy then [ProxyDone] else []) ++ (if a.tls then [TlsDone] else [])
  | .ended _ => []
  | .header => (if a.proxy then [ProxyDone] else []) ++ (if a.tls then [TlsDone] else []) ++
      (if a.websocket then [WebSocketDone] else [])
  | .protocol => (if a.proxy then [ProxyDone] else []) ++ (if a.tls then [TlsDone] else []) ++
      (if a.websocket then [WebSocketDone] else []) ++ [FirstIsConnect]
  | .connectV3 v => (if a.proxy then [ProxyDone] else []) ++ (if a.tls then [TlsDone] else []) ++
      (if a.websocket then [WebSocketDone] else []) ++ [FirstIsConnect] ++
      [Speaks v]
  | .handed v => (if a.proxy then [ProxyDone] else []) ++ (if a.tls then [TlsDone] else []) ++
      (if a.websocket then [WebSocketDone] else []) ++ [FirstIsConnect] ++
      [Speaks v] ++ [Accepted v]
  | .refusal => []
  | _ => (if a.proxy then [ProxyDone] else []) ++ (if a.tls then [TlsDone] else []) ++
      (if a.websocket then [WebSocketDone] else []) ++ [FirstIsConnect] ++
      [Speaks .v500]

/-- Stages that are only reached with these arguments. -/
def Args.fits (a : Args) : Stage → Prop
  | .proxy => a.proxy = true
  | .tls => a.tls = true
  | .websocket => a.websocket = true
  | .connectV3 v => v ≠ .v500
  | _ => True

/-- The invariant: what was passed, and the address. -/
structure OrderInv (t : Task) (ios : List Io) : Prop where
  fits : t.args.fits t.stage
  passed : InOrder (t.args.passed t.stage) ios
  before : t.stage = .proxy → t.peer = .socket
  plain : t.args.proxy = false → t.peer = .socket
  peer : t.args.proxy = true → t.stage ≠ .proxy → (∃ why, t.stage = .ended why) ∨
    ∃ io ∈ ios, ∃ h, io.proxy = .ready (some h) ∧ source h = some t.peer

theorem orderInv_start (a : Args) : OrderInv (Task.start a) [] := by
  unfold Task.start Args.afterProxy Args.afterTls
  cases h1 : a.proxy <;> cases h2 : a.tls <;> cases h3 : a.websocket <;>
    refine ⟨?_, ?_, fun _ => rfl, fun _ => rfl, ?_⟩ <;> simp [Args.fits, Args.passed, h1, h2, h3] <;>
    exact .nil

theorem orderInv_ended {t : Task} {ios : List Io} (h : OrderInv t ios) (why : Why) (b : Bool) :
    OrderInv { t with stage := .ended why, token := b } ios :=
  ⟨trivial, .nil, by simp, h.plain, fun _ _ => .inl ⟨why, rfl⟩⟩

/-- The address does not change after the PROXY header. -/
theorem orderInv_move {t : Task} {ios : List Io} (h : OrderInv t ios) {s : Stage}
    (hs : t.stage ≠ .proxy) (hne : ∀ why, t.stage ≠ .ended why) (hs' : s ≠ .proxy)
    (hf : t.args.fits s) (hp : InOrder (t.args.passed s) ios) :
    OrderInv { t with stage := s } ios :=
  ⟨hf, hp, fun h => absurd h hs', h.plain, fun h1 _ => .inr <| by
    rcases h.peer h1 hs with ⟨why, hw⟩ | hx
    · exact absurd hw (hne why)
    · exact hx⟩

theorem orderInv_stage1 {t t' : Task} {io : Io} {ios : List Io} (h : OrderInv t (ios ++ [io]))
    (hst : t.stage1 io = some t') : OrderInv t' (ios ++ [io]) := by
  have hsn : ∀ {p : Io → Prop}, p io → InOrder (t.args.passed t.stage ++ [p]) (ios ++ [io]) :=
    fun hp => h.passed.snoc rfl hp
  unfold Task.stage1 at hst
  split at hst
  case h_11 => cases hst
  case h_12 => cases hst
  all_goals
    rename_i hs
    rcases await_cases hst with ⟨a, hio, rfl⟩ | ⟨why, rfl, _⟩ | ⟨_, rfl⟩
  all_goals first
    | exact orderInv_ended h _ _
    | skip
  case h_1.inl =>
    have hpr : t.args.proxy = true := by have := h.fits; rw [hs] at this; exact this
    cases a with
    | none => exact orderInv_ended h _ t.token
    | some hd =>
      have hnu : ∀ (p : Peer), source hd = some p →
          OrderInv { t with peer := p, stage := t.args.afterProxy } (ios ++ [io]) := by
        intro p hsrc
        have hd1 : ProxyDone io := ⟨hd, hio, by
          intro src dst he
          rw [source, he] at hsrc
          cases hsrc⟩
        have hord : InOrder [ProxyDone] (ios ++ [io]) := inOrder_last hd1 ios
        have hmem : ∃ x ∈ ios ++ [io], ∃ h, x.proxy = .ready (some h) ∧ source h = some p :=
          ⟨io, by simp, hd, hio, hsrc⟩
        refine ⟨?_, ?_, ?_, (by intro hf; rw [hpr] at hf; cases hf), fun _ _ => .inr hmem⟩
        · simp only [Args.afterProxy, Args.afterTls]
          cases h2 : t.args.tls <;> cases h3 : t.args.websocket <;> simp [Args.fits, h2, h3]
        · simp only [Args.afterProxy, Args.afterTls]
          cases h2 : t.args.tls <;> cases h3 : t.args.websocket <;>
            simp [Args.passed, h2, h3, hpr] <;> exact hord
        · simp only [Args.afterProxy, Args.afterTls]
          cases h2 : t.args.tls <;> cases h3 : t.args.websocket <;> simp
      unfold Task.onProxy
      simp only
      cases ha : hd.addresses with
      | ipv4 a p _ _ => exact hnu (.ipv4 a p) (by simp [source, ha])
      | ipv6 a p _ _ => exact hnu (.ipv6 a p) (by simp [source, ha])
      | unix _ _ => exact orderInv_ended h _ t.token
  case h_2.inl =>
    have ht : t.args.tls = true := by have := h.fits; rw [hs] at this; exact this
    have hsn := hsn (p := TlsDone) hio
    refine orderInv_move h (by simp [hs]) (by simp [hs]) ?_ ?_ ?_
    · unfold Args.afterTls; split <;> simp
    · unfold Args.afterTls; split <;> simp_all [Args.fits]
    · rw [hs] at hsn
      unfold Args.afterTls
      split
      · simpa [Args.passed, ht] using hsn
      · rename_i hw
        simpa [Args.passed, ht, hw] using hsn
  case h_3.inl =>
    have hw : t.args.websocket = true := by have := h.fits; rw [hs] at this; exact this
    by_cases hok : subprotocolOk a = true
    · have hd : WebSocketDone io := by
        unfold subprotocolOk at hok
        cases a with
        | none => exact .inl hio
        | some p => simp only [decide_eq_true_eq] at hok; subst hok; exact .inr hio
      have hsn := hsn hd
      rw [hs] at hsn
      simp only [hok, if_true]
      exact orderInv_move h (by simp [hs]) (by simp [hs]) (by simp) trivial
        (by simpa [Args.passed, hw] using hsn)
    · simp only [hok]
      exact orderInv_ended h _ t.token
  case h_4.inl =>
    by_cases hb : a = 0x10
    · subst hb
      have hsn := hsn (p := FirstIsConnect) hio
      rw [hs] at hsn
      simp only [if_true]
      exact orderInv_move h (by simp [hs]) (by simp [hs]) (by simp) trivial
        (by simpa [Args.passed] using hsn)
    · simp only [hb, if_false]
      exact orderInv_ended h _ t.token
  case h_5.inl =>
    have hsn := hsn (p := Speaks a) hio
    rw [hs] at hsn
    by_cases hv : a = .v500
    · subst hv
      simp only [if_true]
      exact orderInv_move h (by simp [hs]) (by simp [hs]) (by simp) trivial
        (by simpa [Args.passed] using hsn)
    · simp only [hv, if_false]
      exact orderInv_move h (by simp [hs]) (by simp [hs]) (by simp) hv
        (by simpa [Args.passed] using hsn)
  case h_6.inl v =>
    have hf : v ≠ .v500 := by have := h.fits; rw [hs] at this; exact this
    cases a with
    | true =>
      have hsn := hsn (p := Accepted v) (by cases v <;> first | exact hio | exact absurd rfl hf)
      rw [hs] at hsn
      simp only [if_true]
      exact orderInv_move h (by simp [hs]) (by simp [hs]) (by simp) trivial
        (by simpa [Args.passed] using hsn)
    | false =>
      exact orderInv_move h (by simp [hs]) (by simp [hs]) (by simp) trivial .nil
  case h_7.inl =>
    have hp := h.passed
    rw [hs] at hp
    cases a with
    | accept =>
      have hsn := hsn (p := Accepted .v500) (.inl hio)
      rw [hs] at hsn
      exact orderInv_move h (by simp [hs]) (by simp [hs]) (by simp) trivial
        (by simpa [Args.passed] using hsn)
    | refuse => exact orderInv_move h (by simp [hs]) (by simp [hs]) (by simp) trivial .nil
    | challenge =>
      exact orderInv_move h (by simp [hs]) (by simp [hs]) (by simp) trivial
        (by simpa [Args.passed] using hp)
  case h_9.inl left =>
    have hp := h.passed
    rw [hs] at hp
    split
    · exact orderInv_ended h _ t.token
    · exact orderInv_move h (by simp [hs]) (by simp [hs]) (by simp) trivial
        (by simpa [Args.passed] using hp)
  case h_10.inl left =>
    have hp := h.passed
    rw [hs] at hp
    cases a with
    | accept =>
      have hsn := hsn (p := Accepted .v500) (.inr ⟨left, hio⟩)
      rw [hs] at hsn
      exact orderInv_move h (by simp [hs]) (by simp [hs]) (by simp) trivial
        (by simpa [Args.passed] using hsn)
    | refuse => exact orderInv_move h (by simp [hs]) (by simp [hs]) (by simp) trivial .nil
    | challenge =>
      exact orderInv_move h (by simp [hs]) (by simp [hs]) (by simp) trivial
        (by simpa [Args.passed] using hp)

theorem OrderInv.more {t : Task} {ios : List Io} (h : OrderInv t ios) (io : Io) :
    OrderInv t (ios ++ [io]) :=
  ⟨h.fits, h.passed.weaken io, h.before, h.plain, fun h1 h2 => by
    rcases h.peer h1 h2 with hx | ⟨x, hx, y⟩
    · exact .inl hx
    · exact .inr ⟨x, by simp [hx], y⟩⟩

theorem orderInv_run (acts : List Act) : ∀ (t : Task) (ios : List Io), OrderInv t ios →
    OrderInv (t.run acts) (ios ++ polls acts) := by
  induction acts with
  | nil => intro t ios h; simpa [polls, Task.run] using h
  | cons a acts ih =>
    intro t ios h
    cases a with
    | timer => exact ih _ ios ⟨h.fits, h.passed, h.before, h.plain, h.peer⟩
    | poll io =>
      have h1 : OrderInv (t.poll io) (ios ++ [io]) :=
        stages_keep (P := fun t => OrderInv t (ios ++ [io])) (fun _ _ h hs => orderInv_stage1 h hs) _ t
          (h.more io)
      have := ih _ _ h1
      simpa [polls, Task.run, Task.act, List.append_assoc] using this

theorem run_args (acts : List Act) : ∀ (t : Task), (t.run acts).args = t.args := by
  induction acts with
  | nil => intro t; rfl
  | cons a acts ih =>
    intro t
    refine (ih _).trans ?_
    cases a with
    | timer => rfl
    | poll io =>
      exact stages_keep (P := fun x => x.args = t.args)
        (fun _ _ h hs => (stage1_args hs).trans h) _ t rfl

end Akasa.Accept
