import Verif.Spec.Start
import Verif.Props.Accept
import Verif.Props.Auth
/-!
# C91, C92, C93: the start of the server, its listeners and the certificates of clients
-/
namespace Akasa.Start

theorem buildVerifier_admits {w : World} {l : TlsListener} {a : ClientAuth}
    (h : buildVerifier w l = some a) (hc : l.failIfNoPeerCert = true → l.verifyPeer = true)
    (chain : List Cert) (key : Bytes) (shown : Option Cert) :
    (TlsContext.mk chain key a).admits w shown = true ↔ l.Demand w shown := by
  unfold buildVerifier at h
  unfold TlsListener.Demand
  split at h
  · rename_i hv
    cases hca : l.caFile with
    | none => simp [hca] at h
    | some ca =>
      simp only [hca] at h
      cases hr : w.certs ca with
      | none => simp [hr] at h
      | some roots =>
        simp only [hr] at h
        split at h
        · cases hf : l.failIfNoPeerCert <;> simp only [hf, Option.some.injEq] at h <;> subst h <;>
            cases shown <;> simp [TlsContext.admits, hv, hr]
        · cases h
  · rename_i hv
    have hf : l.failIfNoPeerCert = false := by
      cases hf : l.failIfNoPeerCert with
      | false => rfl
      | true => exact absurd (hc hf) hv
    cases h
    simp [TlsContext.admits, hv, hf]

theorem buildTls_admits {w : World} {l : TlsListener} {c : TlsContext}
    (h : buildTls w l = some c) (hc : l.failIfNoPeerCert = true → l.verifyPeer = true)
    (shown : Option Cert) : c.admits w shown = true ↔ l.Demand w shown := by
  unfold buildTls at h
  split at h
  · cases h
  cases h1 : w.certs l.certFile with
  | none => simp [h1] at h
  | some chain =>
    cases h2 : w.key l.keyFile with
    | none => simp [h1, h2] at h
    | some key =>
      cases h3 : buildVerifier w l with
      | none => simp [h1, h2, h3] at h
      | some a =>
        simp only [h1, h2, h3] at h
        split at h
        · cases h; exact buildVerifier_admits h3 hc _ _ _
        · cases h

/-- What it takes to run. -/
theorem start_running {w : World} {s : Settings} {c : ServerConfig} {tasks : List Entry}
    {http : Option Addr} (h : start w s = .running c tasks http) :
    (s.config []).isValid = true ∧ ∃ table mqtts wss, loadTable w s = some (some table) ∧
      buildFor w s.listeners.mqtts = some mqtts ∧ buildFor w s.listeners.wss = some wss ∧
      c = s.config table ∧ tasks = tasksOf (s.listeners.entries mqtts wss) ∧
      http = s.listeners.http := by
  unfold start at h
  split at h
  · rename_i hv
    refine ⟨hv, ?_⟩
    cases h1 : loadTable w s with
    | none => simp [h1] at h
    | some o =>
      cases o with
      | none => simp [h1] at h
      | some table =>
        cases h2 : buildFor w s.listeners.mqtts with
        | none => simp [h1, h2] at h
        | some mqtts =>
          cases h3 : buildFor w s.listeners.wss with
          | none => simp [h1, h2, h3] at h
          | some wss =>
            simp only [h1, h2, h3, Outcome.running.injEq] at h
            exact ⟨table, mqtts, wss, rfl, rfl, rfl, h.1.symm, h.2.1.symm, h.2.2.symm⟩
  · cases h

theorem mem_tasksOf {es : List Entry} {e : Entry} : e ∈ tasksOf es ↔ e ∈ es := by
  simp only [tasksOf, List.mem_flatMap, List.mem_replicate]
  constructor
  · rintro ⟨a, ha, _, rfl⟩; exact ha
  · intro h; exact ⟨e, h, by split <;> simp, rfl⟩

theorem mem_entries {l : Listeners} {m ws : Option TlsContext} {e : Entry} :
    e ∈ l.entries m ws ↔
      (∃ p, l.mqtt = some p ∧ e = ⟨p.addr, p.reusePort, .mqtt p.proxyMode, none⟩) ∨
      (∃ p, l.mqtts = some p ∧ e = ⟨p.addr, p.reusePort, .mqtts p.proxy, m⟩) ∨
      (∃ p, l.ws = some p ∧ e = ⟨p.addr, p.reusePort, .ws p.proxyMode, none⟩) ∨
      (∃ p, l.wss = some p ∧ e = ⟨p.addr, p.reusePort, .wss p.proxy, ws⟩) := by
  simp only [Listeners.entries, List.mem_filterMap, List.mem_cons, List.not_mem_nil, or_false, id_eq,
    exists_eq_right]
  rw [eq_comm (a := some e), eq_comm (a := some e), eq_comm (a := some e), eq_comm (a := some e)]
  simp only [Option.map_eq_some_iff]
  simp only [eq_comm (b := e)]

/-- **C91, partial**: if the server runs, a listener with TLS lets through exactly those clients whose
certificate is as its settings demand.  Missing: `fail_if_no_peer_cert` without `verify_peer`
(`C91_false`). -/
theorem C91_partial {w : World} {s : Settings} {c : ServerConfig} {tasks : List Entry}
    {http : Option Addr} (h : start w s = .running c tasks http) {e : Entry} (he : e ∈ tasks)
    {l : TlsListener} (hl : s.tlsListener e.listener = some l)
    (hc : l.failIfNoPeerCert = true → l.verifyPeer = true) :
    ∃ ctx, e.tls = some ctx ∧ ∀ shown, ctx.admits w shown = true ↔ l.Demand w shown := by
  obtain ⟨_, table, mqtts, wss, _, h2, h3, _, rfl, _⟩ := start_running h
  rw [mem_tasksOf, mem_entries] at he
  rcases he with ⟨p, hp, rfl⟩ | ⟨p, hp, rfl⟩ | ⟨p, hp, rfl⟩ | ⟨p, hp, rfl⟩
  · cases hl
  · simp only [Settings.tlsListener, hp, Option.some.injEq] at hl
    subst hl
    rw [hp] at h2
    simp only [buildFor, Option.map_eq_some_iff] at h2
    obtain ⟨ctx, h2, rfl⟩ := h2
    exact ⟨ctx, rfl, buildTls_admits h2 hc⟩
  · cases hl
  · simp only [Settings.tlsListener, hp, Option.some.injEq] at hl
    subst hl
    rw [hp] at h3
    simp only [buildFor, Option.map_eq_some_iff] at h3
    obtain ⟨ctx, h3, rfl⟩ := h3
    exact ⟨ctx, rfl, buildTls_admits h3 hc⟩

theorem inOrder_mem {ps : List (Accept.Io → Prop)} {ios : List Accept.Io}
    (h : Accept.InOrder ps ios) : ∀ p ∈ ps, ∃ io ∈ ios, p io := by
  induction h with
  | nil => intro p hp; cases hp
  | here hp _ ih =>
    intro q hq
    rcases List.mem_cons.1 hq with rfl | hq
    · exact ⟨_, List.mem_cons_self .., hp⟩
    · exact ih q hq
  | later _ ih =>
    intro q hq
    obtain ⟨io, h1, h2⟩ := ih q hq
    exact ⟨io, List.mem_cons_of_mem _ h1, h2⟩

/-- **C91, partial**, to the end: on such a listener a client becomes connected only if its
certificate is as demanded. -/
theorem C91_connected_partial {w : World} {s : Settings} {c : ServerConfig} {tasks : List Entry}
    {http : Option Addr} (h : start w s = .running c tasks http) {e : Entry} (he : e ∈ tasks)
    {l : TlsListener} (hl : s.tlsListener e.listener = some l)
    (hc : l.failIfNoPeerCert = true → l.verifyPeer = true) {ctx : TlsContext}
    (hctx : e.tls = some ctx) {shown : Option Cert} {acts : List Accept.Act}
    (ho : TlsObeys w ctx shown acts) {v : Accept.Version}
    (hr : ((Accept.Task.start e.listener.args).run acts).stage = .handed v) :
    l.Demand w shown := by
  obtain ⟨ctx', h1, h2⟩ := C91_partial h he hl hc
  rw [hctx] at h1
  cases h1
  have h3 := inOrder_mem (Accept.C84_layers e.listener acts v hr)
  have h4 : Accept.TlsDone ∈ e.listener.layers := by
    cases hk : e.listener with
    | mqtt p => rw [hk] at hl; cases hl
    | ws p => rw [hk] at hl; cases hl
    | mqtts p => cases p <;> simp [Accept.Listener.layers]
    | wss p => cases p <;> simp [Accept.Listener.layers]
  obtain ⟨io, h5, h6⟩ := h3 _ (List.mem_append.2 (.inl h4))
  exact (h2 shown).1 (ho io h5 h6)

/-- Files and functions for the examples: certificate 7 is issued by authority 1. -/
def exWorld : World where
  certs p := if p = "ca".toList then some [[1]] else if p = "cert".toList then some [[2]] else none
  key p := if p = "key".toList then some [3] else none
  text p := if p = "passwords".toList then some [] else none
  anchor _ := true
  pair chain key := decide (chain = [[2]] ∧ key = [3])
  issuedBy roots cert := decide (roots = [[1]] ∧ cert = [7])
  auth := Auth.exX

/-- A listener with TLS. -/
def exTls (verify fail : Bool) : TlsListener :=
  { addr := 8883, reusePort := false, proxy := false, caFile := some "ca".toList
    keyFile := "key".toList, certFile := "cert".toList, verifyPeer := verify
    failIfNoPeerCert := fail }

/-- Settings with a plain listener and one with TLS. -/
def exSettings (verify fail : Bool) : Settings :=
  { listeners :=
      { mqtt := some { addr := 1883, reusePort := true, proxyMode := none }
        mqtts := some (exTls verify fail) }
    passwordFile := some "passwords".toList
    rest := { authEnable := true } }

/-- The context of the example. -/
def exCtx (clients : ClientAuth) : TlsContext := { chain := [[2]], key := [3], clients }

/-- The tasks of the example. -/
def exTasks (clients : ClientAuth) : List Entry :=
  List.replicate 4 ⟨1883, true, .mqtt none, none⟩ ++ [⟨8883, false, .mqtts false, some (exCtx clients)⟩]

theorem exRunning (verify fail : Bool) :
    start exWorld (exSettings verify fail) = .running ((exSettings verify fail).config [])
      (exTasks (if verify then (if fail then .required [[1]] else .optional [[1]]) else .none))
      none := by
  cases verify <;> cases fail <;> rfl

/-- With both settings on, the client with certificate 7 gets in, those with none or another do not. -/
example : ∃ e ∈ exTasks (.required [[1]]), (exSettings true true).tlsListener e.listener = some (exTls true true) ∧
    e.tls = some (exCtx (.required [[1]])) ∧
    (exCtx (.required [[1]])).admits exWorld (some [7]) = true ∧
    (exCtx (.required [[1]])).admits exWorld (some [8]) = false ∧
    (exCtx (.required [[1]])).admits exWorld none = false :=
  ⟨⟨8883, false, .mqtts false, some (exCtx (.required [[1]]))⟩, by decide, rfl, rfl, by decide, by decide,
    by decide⟩

/-- A client connects over TLS with certificate 7. -/
example : TlsObeys exWorld (exCtx (.required [[1]])) (some [7])
      [.poll { tls := .ready () }, .poll { header := .ready 0x10, protocol := .ready .v311 },
       .poll { connectV3 := .ready true }] ∧
    ((Accept.Task.start (Accept.Listener.mqtts false).args).run
      [.poll { tls := .ready () }, .poll { header := .ready 0x10, protocol := .ready .v311 },
       .poll { connectV3 := .ready true }]).stage = .handed .v311 :=
  ⟨fun _ _ _ => by decide, by decide⟩

/-- **C91 is false of the code** for `fail_if_no_peer_cert` without `verify_peer`: the settings are
accepted, the server runs, and a client without a certificate is let through. -/
theorem C91_false : ∃ (w : World) (s : Settings) (c : ServerConfig) (tasks : List Entry)
    (http : Option Addr) (e : Entry) (l : TlsListener) (ctx : TlsContext),
    start w s = .running c tasks http ∧ e ∈ tasks ∧ s.tlsListener e.listener = some l ∧
    l.failIfNoPeerCert = true ∧ e.tls = some ctx ∧ ctx.admits w none = true ∧ ¬ l.Demand w none :=
  ⟨exWorld, exSettings false true, _, _, _, ⟨8883, false, .mqtts false, some (exCtx .none)⟩,
    exTls false true, exCtx .none, exRunning false true, by decide, rfl, rfl, rfl, by decide,
    fun h => h.1 rfl rfl⟩

/-! ## C92 -/

theorem buildTls_ready {w : World} {l : TlsListener} :
    (∃ c, buildTls w l = some c) ↔ TlsReady w l := by
  constructor
  · rintro ⟨c, h⟩
    unfold buildTls at h
    split at h
    · cases h
    cases h1 : w.certs l.certFile with
    | none => simp [h1] at h
    | some chain =>
      cases h2 : w.key l.keyFile with
      | none => simp [h1, h2] at h
      | some key =>
        cases h3 : buildVerifier w l with
        | none => simp [h1, h2, h3] at h
        | some a =>
          simp only [h1, h2, h3] at h
          split at h
          · rename_i hp
            refine ⟨⟨chain, key, h1, h2, hp⟩, fun hv => ?_⟩
            unfold buildVerifier at h3
            rw [if_pos hv] at h3
            cases h4 : l.caFile with
            | none => simp [h4] at h3
            | some ca =>
              cases h5 : w.certs ca with
              | none => simp [h4, h5] at h3
              | some roots =>
                simp only [h4, h5] at h3
                split at h3
                · rename_i h6
                  simp only [Bool.and_eq_true, List.all_eq_true] at h6
                  refine ⟨ca, roots, rfl, h5, ?_, h6.1⟩
                  rintro rfl
                  exact absurd h6.2 (by decide)
                · cases h3
          · cases h
  · rintro ⟨⟨chain, key, h1, h2, hp⟩, hr⟩
    unfold buildTls
    cases hv : l.verifyPeer with
    | false => simp [h1, h2, buildVerifier, hv, hp]
    | true =>
      obtain ⟨ca, roots, h4, h5, h6, h7⟩ := hr hv
      have h8 : roots.all w.anchor = true := List.all_eq_true.2 h7
      have h9 : roots.isEmpty = false := by cases roots with
        | nil => exact absurd rfl h6
        | cons _ _ => rfl
      simp [h1, h2, buildVerifier, hv, hp, h4, h5, h8, h9]

theorem buildFor_ready {w : World} {o : Option TlsListener} :
    (∃ c, buildFor w o = some c) ↔ ∀ l, o = some l → TlsReady w l := by
  cases o with
  | none => exact ⟨fun _ l hl => (by cases hl), fun _ => ⟨none, rfl⟩⟩
  | some l =>
    constructor
    · rintro ⟨c, h⟩ l' hl
      cases hl
      simp only [buildFor, Option.map_eq_some_iff] at h
      obtain ⟨c', h, _⟩ := h
      exact buildTls_ready.1 ⟨c', h⟩
    · intro h
      obtain ⟨c, hc⟩ := buildTls_ready.2 (h l rfl)
      exact ⟨some c, by simp [buildFor, hc]⟩

theorem loadTable_some {w : World} {s : Settings} {t : Auth.Table} :
    loadTable w s = some (some t) ↔ PasswordsOf w s t := by
  unfold loadTable PasswordsOf
  split
  · cases h1 : s.passwordFile with
    | none => simp
    | some path =>
      cases h2 : w.text path with
      | none => simp [h2]
      | some text => simp [h2]
  · simp [eq_comm]

theorem usable_iff (s : Settings) : (s.config []).isValid = true ↔ s.Usable := by
  have hl : s.listeners.any = true ↔ (s.listeners.mqtt ≠ none ∨ s.listeners.mqtts ≠ none ∨
      s.listeners.ws ≠ none ∨ s.listeners.wss ≠ none ∨ s.listeners.http ≠ none) := by
    unfold Listeners.any
    cases s.listeners.mqtt <;> cases s.listeners.mqtts <;> cases s.listeners.ws <;>
      cases s.listeners.wss <;> cases s.listeners.http <;> simp
  have hv : (s.config []).isValid = true ↔ ¬ (s.rest.authEnable = true ∧ s.passwordFile = none) ∧
      ¬ s.rest.maxAllowedQos > 2 ∧ ¬ s.rest.maxPacketSizeClient = 0 ∧
      ¬ s.rest.maxPacketSizeServer = 0 ∧ (∀ m ∈ s.rest.saslMechanisms, m = .scramSha256) ∧
      (∀ e ∈ s.rest.scramUsers, ¬ e.2.iterations < 4096) ∧ s.listeners.any = true := by
    have key : ∀ (p : Prop) [Decidable p] (x : Bool), (if p then false else x) = true ↔ ¬ p ∧ x = true := by
      intro p _ x
      by_cases h : p <;> simp [h]
    unfold ServerConfig.isValid
    rw [key, key, key, key, key, key]
    refine and_congr ?_ (and_congr Iff.rfl (and_congr Iff.rfl (and_congr Iff.rfl (and_congr ?_
      (and_congr ?_ Iff.rfl)))))
    · show ¬ (s.rest.authEnable && !s.passwordFile.isSome) = true ↔ _
      cases s.rest.authEnable <;> cases s.passwordFile <;> simp
    · show ¬ s.rest.saslMechanisms.any _ = true ↔ _
      simp
    · show ¬ List.any s.rest.scramUsers _ = true ↔ _
      simp
  rw [hv, hl]
  constructor
  · rintro ⟨h1, h2, h3, h4, h5, h6, h7⟩
    refine ⟨h7, fun ha => ?_, by omega, by omega, by omega, h5, fun e he => by have := h6 e he; omega⟩
    cases hp : s.passwordFile with
    | none => exact absurd ⟨ha, hp⟩ h1
    | some path => exact ⟨path, rfl⟩
  · rintro ⟨h7, h1, h2, h3, h4, h5, h6⟩
    refine ⟨fun ⟨ha, hp⟩ => ?_, by omega, by omega, by omega, h5, fun e he => by have := h6 e he; omega, h7⟩
    obtain ⟨path, h⟩ := h1 ha
    rw [hp] at h; cases h

/-- **C92**, when: the server runs exactly if the settings make sense, the passwords can be loaded if
they are needed, and the files of every listener with TLS can be used; it runs with these passwords. -/
theorem C92_starts (w : World) (s : Settings) :
    (∃ c tasks http, start w s = .running c tasks http) ↔
      s.Usable ∧ (∃ t, PasswordsOf w s t) ∧
      (∀ l, s.listeners.mqtts = some l → TlsReady w l) ∧
      (∀ l, s.listeners.wss = some l → TlsReady w l) := by
  rw [← usable_iff]
  constructor
  · rintro ⟨c, tasks, http, h⟩
    obtain ⟨h1, table, mqtts, wss, h2, h3, h4, _⟩ := start_running h
    exact ⟨h1, ⟨table, loadTable_some.1 h2⟩, buildFor_ready.1 ⟨_, h3⟩, buildFor_ready.1 ⟨_, h4⟩⟩
  · rintro ⟨h1, ⟨t, h2⟩, h3, h4⟩
    obtain ⟨m, h3⟩ := buildFor_ready.2 h3
    obtain ⟨ws, h4⟩ := buildFor_ready.2 h4
    exact ⟨_, _, _, by unfold start; rw [if_pos h1, loadTable_some.2 h2, h3, h4]⟩

/-- **C92**, otherwise: it ends with an error and never panics. -/
theorem C92_no_panic (w : World) (s : Settings) : start w s ≠ .panic := by
  unfold start
  split
  · rename_i hv
    cases h1 : loadTable w s with
    | none => simp
    | some o =>
      cases o with
      | none =>
        exfalso
        unfold loadTable at h1
        split at h1
        · rename_i ha
          cases h2 : s.passwordFile with
          | none =>
            have : (s.config []).isValid = false := by
              unfold ServerConfig.isValid
              rw [if_pos (by simp [Settings.config, ha, h2])]
            rw [this] at hv
            cases hv
          | some path =>
            rw [h2] at h1
            simp only at h1
            cases h3 : w.text path <;> simp [h3] at h1
        · cases h1
      | some t =>
        simp only
        repeat' split
        all_goals simp
  · simp

theorem count_entries {l : Listeners} {m ws : Option TlsContext} {e : Entry}
    (h : e ∈ l.entries m ws) : (l.entries m ws).count e = 1 := by
  have hn : (l.entries m ws).Nodup := by
    unfold Listeners.entries
    cases l.mqtt <;> cases l.mqtts <;> cases l.ws <;> cases l.wss <;> simp
  have h1 := List.nodup_iff_count.1 hn e
  have h2 := List.count_pos_iff.2 h
  omega

theorem count_tasksOf (es : List Entry) (e : Entry) :
    (tasksOf es).count e = es.count e * (if e.reusePort then 4 else 1) := by
  induction es with
  | nil => simp [tasksOf]
  | cons a es ih =>
    have : tasksOf (a :: es) = List.replicate (if a.reusePort then 4 else 1) a ++ tasksOf es := rfl
    rw [this, List.count_append, ih, List.count_replicate, List.count_cons]
    by_cases h : a = e
    · subst h
      simp [Nat.add_mul, Nat.add_comm]
    · simp [h]

/-- **C92**, what: there are tasks exactly for the listeners in the settings, each with the layers of
its kind and the address and the proxy setting given for it; a task has a TLS context exactly if its
listener is one with TLS, and then it is made from the settings of that listener.  There are four
tasks if the port may be shared and one if not.  HTTP is served exactly if the settings say so. -/
theorem C92_exact {w : World} {s : Settings} {c : ServerConfig} {tasks : List Entry}
    {http : Option Addr} (h : start w s = .running c tasks http) :
    (∀ addr reuse listener, (∃ tls, ⟨addr, reuse, listener, tls⟩ ∈ tasks) ↔
      Configured s addr reuse listener) ∧
    (∀ e ∈ tasks, (e.tls.isSome = true ↔ isTls e.listener = true) ∧
      (∀ l ctx, s.tlsListener e.listener = some l → e.tls = some ctx → buildTls w l = some ctx)) ∧
    (∀ e ∈ tasks, tasks.count e = if e.reusePort then 4 else 1) ∧
    http = s.listeners.http ∧ PasswordsOf w s c.passwords := by
  obtain ⟨_, table, mqtts, wss, h1, h2, h3, rfl, rfl, rfl⟩ := start_running h
  refine ⟨fun addr reuse listener => ⟨?_, ?_⟩, fun e he => ?_, fun e he => ?_, rfl, loadTable_some.1 h1⟩
  · rintro ⟨tls, he⟩
    rw [mem_tasksOf, mem_entries] at he
    rcases he with ⟨p, hp, he⟩ | ⟨p, hp, he⟩ | ⟨p, hp, he⟩ | ⟨p, hp, he⟩ <;> cases he
    · exact .mqtt hp
    · exact .mqtts hp
    · exact .ws hp
    · exact .wss hp
  · intro hc
    cases hc with
    | mqtt hp => exact ⟨none, mem_tasksOf.2 (mem_entries.2 (.inl ⟨_, hp, rfl⟩))⟩
    | mqtts hp => exact ⟨mqtts, mem_tasksOf.2 (mem_entries.2 (.inr (.inl ⟨_, hp, rfl⟩)))⟩
    | ws hp => exact ⟨none, mem_tasksOf.2 (mem_entries.2 (.inr (.inr (.inl ⟨_, hp, rfl⟩))))⟩
    | wss hp => exact ⟨wss, mem_tasksOf.2 (mem_entries.2 (.inr (.inr (.inr ⟨_, hp, rfl⟩))))⟩
  · rw [mem_tasksOf, mem_entries] at he
    rcases he with ⟨p, hp, rfl⟩ | ⟨p, hp, rfl⟩ | ⟨p, hp, rfl⟩ | ⟨p, hp, rfl⟩
    · exact ⟨by simp [isTls], fun l ctx hl => by cases hl⟩
    · rw [hp] at h2
      simp only [buildFor, Option.map_eq_some_iff] at h2
      obtain ⟨ctx, h2, rfl⟩ := h2
      refine ⟨by simp [isTls], fun l ctx' hl hc => ?_⟩
      simp only [Settings.tlsListener, hp, Option.some.injEq] at hl
      cases hc
      rw [← hl]; exact h2
    · exact ⟨by simp [isTls], fun l ctx hl => by cases hl⟩
    · rw [hp] at h3
      simp only [buildFor, Option.map_eq_some_iff] at h3
      obtain ⟨ctx, h3, rfl⟩ := h3
      refine ⟨by simp [isTls], fun l ctx' hl hc => ?_⟩
      simp only [Settings.tlsListener, hp, Option.some.injEq] at hl
      cases hc
      rw [← hl]; exact h3
  · rw [count_tasksOf, count_entries (mem_tasksOf.1 he), Nat.one_mul]

/-- The server of the example runs, with four tasks for the plain listener and one for TLS. -/
example : (exTasks (.required [[1]])).length = 5 ∧
    start exWorld (exSettings true true) = .running ((exSettings true true).config [])
      (exTasks (.required [[1]])) none := ⟨rfl, exRunning true true⟩

/-! ## C93 -/

theorem set_phase (s : Server) (i j : Nat) (p : Phase) :
    (s.set i p).phase j = if j = i then p else s.phase j := rfl

theorem run_append_server (s : Server) (a b : List Event) : s.run (a ++ b) = (s.run a).run b :=
  List.foldl_append ..

/-- What is not about a task does not change it. -/
theorem step_apart {s : Server} {i : Nat} {ev : Event} (h : ev.at i = false) :
    (s.step ev).phase i = s.phase i ∧ (s.step ev).servedAt i = s.servedAt i := by
  cases ev with
  | opened j ok =>
    have : ¬ i = j := fun e => of_decide_eq_false h e.symm
    simp only [Server.step]
    split <;> simp [set_phase, this, Server.servedAt, Server.set]
  | arrives j k =>
    have : ¬ i = j := fun e => of_decide_eq_false h e.symm
    simp only [Server.step]
    split
    · split <;> simp [set_phase, this, Server.servedAt, Server.set]
    · simp
  | accepts j ok =>
    have : ¬ i = j := fun e => of_decide_eq_false h e.symm
    have h' : ¬ j = i := of_decide_eq_false h
    simp only [Server.step]
    split
    · split
      · split
        · simp
        · simp [this, h', Server.servedAt, Server.set]
      · simp [set_phase, this, Server.servedAt, Server.set]
    · simp
  | wakes j =>
    have : ¬ i = j := fun e => of_decide_eq_false h e.symm
    simp only [Server.step]
    split <;> simp [set_phase, this, Server.servedAt, Server.set]
  | httpOpened ok => simp only [Server.step]; split <;> simp [Server.servedAt]
  | httpEnds => simp only [Server.step]; split <;> simp [Server.servedAt]

/-- **C93**, apart: what happens at the other listeners, and to HTTP, changes nothing at this one. -/
theorem C93_apart (s : Server) (i : Nat) (evs : List Event) (h : ∀ ev ∈ evs, ev.at i = false) :
    (s.run evs).phase i = s.phase i ∧ (s.run evs).servedAt i = s.servedAt i := by
  induction evs generalizing s with
  | nil => exact ⟨rfl, rfl⟩
  | cons ev evs ih =>
    obtain ⟨h1, h2⟩ := ih (s.step ev) fun e he => h e (List.mem_cons_of_mem _ he)
    obtain ⟨h3, h4⟩ := step_apart (s := s) (h ev (List.mem_cons_self ..))
    exact ⟨h1.trans h3, h2.trans h4⟩

/-- **C93**, never given up: whatever has happened, a task waits for connections, or does so once the
socket can be opened, at the latest after its pause. -/
theorem C93_returns (http : Option Addr) (evs : List Event) (i : Nat) :
    ((Server.init http).run evs).IsListening i ∨
    ((Server.init http).run (evs ++ [.opened i true])).IsListening i ∨
    ((Server.init http).run (evs ++ [.wakes i, .opened i true])).IsListening i := by
  rw [run_append_server, run_append_server]
  generalize (Server.init http).run evs = s
  cases hp : s.phase i with
  | listening q => exact .inl ⟨q, hp⟩
  | opening =>
    refine .inr (.inl ⟨[], ?_⟩)
    simp [Server.run, Server.step, hp, set_phase]
  | pausing =>
    refine .inr (.inr ⟨[], ?_⟩)
    simp [Server.run, Server.step, hp, set_phase]

/-- **C93**, the process does not end while there is a listener for clients. -/
theorem C93_stays {w : World} {s : Settings} {c : ServerConfig} {tasks : List Entry}
    {http : Option Addr} (h : start w s = .running c tasks http) {addr : Addr} {reuse : Bool}
    {listener : Accept.Listener} (hl : Configured s addr reuse listener) (evs : List Event) :
    ((Server.init http).run evs).returned tasks.length = false := by
  obtain ⟨tls, he⟩ := ((C92_exact h).1 addr reuse listener).2 hl
  have : tasks.length ≠ 0 := by
    intro h0
    rw [List.length_eq_zero_iff.1 h0] at he
    cases he
  unfold Server.returned
  cases h1 : tasks.length with
  | zero => exact absurd h1 this
  | succ n => rfl

/-- What becomes of a connection that waits, in one step without a failing `accept`. -/
theorem wait_step {s : Server} {i : Nat} {k : Conn} {q1 q2 : List Conn} {ev : Event}
    (hp : s.phase i = .listening (q1 ++ k :: q2)) (hf : ev ≠ .accepts i false) :
    (k ∈ (s.step ev).servedAt i) ∨ ∃ q1' q2', (s.step ev).phase i = .listening (q1' ++ k :: q2') ∧
      q1'.length + acceptsAt i [ev] = q1.length := by
  by_cases ha : ev.at i = true
  · cases ev with
    | opened j ok =>
      cases of_decide_eq_true ha
      exact .inr ⟨q1, q2, by simp [Server.step, hp], by simp [acceptsAt]⟩
    | arrives j k' =>
      cases of_decide_eq_true ha
      refine .inr ?_
      by_cases hq : (q1 ++ k :: q2).length < backlog
      · exact ⟨q1, q2 ++ [k'], by simp only [Server.step, hp, if_pos hq, set_phase]; simp,
          by simp [acceptsAt]⟩
      · exact ⟨q1, q2, by simp only [Server.step, hp, if_neg hq], by simp [acceptsAt]⟩
    | accepts j ok =>
      cases of_decide_eq_true ha
      cases ok with
      | false => exact absurd rfl hf
      | true =>
        cases q1 with
        | nil =>
          refine .inl ?_
          simp [Server.step, hp, Server.servedAt]
        | cons a q1 =>
          refine .inr ⟨q1, q2, ?_, by simp [acceptsAt]⟩
          simp [Server.step, hp, Server.set]
    | wakes j =>
      cases of_decide_eq_true ha
      exact .inr ⟨q1, q2, by simp [Server.step, hp], by simp [acceptsAt]⟩
    | httpOpened ok => cases ha
    | httpEnds => cases ha
  · have ha : ev.at i = false := Bool.eq_false_iff.2 ha
    refine .inr ⟨q1, q2, (step_apart ha).1.trans hp, ?_⟩
    have : ev ≠ .accepts i true := by rintro rfl; simp [Event.at] at ha
    simp [acceptsAt, this]

theorem served_step {s : Server} {i : Nat} {k : Conn} (ev : Event) (h : k ∈ s.servedAt i) :
    k ∈ (s.step ev).servedAt i := by
  have key : ∀ s' : Server, (∃ l, s'.served = s.served ++ l) → k ∈ s'.servedAt i := by
    rintro s' ⟨l, hl⟩
    simp only [Server.servedAt, hl, List.filterMap_append, List.mem_append]
    exact .inl h
  refine key _ ?_
  cases ev <;> simp only [Server.step] <;> repeat' split
  all_goals first
    | exact ⟨_, rfl⟩
    | exact ⟨[], by simp [Server.set]⟩

/-- **C93, partial**: a connection that finds its listener open, with room for it, is served, as soon
as those before it and this one have been accepted, unless an `accept` fails there.  Missing: that the
failure for one connection does not concern the others (`C93_false`). -/
theorem C93_served_partial (s : Server) (i : Nat) (k : Conn) (queue : List Conn) (post : List Event)
    (hp : s.phase i = .listening queue) (hr : queue.length < backlog)
    (hf : .accepts i false ∉ post) (ha : queue.length < acceptsAt i post) :
    k ∈ (s.run (.arrives i k :: post)).servedAt i := by
  have h1 : (s.step (.arrives i k)).phase i = .listening (queue ++ k :: []) := by
    simp [Server.step, hp, if_pos hr, set_phase]
  have key : ∀ (post : List Event) (s : Server) (q1 q2 : List Conn),
      s.phase i = .listening (q1 ++ k :: q2) → .accepts i false ∉ post →
      q1.length < acceptsAt i post → k ∈ (s.run post).servedAt i := by
    intro post
    induction post with
    | nil => intro s q1 q2 _ _ h; simp [acceptsAt] at h
    | cons ev post ih =>
      intro s q1 q2 hp hf ha
      have hf' : .accepts i false ∉ post := fun h => hf (List.mem_cons_of_mem _ h)
      rcases wait_step hp (fun h => hf (h ▸ List.mem_cons_self ..)) with h | ⟨q1', q2', h2, h3⟩
      · have : ∀ (post : List Event) (s : Server), k ∈ s.servedAt i → k ∈ (s.run post).servedAt i := by
          intro post
          induction post with
          | nil => intro s h; exact h
          | cons ev post ih => intro s h; exact ih _ (served_step ev h)
        exact this post _ h
      · refine ih _ q1' q2' h2 hf' ?_
        have : acceptsAt i (ev :: post) = acceptsAt i [ev] + acceptsAt i post := by
          unfold acceptsAt
          rw [← List.count_append]
          rfl
        omega
  exact key post _ queue [] h1 hf ha

/-- The listener of task 0 is open and has one connection waiting. -/
def exOpen : Server := (Server.init none).run [.opened 0 false, .wakes 0, .opened 0 true, .arrives 0 5]

example : exOpen.phase 0 = .listening [5] ∧
    (exOpen.run (.arrives 0 6 :: [.accepts 0 true, .accepts 1 false, .accepts 0 true])).servedAt 0
      = [5, 6] := by decide

/-- No step makes connections out of nothing. -/
theorem served_count (i : Nat) (k : Conn) : ∀ (evs : List Event) (s : Server),
    ((s.run evs).servedAt i).count k +
        (match (s.run evs).phase i with | .listening q => q.count k | _ => 0) ≤
      (s.servedAt i).count k + (match s.phase i with | .listening q => q.count k | _ => 0)
        + evs.count (.arrives i k) := by
  intro evs
  induction evs with
  | nil => intro s; simp [Server.run]
  | cons ev evs ih =>
    intro s
    refine Nat.le_trans (ih (s.step ev)) ?_
    rw [List.count_cons]
    suffices h : ((s.step ev).servedAt i).count k +
        (match (s.step ev).phase i with | .listening q => q.count k | _ => 0) ≤
        (s.servedAt i).count k + (match s.phase i with | .listening q => q.count k | _ => 0)
          + (if ev == .arrives i k then 1 else 0) by omega
    by_cases ha : ev.at i = true
    · cases ev with
      | opened j ok =>
        cases of_decide_eq_true ha
        cases hp : s.phase i with
        | opening => cases ok <;> simp [Server.step, hp, set_phase, Server.servedAt, Server.set]
        | listening q => simp [Server.step, hp]
        | pausing => simp [Server.step, hp]
      | arrives j k' =>
        cases of_decide_eq_true ha
        cases hp : s.phase i with
        | opening => simp [Server.step, hp]
        | pausing => simp [Server.step, hp]
        | listening q =>
          by_cases hq : q.length < backlog
          · simp only [Server.step, hp, if_pos hq, set_phase, Server.servedAt, Server.set, if_true,
              List.count_append]
            by_cases hk : k' = k
            · subst hk; simp [Nat.add_assoc]
            · have : (Event.arrives i k' == Event.arrives i k) = false := by simp [hk]
              simp [this, hk]
          · simp [Server.step, hp, if_neg hq]
      | accepts j ok =>
        cases of_decide_eq_true ha
        cases hp : s.phase i with
        | opening => simp [Server.step, hp]
        | pausing => simp [Server.step, hp]
        | listening q =>
          cases ok with
          | false => simp [Server.step, hp, Server.set, Server.servedAt]
          | true =>
            cases q with
            | nil => simp [Server.step, hp]
            | cons a q =>
              simp [Server.step, hp, Server.set, Server.servedAt, List.count_append, List.count_cons]
              omega
      | wakes j =>
        cases of_decide_eq_true ha
        cases hp : s.phase i with
        | opening => simp [Server.step, hp]
        | listening q => simp [Server.step, hp]
        | pausing => simp [Server.step, hp, set_phase, Server.servedAt, Server.set]
      | httpOpened ok => cases ha
      | httpEnds => cases ha
    · obtain ⟨h1, h2⟩ := step_apart (s := s) (Bool.eq_false_iff.2 ha)
      rw [h1, h2]
      omega

/-- **C93**, nothing invented: a listener serves a connection at most as often as it was opened. -/
theorem C93_once (http : Option Addr) (evs : List Event) (i : Nat) (k : Conn) :
    (((Server.init http).run evs).servedAt i).count k ≤ evs.count (.arrives i k) := by
  have := served_count i k evs (Server.init http)
  have h0 : ((Server.init http).servedAt i).count k = 0 := rfl
  have h1 : (match (Server.init http).phase i with | .listening q => q.count k | _ => 0) = 0 := rfl
  omega

example : (((Server.init none).run [.opened 0 true, .arrives 0 5, .arrives 0 5, .accepts 0 true,
    .accepts 0 true]).servedAt 0).count 5 = 2 := by decide

/-- **C93 is false of the code** when `accept` fails once: a connection that was set up, with room in
the queue, is dropped together with the one concerned, and is never served whatever happens. -/
theorem C93_false : ∃ (pre : List Event) (i : Nat) (k : Conn) (queue : List Conn),
    ((Server.init none).run pre).phase i = .listening queue ∧ queue.length < backlog ∧
    ∀ more, .arrives i k ∉ more →
      k ∉ ((Server.init none).run (pre ++ .arrives i k :: .accepts i false :: more)).servedAt i := by
  refine ⟨[.opened 0 true, .arrives 0 1], 0, 2, [1], by decide, by decide, fun more hm hk => ?_⟩
  rw [show [Event.opened 0 true, .arrives 0 1] ++ .arrives 0 2 :: .accepts 0 false :: more =
    [.opened 0 true, .arrives 0 1, .arrives 0 2, .accepts 0 false] ++ more from rfl,
    run_append_server] at hk
  have h1 := served_count 0 2 more
    ((Server.init none).run [.opened 0 true, .arrives 0 1, .arrives 0 2, .accepts 0 false])
  have h2 := List.count_pos_iff.2 hk
  have h3 := List.count_eq_zero.2 hm
  have h4 : (((Server.init none).run [.opened 0 true, .arrives 0 1, .arrives 0 2,
      .accepts 0 false]).servedAt 0).count 2 = 0 := by decide
  have h5 : ((Server.init none).run [.opened 0 true, .arrives 0 1, .arrives 0 2,
      .accepts 0 false]).phase 0 = .pausing := by decide
  rw [h5] at h1
  simp only at h1
  omega

/-- **C93 is false of the code** for HTTP: if its socket cannot be opened it is never tried again, and
a server that was to serve HTTP only ends without an error. -/
theorem C93_http_false (addr : Addr) (more : List Event) :
    let s := (Server.init (some addr)).run (.httpOpened false :: more)
    s.http = some .ended ∧ s.returned 0 = true := by
  have key : ∀ (more : List Event) (s : Server), s.http = some .ended →
      (s.run more).http = some .ended := by
    intro more
    induction more with
    | nil => intro s h; exact h
    | cons ev more ih =>
      intro s h
      refine ih (s.step ev) ?_
      cases ev <;> simp only [Server.step] <;> repeat' split
      all_goals simp_all [Server.set]
  have h1 := key more ((Server.init (some addr)).step (.httpOpened false)) rfl
  refine ⟨h1, ?_⟩
  unfold Server.returned
  rw [show ((Server.init (some addr)).run (.httpOpened false :: more)).http = some .ended from h1]
  rfl

end Akasa.Start
