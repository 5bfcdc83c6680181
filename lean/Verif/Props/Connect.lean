import Verif.Proof.ConnAck
import Verif.Props.Scram
import Verif.Props.EndToEnd
/-!
# C50, C52: who is let in, and what the broker announces

The handshake of any number of connections together with the whole broker.
-/
namespace Akasa

variable {c : ServerConfig} {x : ConnExt} {ext : Ext} {acts : List FrontAct} {f f' : Front}
  {evs e : List FrontEvent}

/-! ## Examples -/

def exConnExt : ConnExt where
  auth := Auth.exX
  scram := Scram.exX
  utf8 b := some (b.map fun v => Char.ofNat v.toNat)

/-- Passwords are checked, and there is a SCRAM user. -/
def exServer : ServerConfig where
  authEnable := true
  passwordFile := true
  passwords := Auth.exTable
  scramUsers := [(str "user", ⟨Scram.hashPassword Scram.exX (str "pencil") 4097 [1, 2, 3], 4097, [1, 2, 3]⟩)]

def exAnn (level : Level) : ConnectPkt :=
  { level, clientId := str "c", clean := false, username := some (str "ann")
    password := some [1, 2], will := some { topic := str "w", payload := [7], qos := 1, retain := false } }

/-- A user connects with SCRAM. -/
def exSasl : ConnectPkt :=
  { exAnn .v500 with authMethod := some (str "SCRAM-SHA-256")
                     authData := some (Scram.utf8 (str "n,,n=user,r=abc")) }

def exProof : AuthPkt :=
  { code := .continueAuthentication, method := some (str "SCRAM-SHA-256")
    data := some (Scram.utf8 (Scram.exFinal Scram.exE)) }

/-- Two clients connect with a password, one with a wrong one and one with SCRAM. -/
def exKnock : List FrontAct :=
  [.hello (exAnn .v311) (str "u0") (str "r0") {} true,
   .hello { exAnn .v500 with clientId := [] } (str "u1") (str "r1") {} true,
   .hello { exAnn .v500 with password := some [1] } (str "u2") (str "r2") {} true,
   .hello exSasl (str "u3") (str "xyz") {} true,
   .auth 3 exProof {} true]

/-- To evaluate an example. -/
theorem served_of {k : ConnId} {p : ConnectPkt} {t : TaskId} {final : Option Str}
    (h : (Front.run c x ext {} acts).map
      (fun r => (r.1.conns.get k).map fun n => (n.pkt, n.stage)) = some (some (p, .task t final))) :
    ∃ f evs, FrontReaches c x ext acts f evs ∧ f.served k p t := by
  cases hr : Front.run c x ext {} acts with
  | none => rw [hr] at h; cases h
  | some r =>
    rw [hr] at h
    simp only [Option.map_some, Option.some.injEq, Option.map_eq_some_iff] at h
    obtain ⟨⟨p', o, st⟩, h1, h2⟩ := h
    simp only [Prod.mk.injEq] at h2
    obtain ⟨rfl, rfl⟩ := h2
    exact ⟨r.1, r.2, hr, o, final, h1⟩

/-- What is known when a CONNECT is answered with a challenge or leads to a session. -/
theorem handleConnect_in {uuid random : Str} {p : ConnectPkt} {o : Opening}
    (h : (∃ final, handleConnect c x uuid random p = .go o final) ∨
      ∃ m r, handleConnect c x uuid random p = .challenge o m r) :
    passwordOk c x p = true ∧ willTopicBad p.will = false ∧ o.will = p.will ∧
      o.identifier = (if p.clientId = [] then uuid else p.clientId) ∧ o.level = p.level ∧
      o.clean = p.clean ∧ (p.level.proto = .v5 → o = openV5 c uuid p) := by
  unfold handleConnect at h
  cases hp : p.level.proto with
  | v3 =>
    rw [hp] at h
    simp only [handleConnectV3, refuse] at h
    repeat' split at h
    all_goals first
      | (rcases h with ⟨_, h⟩ | ⟨_, _, h⟩ <;> cases h; done)
      | skip
    all_goals
      rcases h with ⟨_, h⟩ | ⟨_, _, h⟩ <;> cases h
      simp_all
  | v5 =>
    rw [hp] at h
    simp only [handleConnectV5, refuse] at h
    repeat' split at h
    all_goals first
      | (rcases h with ⟨_, h⟩ | ⟨_, _, h⟩ <;> cases h; done)
      | skip
    all_goals
      rcases h with ⟨_, h⟩ | ⟨_, _, h⟩ <;> cases h
      simp_all [openV5]

theorem credentials_of {p : ConnectPkt} (ha : c.authEnable = true) (h : passwordOk c x p = true) :
    Credentials c x p := by
  unfold passwordOk at h
  rw [if_pos ha] at h
  split at h
  · rename_i u pw hu hpw; exact ⟨u, pw, hu, hpw, h⟩
  · cases h

/-- **C50.**  With authentication switched on, whatever else happens: a connection is served (a client
is added for it, it gets a session, it can take over a session) only if its CONNECT had the user name
and password of a user. -/
theorem C50_password (h : FrontReaches c x ext acts f evs) (ha : c.authEnable = true) {k : ConnId}
    {p : ConnectPkt} {t : TaskId} (hk : f.served k p t) :
    (∃ uuid random, (hellos acts)[k]? = some (p, uuid, random)) ∧ Credentials c x p := by
  obtain ⟨o, final, hk⟩ := hk
  obtain ⟨uuid, random, h1, h2⟩ := (frontInv h).story _ _ hk
  refine ⟨⟨uuid, random, h1⟩, credentials_of ha ?_⟩
  rcases h2 with h2 | ⟨m, r, a, env, wr, h2, _⟩
  · exact (handleConnect_in (.inl ⟨_, h2⟩)).1
  · exact (handleConnect_in (.inr ⟨_, _, h2⟩)).1

example : ∃ f evs, FrontReaches exServer exConnExt exExt exKnock f evs ∧
    f.served 0 (exAnn .v311) 0 := served_of (final := none) (by decide +kernel)
example : exServer.authEnable = true := rfl

/-- **C50.**  All tasks of the broker come from such connections, one from each. -/
theorem C50_all (h : FrontReaches c x ext acts f evs) {t : TaskId} {req : Request}
    (ht : f.world.request t = some req) :
    ∃ k p, f.served k p t ∧ (∀ k' p', f.served k' p' t → k' = k) ∧ req.level = p.level ∧
      req.clean = p.clean ∧ req.params.will = p.will ∧
      (p.clientId ≠ [] → req.identifier = p.clientId) := by
  have hi := frontInv h
  obtain ⟨k, ⟨p, o, st⟩, final, h1, h2, h3⟩ := hi.asked t req ht
  simp only at h2 h3
  subst h2
  refine ⟨k, p, ⟨o, final, h1⟩, ?_, ?_⟩
  · rintro k' p' ⟨o', final', h4⟩
    exact hi.one _ _ _ _ _ _ _ h4 h1 rfl rfl
  · obtain ⟨uuid, random, _, h5⟩ := hi.story _ _ h1
    have h6 := handleConnect_in (c := c) (x := x) (uuid := uuid) (random := random) (p := p) (o := o)
      (by
        rcases h5 with h5 | ⟨m, r, a, env, wr, h5, _⟩
        · exact .inl ⟨_, h5⟩
        · exact .inr ⟨_, _, h5⟩)
    obtain ⟨-, -, e1, e2, e3, e4, -⟩ := h6
    subst h3
    refine ⟨e3, e4, ?_, ?_⟩
    · unfold Opening.request
      simp only
      split <;> exact e1
    · intro hne
      exact e2.trans (if_neg hne)

example : ∃ f evs req, FrontReaches exServer exConnExt exExt exKnock f evs ∧
    f.world.request 1 = some req := by
  obtain ⟨f, evs, h, o, final, hk⟩ := served_of (c := exServer) (x := exConnExt) (ext := exExt)
    (acts := exKnock) (k := 1) (p := { exAnn .v500 with clientId := [] }) (t := 1) (final := none)
    (by decide +kernel)
  exact ⟨f, evs, _, h, ((frontInv h).serves _ _ _ _ hk rfl).1⟩

/-- The state of the exchange after a challenge. -/
theorem challenge_in {uuid random : Str} {p : ConnectPkt} {o : Opening} {m : Scram.Server}
    {r : Reply} (h : handleConnect c x uuid random p = .challenge o m r) :
    ∃ method first user authcid authzid nonce serverFirst,
      p.authMethod = some method ∧
      (method = "SCRAM-SHA-256".toList ∨ method = "SCRAM-SHA-256-PLUS".toList) ∧
      p.authData.bind x.utf8 = some first ∧
      Scram.parseClientFirst first = some (authcid, authzid, nonce) ∧
      c.scramUsers.get authcid = some user ∧
      m = Scram.Server.after x.scram
        [.first first, .password user.hashedPassword user.salt user.iterations random] ∧
      r = .auth method serverFirst := by
  unfold handleConnect at h
  split at h
  · simp only [handleConnectV3, refuse] at h
    repeat' split at h
    all_goals cases h
  · simp only [handleConnectV5, refuse] at h
    repeat' split at h
    all_goals first
      | (cases h; done)
      | skip
    cases h
    rename_i method hm _ mech hmech hin _ sf hsf
    have hmeth : method = "SCRAM-SHA-256".toList ∨ method = "SCRAM-SHA-256-PLUS".toList := by
      unfold SaslMechanism.parse at hmech
      split at hmech
      · exact .inl ‹_›
      · split at hmech
        · exact .inr ‹_›
        · cases hmech
    unfold scramClientFirst at hsf
    split at hsf
    · cases hsf
    · rename_i first hfirst
      cases hpc : Scram.parseClientFirst first with
      | none =>
        simp only [Scram.Server.clientFirst, hpc] at hsf
        cases hsf
      | some v =>
        obtain ⟨authcid, authzid, nonce⟩ := v
        simp only [Scram.Server.clientFirst, hpc] at hsf
        split at hsf
        · cases hsf
        · rename_i user huser
          simp only [Scram.Server.serverFirst, Option.some.injEq, Prod.mk.injEq] at hsf
          refine ⟨method, first, user, authcid, authzid, nonce, sf, hm, hmeth, hfirst, hpc, huser,
            ?_, rfl⟩
          rw [← hsf.1]
          simp only [Scram.Server.after, List.foldl_cons, List.foldl_nil, Scram.Server.step,
            Scram.Server.clientFirst, hpc, Scram.Server.serverFirst]

/-- **C50.**  A connection whose CONNECT (MQTT 5) names an authentication method is served only if
it completed a SCRAM exchange as a user of the broker, whether or not passwords are checked too. -/
theorem C50_scram (h : FrontReaches c x ext acts f evs) {k : ConnId} {p : ConnectPkt} {t : TaskId}
    (hk : f.served k p t) (hv : p.level = .v500) (hm : p.authMethod ≠ none) :
    ∃ uuid random a env wr, (hellos acts)[k]? = some (p, uuid, random) ∧
      FrontAct.auth k a env wr ∈ acts ∧ ScramProved c x p random a := by
  obtain ⟨o, final, hk⟩ := hk
  obtain ⟨uuid, random, h1, h2⟩ := (frontInv h).story _ _ hk
  rcases h2 with h2 | ⟨m, r, a, env, wr, h2, h3, h4⟩
  · exfalso
    simp only [handleConnect, hv, Level.proto, handleConnectV5, refuse] at h2
    repeat' split at h2
    all_goals first
      | (cases h2; done)
      | (rename_i hn; exact hm hn)
  · refine ⟨uuid, random, a, env, wr, h1, h3, ?_⟩
    obtain ⟨method, first, user, authcid, authzid, nonce, sf, e1, e2, e3, e4, e5, e6, e7⟩ :=
      challenge_in h2
    have ho : o.authMethod = some method := by
      have := (handleConnect_in (.inr ⟨_, _, h2⟩)).2.2.2.2.2.2 (by rw [hv]; rfl)
      rw [show o = _ from this]; exact e1
    simp only [handleAuth, ho, refuse] at h4
    repeat' split at h4
    all_goals first
      | (cases h4; done)
      | skip
    rename_i hmeth _ hcode _ final' hfinal _ sfinal hstep
    rw [e6] at hstep
    obtain ⟨ex, proof, w1, w2, w3, w4, -⟩ := (Scram.C49_exact x.scram _ final' sfinal).mp hstep
    obtain ⟨before, d, between, after, w5, w6, -, -⟩ := w1
    obtain ⟨hd, hp1, hp2, hp3, hp4⟩ : first = d ∧ user.hashedPassword = ex.saltedPassword ∧
        user.salt = ex.salt ∧ user.iterations = ex.iterations ∧ random = ex.serverNonce := by
      cases before with
      | nil =>
        cases between with
        | nil =>
          simp at w5
          exact ⟨w5.1, w5.2.1⟩
        | cons b1 bs => simp at w5
      | cons b bs => cases bs <;> simp at w5
    subst hd hp4
    have hpc := (Scram.parseClientFirst_iff ..).mpr w6
    rw [e4] at hpc
    simp only [Option.some.injEq, Prod.mk.injEq] at hpc
    refine ⟨ex, user, method, first, final', proof, e1, ?_, e2, e3, hfinal, ?_, hp1.symm, hp2.symm,
      hp3.symm, rfl, w4, w6, w2, w3⟩
    · simpa using hmeth
    · rw [← hpc.1]; exact e5

example : ∃ f evs, FrontReaches exServer exConnExt exExt exKnock f evs ∧ f.served 3 exSasl 2 :=
  served_of (final := some (str "v=fmfd")) (by decide +kernel)

/-- **C50.**  The authentication method of an MQTT 5 connection that is served is one of those that
are configured. -/
theorem C50_mechanism (h : FrontReaches c x ext acts f evs) {k : ConnId} {p : ConnectPkt}
    {t : TaskId} (hk : f.served k p t) (hv : p.level = .v500) {method : Str}
    (hm : p.authMethod = some method) :
    (method = "SCRAM-SHA-256".toList ∧ .scramSha256 ∈ c.saslMechanisms) ∨
    (method = "SCRAM-SHA-256-PLUS".toList ∧ .scramSha256Plus ∈ c.saslMechanisms) := by
  obtain ⟨o, final, hk⟩ := hk
  obtain ⟨uuid, random, h1, h2⟩ := (frontInv h).story _ _ hk
  have h3 : (∃ final, handleConnect c x uuid random p = .go o final) ∨
      ∃ m r, handleConnect c x uuid random p = .challenge o m r := by
    rcases h2 with h2 | ⟨m, r, a, env, wr, h2, _⟩
    · exact .inl ⟨_, h2⟩
    · exact .inr ⟨_, _, h2⟩
  simp only [handleConnect, hv, Level.proto, handleConnectV5, refuse, hm] at h3
  cases hp : SaslMechanism.parse method with
  | none =>
    simp only [hp] at h3
    repeat' split at h3
    all_goals rcases h3 with ⟨_, h3⟩ | ⟨_, _, h3⟩ <;> cases h3
  | some mech =>
    have hin : mech ∈ c.saslMechanisms := by
      simp only [hp] at h3
      repeat' split at h3
      all_goals first
        | (rcases h3 with ⟨_, h3⟩ | ⟨_, _, h3⟩ <;> cases h3; done)
        | (rename_i hin _ _ _ _; exact List.contains_iff_mem.1 hin)
        | simp_all
    unfold SaslMechanism.parse at hp
    split at hp
    · cases hp; exact .inl ⟨‹_›, hin⟩
    · split at hp
      · cases hp; exact .inr ⟨‹_›, hin⟩
      · cases hp

example : ∃ f evs, FrontReaches exServer exConnExt exExt exKnock f evs ∧ f.served 3 exSasl 2 :=
  served_of (final := some (str "v=fmfd")) (by decide +kernel)
example : exSasl.authMethod = some "SCRAM-SHA-256".toList := rfl

/-- **C50.**  With authentication switched on a CONNECT without the user name and password of a user
is answered with an error; the rest of the broker does not change. -/
theorem C50_refused (ha : c.authEnable = true) {p : ConnectPkt} (hn : ¬ Credentials c x p)
    {uuid random : Str} {env : Env} {wr : Bool}
    (hs : f.step c x ext (.hello p uuid random env wr) = some (f', e)) :
    f'.world = f.world ∧ (∀ t, ¬ f'.served f.nextConn p t) ∧
    ∃ code, code ≠ .success ∧ e = [.reply f.nextConn (.connack false code {})] := by
  have hbad : ∃ r, handleConnect c x uuid random p = .refuse r := by
    have hp : passwordOk c x p = false := by
      cases h : passwordOk c x p with
      | false => rfl
      | true => exact absurd (credentials_of ha h) hn
    unfold handleConnect
    split
    · unfold handleConnectV3 refuse
      rw [if_pos hp]
      repeat' split
      all_goals exact ⟨_, rfl⟩
    · unfold handleConnectV5 refuse
      rw [if_pos hp]
      exact ⟨_, rfl⟩
  obtain ⟨r, hr⟩ := hbad
  obtain ⟨code, h1, h2⟩ := handleConnect_refuse hr
  unfold Front.step at hs
  simp only at hs
  split at hs
  · cases hs
  · rw [hr] at hs
    simp only [Front.answer, Option.some.injEq, Prod.mk.injEq] at hs
    obtain ⟨rfl, rfl⟩ := hs
    refine ⟨rfl, ?_, code, h1, by rw [h2]⟩
    rintro t ⟨o, final, h3⟩
    simp only [FMap.get_insert_self, Option.some.injEq, Conn.mk.injEq] at h3
    cases h3.2.2

example : exServer.authEnable = true ∧
    ¬ Credentials exServer exConnExt { exAnn .v500 with password := some [1] } ∧
    (∃ f e, Front.step exServer exConnExt exExt {}
      (.hello { exAnn .v500 with password := some [1] } (str "u") (str "r") {} true) =
        some (f, e)) := by
  refine ⟨rfl, ?_, _, _, rfl⟩
  rintro ⟨u, pw, h1, h2, h3⟩
  cases h1
  cases h2
  revert h3
  decide +kernel

/-- **C50, the other way.**  A CONNECT with the user name and password of a user (or any, if
authentication is switched off) that need not be refused for another reason is served. -/
theorem C50_admitted {p : ConnectPkt} (hp : c.authEnable = true → Credentials c x p)
    (hok : p.Fine c) (hv : c.maxPacketSizeClient ≠ 0) {uuid random : Str} {env : Env} {wr : Bool}
    (hs : f.step c x ext (.hello p uuid random env wr) = some (f', e)) :
    f'.served f.nextConn p f.world.nextTask := by
  have hpass : passwordOk c x p = true := by
    unfold passwordOk
    split
    · rename_i ha
      obtain ⟨u, pw, h1, h2, h3⟩ := hp ha
      rw [h1, h2]
      exact h3
    · rfl
  have hw : willTopicBad p.will = false := by
    unfold willTopicBad
    split
    · rfl
    · rename_i m hm
      have := hok.will m hm
      simp [this.1, this.2]
  have hgo : ∃ o final, handleConnect c x uuid random p = .go o final := by
    unfold handleConnect
    split
    · unfold handleConnectV3
      rw [if_neg, if_neg, if_neg (by rw [hpass]; simp), if_neg (by rw [hw]; simp)]
      · exact ⟨_, _, rfl⟩
      · rintro ⟨h1, h2, h3⟩
        rw [hok.v311 h1 h2] at h3
        cases h3
      · rintro ⟨h1, h2 | ⟨h2, h3⟩⟩
        · exact (hok.v310 h1).1 h2
        · exact absurd ((hok.v310 h1).2 h2) (Nat.not_le.2 h3)
    · unfold handleConnectV5
      rw [if_neg (by rw [hpass]; simp), if_neg hok.receiveMax, if_neg, if_neg,
        if_neg (by rw [hw]; simp), hok.noMethod]
      · exact ⟨_, _, rfl⟩
      · rw [hok.noData]; simp
      · cases h : p.maxPacketSize with
        | none => exact hv
        | some n =>
          intro h0
          exact hok.maxPacketSize (by rw [h]; exact congrArg some h0)
  obtain ⟨o, final, hgo⟩ := hgo
  unfold Front.step at hs
  simp only at hs
  split at hs
  · cases hs
  · rw [hgo] at hs
    simp only [Front.answer, Front.world'] at hs
    split at hs
    · cases hs
    · simp only [Option.some.injEq, Prod.mk.injEq] at hs
      obtain ⟨rfl, rfl⟩ := hs
      exact ⟨o, final, FMap.get_insert_self ..⟩

example : Credentials exServer exConnExt (exAnn .v311) ∧ (exAnn .v311).Fine exServer ∧
    (∃ f e, Front.step exServer exConnExt exExt {}
      (.hello (exAnn .v311) (str "u") (str "r") {} true) = some (f, e)) := by
  refine ⟨⟨_, _, rfl, rfl, by decide +kernel⟩, ?_, _, _, rfl⟩
  constructor
  · intro h; cases h
  · intro _ h; cases h
  · intro m h; cases h; decide
  · intro h; cases h
  · intro h; cases h
  · rfl
  · rfl

/-- **C65.**  Whatever is sent or happens in a handshake: if the connection is not served afterwards
(it was refused or challenged, or failed), then nothing else has changed.  In particular no session
was taken over and no connection closed, and nobody else was sent anything. -/
theorem C65_no_effect {a : FrontAct} (hs : f.step c x ext a = some (f', e)) {k : ConnId}
    (hk : a.conn f = some k) (hno : ∀ p t, ¬ f'.served k p t) :
    f'.world = f.world ∧ (∀ k', k' ≠ k → f'.conns.get k' = f.conns.get k') ∧
    worldEvents e = [] ∧ ∀ k' r, .reply k' r ∈ e → k' = k := by
  have hother : ∀ {n : Conn} {k' : ConnId}, k' ≠ k → (f.conns.insert k n).get k' = f.conns.get k' :=
    fun h => FMap.get_insert_ne _ _ (Ne.symm h)
  have hone : ∀ {k1 r k' r'}, FrontEvent.reply k' r' ∈ [FrontEvent.reply k1 r] → k' = k1 := by
    intro k1 r k' r' h
    rw [List.mem_singleton] at h
    cases h
    rfl
  cases fcases hs with
  | idle => exact ⟨rfl, fun _ _ => rfl, rfl, fun _ _ h => by cases h⟩
  | helloOver p uuid random env wr out ho =>
    cases hk
    refine ⟨rfl, fun _ h => hother h, ?_⟩
    rcases ho with ⟨r, _, rfl⟩ | ⟨_, rfl⟩
    · exact ⟨rfl, fun _ _ h => hone h⟩
    · exact ⟨rfl, fun _ _ h => by cases h⟩
  | helloChallenge p uuid random env wr o m r hr =>
    cases hk
    exact ⟨rfl, fun _ h => hother h, rfl, fun _ _ h => hone h⟩
  | helloGo cfg hcfg p uuid random env wr o final hr w evs hw =>
    cases hk
    exact absurd ⟨o, final, FMap.get_insert_self ..⟩ (hno p f.world.nextTask)
  | authOver k b env wr p o m hm r hr =>
    cases hk
    exact ⟨rfl, fun _ h => hother h, rfl, fun _ _ h => hone h⟩
  | authGo cfg hcfg k b env wr p o m hm final hr w evs hw =>
    cases hk
    exact absurd ⟨o, final, FMap.get_insert_self ..⟩ (hno p f.world.nextTask)
  | stray k malformed p o m hm =>
    cases hk
    exact ⟨rfl, fun _ h => hother h, rfl, fun _ _ h => hone h⟩
  | leave k p o m hm =>
    cases hk
    exact ⟨rfl, fun _ h => hother h, rfl, fun _ _ h => by cases h⟩
  | act => cases hk

/-- After the second connection (which is served) comes a wrong password. -/
example : ∃ f evs f' e, FrontReaches exServer exConnExt exExt (exKnock.take 2) f evs ∧
    f.step exServer exConnExt exExt
      (.hello { exAnn .v500 with password := some [1] } (str "u2") (str "r2") {} true) =
      some (f', e) ∧ (∀ p t, ¬ f'.served f.nextConn p t) ∧ f.world.nextTask = 2 := by
  refine ⟨_, _, _, _, rfl, rfl, ?_, rfl⟩
  rintro p t ⟨o, final, h⟩
  cases h

end Akasa
