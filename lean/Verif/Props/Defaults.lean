import Verif.Model.Defaults
import Verif.Props.Start
/-!
# C109: the configurations that the program proposes
-/
namespace Akasa.Start

variable {w : World} {addr : Addr} {path : Path}

theorem default_valid : ((Settings.default addr path).config []).isValid = true := by rfl

theorem anonymous_valid : ((Settings.anonymous addr path).config []).isValid = true := by rfl

/-- The numbers of the proposed configurations fit their types, and the limits announced to clients are
in range. -/
theorem C109_limits :
    ((Settings.default addr path).rest).Typed ∧ ((Settings.anonymous addr path).rest).Typed := by
  constructor <;> constructor <;> simp [Settings.default, Settings.anonymous]

/-- **C109, with passwords.**  The server starts with the configuration it proposes exactly if the
password file can be read; it then waits for MQTT connections at the address given, in four tasks, and
nowhere else. -/
theorem C109_default (w : World) (addr : Addr) (path : Path) :
    ((∃ c tasks http, start w (.default addr path) = .running c tasks http) ↔
      ∃ text t, w.text path = some text ∧ Auth.loadPasswords w.auth text = some t) ∧
    ∀ c tasks http, start w (.default addr path) = .running c tasks http →
      tasks = List.replicate 4 ⟨addr, true, .mqtt none, none⟩ ∧ http = none := by
  constructor
  · rw [C92_starts]
    constructor
    · rintro ⟨-, ⟨t, h⟩, -⟩
      obtain ⟨p, text, hp, h1, h2⟩ := h
      cases hp
      exact ⟨text, t, h1, h2⟩
    · rintro ⟨text, t, h1, h2⟩
      exact ⟨(usable_iff _).1 default_valid, ⟨t, path, text, rfl, h1, h2⟩, (fun l h => by cases h),
        (fun l h => by cases h)⟩
  · intro c tasks http h
    obtain ⟨-, table, mqtts, wss, -, h2, h3, -, rfl, rfl⟩ := start_running h
    cases h2; cases h3
    exact ⟨rfl, rfl⟩

/-- With it nobody gets further than CONNECT without a user name and a password that the file accepts. -/
theorem C109_closed {c : ServerConfig} {tasks : List Entry} {http : Option Addr}
    (h : start w (.default addr path) = .running c tasks http) (x : ConnExt) (uuid random : Str)
    (p : ConnectPkt)
    (hno : ∀ u pw, p.username = some u → p.password = some pw →
      Auth.checkPassword x.auth c.passwords u pw = false) :
    (∀ o final, handleConnect c x uuid random p ≠ .go o final) ∧
      ∀ o m r, handleConnect c x uuid random p ≠ .challenge o m r := by
  obtain ⟨-, table, mqtts, wss, -, h2, h3, rfl, rfl, rfl⟩ := start_running h
  have hpw : passwordOk ((Settings.default addr path).config table) x p = false := by
    unfold passwordOk
    show (if true = true then _ else _) = false
    rw [if_pos rfl]
    split
    · rename_i u pw hu hp
      exact hno u pw hu hp
    · rfl
  unfold handleConnect
  cases p.level.proto with
  | v3 =>
    unfold handleConnectV3
    simp only [hpw, if_true]
    split
    · exact ⟨fun _ _ h => (by cases h), fun _ _ _ h => (by cases h)⟩
    · split <;> exact ⟨fun _ _ h => (by cases h), fun _ _ _ h => (by cases h)⟩
  | v5 =>
    unfold handleConnectV5
    simp only [hpw, if_true]
    exact ⟨fun _ _ h => (by cases h), fun _ _ _ h => (by cases h)⟩

/-- **C109, without passwords.**  With the configuration proposed for anonymous clients the server starts
whatever files there are, waits at the same address, and lets every client in whose CONNECT has a
client identifier, no authentication method, no zero limits and no will for an impossible topic. -/
theorem C109_anonymous (w : World) (addr : Addr) (path : Path) :
    ∃ c, start w (.anonymous addr path) =
        .running c (List.replicate 4 ⟨addr, true, .mqtt none, none⟩) none ∧
      ∀ (x : ConnExt) (uuid random : Str) (p : ConnectPkt), p.clientId ≠ [] → p.authMethod = none →
        p.authData = none → p.receiveMax ≠ some 0 → p.maxPacketSize ≠ some 0 →
        (∀ m, p.will = some m → m.topic ≠ [] ∧ m.topic.head? ≠ some '$') →
        ∃ o, handleConnect c x uuid random p = .go o none ∧ o.identifier = p.clientId := by
  refine ⟨(Settings.anonymous addr path).config [], rfl, ?_⟩
  intro x uuid random p hid hm hd hr hs hw
  have hpw : passwordOk ((Settings.anonymous addr path).config []) x p = true := rfl
  have hwill : willTopicBad p.will = false := by
    cases h : p.will with
    | none => rfl
    | some m =>
      obtain ⟨h1, h2⟩ := hw m h
      simp [willTopicBad, h1, h2]
  have hchk : ((Settings.anonymous addr path).config []).checkV310Length = false := rfl
  have hsz : p.maxPacketSize.getD ((Settings.anonymous addr path).config []).maxPacketSizeClient ≠ 0 := by
    cases h : p.maxPacketSize with
    | none => exact (by decide : (268435460 : Nat) ≠ 0)
    | some n => rw [h] at hs; simpa using hs
  unfold handleConnect
  cases p.level.proto with
  | v3 =>
    unfold handleConnectV3
    simp [hpw, hwill, hid, hchk]
  | v5 =>
    unfold handleConnectV5
    simp [hpw, hwill, hr, hsz, hm, hd, openV5, hid]

/-- A file with no passwords, and a file that cannot be read. -/
example :
    (∃ c, start exWorld (.default 1 "passwords".toList) =
      .running c (List.replicate 4 ⟨1, true, .mqtt none, none⟩) none) ∧
    ¬ ∃ c tasks http, start exWorld (.default 1 "absent".toList) = .running c tasks http := by
  refine ⟨⟨_, rfl⟩, fun h => ?_⟩
  obtain ⟨text, t, h1, -⟩ := (C109_default exWorld 1 "absent".toList).1.1 h
  rw [show exWorld.text "absent".toList = none by decide] at h1
  cases h1

/-- A client that gives no name is refused by the one and let in by the other. -/
example (x : ConnExt) (uuid random : Str) :
    (∀ c tasks http, start exWorld (.default 1 "passwords".toList) = .running c tasks http →
      ∀ o final, handleConnect c x uuid random { level := .v500, clientId := ['a'] } ≠ .go o final) ∧
    ∃ c tasks, start exWorld (.anonymous 1 "passwords".toList) = .running c tasks none ∧
      ∃ o, handleConnect c x uuid random { level := .v500, clientId := ['a'] } = .go o none := by
  refine ⟨fun c tasks http h =>
    (C109_closed h x uuid random _ (fun u pw hu => by cases hu)).1, ?_⟩
  obtain ⟨c, h1, h2⟩ := C109_anonymous exWorld 1 "passwords".toList
  obtain ⟨o, h3, -⟩ := h2 x uuid random { level := .v500, clientId := ['a'] } (by simp) rfl rfl
    (by simp) (by simp) (by simp)
  exact ⟨c, _, h1, o, h3⟩

end Akasa.Start
