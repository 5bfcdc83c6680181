import Verif.Spec.Session
import Verif.Proof.FMap
import Verif.Proof.Util
/-! Frame lemmas for the packet handlers and runs of a session. -/
namespace Akasa

/-- A session without the parts that sending and queueing change. -/
def Session.core (s : Session) : Session :=
  { s with sender := Sender.new 0 0 0, outAliases := {}, bcast := [], bcastCnt := 0 }

/-- ... and without the subscriptions. -/
def Session.ident (s : Session) : Session := { s.core with subscribes := [] }

theorem ident_of_core {a b : Session} (h : a.core = b.core) : a.ident = b.ident := by
  unfold Session.ident; rw [h]

section fields
variable {a b : Session}
theorem ident_qos2 (h : a.ident = b.ident) : a.qos2 = b.qos2 := congrArg (fun s => s.qos2) h
theorem ident_aliases (h : a.ident = b.ident) : a.aliases = b.aliases :=
  congrArg (fun s => s.aliases) h
theorem ident_clientId (h : a.ident = b.ident) : a.clientId = b.clientId :=
  congrArg (fun s => s.clientId) h
theorem ident_identifier (h : a.ident = b.ident) : a.identifier = b.identifier :=
  congrArg (fun s => s.identifier) h
theorem ident_cd (h : a.ident = b.ident) : a.clientDisconnected = b.clientDisconnected :=
  congrArg (fun s => s.clientDisconnected) h
theorem ident_sd (h : a.ident = b.ident) : a.serverDisconnected = b.serverDisconnected :=
  congrArg (fun s => s.serverDisconnected) h
theorem ident_disc (h : a.ident = b.ident) : a.disconnected = b.disconnected := by
  unfold Session.disconnected; rw [ident_cd h, ident_sd h]
theorem ident_will (h : a.ident = b.ident) : a.will = b.will := congrArg (fun s => s.will) h
theorem ident_aliasMax (h : a.ident = b.ident) : a.aliasMax = b.aliasMax :=
  congrArg (fun s => s.aliasMax) h
theorem ident_maxPacketSize (h : a.ident = b.ident) : a.maxPacketSize = b.maxPacketSize :=
  congrArg (fun s => s.maxPacketSize) h
theorem core_subs (h : a.core = b.core) : a.subscribes = b.subscribes :=
  congrArg (fun s => s.subscribes) h
end fields

theorem core_pendingsV5 (clk : Clock) (s : Session) : (handlePendingsV5 clk s).1.core = s.core := rfl
theorem core_pendingsV3 (clk : Clock) (s : Session) : (handlePendingsV3 clk s).1.core = s.core := rfl

theorem core_pendings (pr : Proto) (clk : Clock) (s : Session) :
    (handlePendingsOf pr clk s).1.core = s.core := by cases pr <;> rfl

theorem core_after (pr : Proto) (clk : Clock) (s : Session) :
    (afterPacket pr clk s).1.core = s.core := by
  cases pr
  · rfl
  · simp only [afterPacket]; split
    · rfl
    · rfl

theorem core_deliverV5 (now : Nat) (s : Session) (m : RecvPub) (props : PubProps) :
    (deliverV5 now s m props).1.core = s.core := by
  unfold deliverV5
  simp only
  split
  · split <;> rfl
  · split
    · split <;> split <;> rfl
    · rfl

theorem core_recvV5 (now : Nat) (s : Session) (m : RecvPub) :
    (recvPublishV5 now s m).1.core = s.core := by
  unfold recvPublishV5
  simp only
  split
  · exact core_deliverV5 ..
  · split
    · rfl
    · exact core_deliverV5 ..

theorem core_recvV3 (now : Nat) (s : Session) (topic qos retain payload filter subQos) :
    (recvPublishV3 now s topic qos retain payload filter subQos).1.core = s.core := by
  unfold recvPublishV3
  simp only
  split
  · rfl
  · split
    · rfl
    · split <;> rfl

theorem core_normalV5 (cfg : Config) (now : Nat) (s : Session) (m : NormalMsg) :
    (handleNormalV5 cfg now s m).1.core = s.core := by
  cases m <;> simp only [handleNormalV5]
  · split
    · rfl
    · exact core_recvV5 ..
  · split
    · rfl
    · exact core_recvV5 ..

theorem core_normalV3 (now : Nat) (s : Session) (m : NormalMsg) :
    (handleNormalV3 now s m).1.core = s.core := by
  cases m <;> simp only [handleNormalV3]
  · exact core_recvV3 ..
  · split
    · rfl
    · exact core_recvV3 ..

theorem core_normal (cfg : Config) (pr : Proto) (now : Nat) (s : Session) (m : NormalMsg) :
    (handleNormalOf cfg pr now s m).1.core = s.core := by
  cases pr
  · exact core_normalV3 ..
  · exact core_normalV5 ..

theorem core_onNormal (cfg : Config) (pr : Proto) (env : Env) (g : Global) (s : Session)
    (m : NormalMsg) : (onNormal cfg pr env g s m).session.core = s.core := by
  unfold onNormal
  simp only
  split
  · exact core_normal ..
  · split
    · exact (core_pendings ..).trans (core_normal ..)
    · exact core_normal ..

theorem core_pushCopy (s : Session) (reg : ClientId → Bool) (id : ClientId) (m : NormalMsg) :
    (s.pushCopy reg id m).core = s.core := by
  unfold Session.pushCopy
  split
  · rfl
  · split <;> rfl

theorem core_pushFold (reg : ClientId → Bool) (cs : List (ClientId × NormalMsg)) (s : Session) :
    (cs.foldl (fun s c => s.pushCopy reg c.1 c.2) s).core = s.core := by
  induction cs generalizing s with
  | nil => rfl
  | cons c cs ih => exact (ih _).trans (core_pushCopy ..)

theorem core_pushCopies (s : Session) (reg : ClientId → Bool) (cs : List (ClientId × NormalMsg)) :
    (s.pushCopies reg cs).core = s.core := by
  unfold Session.pushCopies
  exact (core_pushFold ..).trans rfl

theorem core_sendV5 {env : Env} {g : Global} {s : Session} {m : SendPub} {s' : Session}
    {g' : Global} {n : Nat} (h : sendPublishV5 env g s m = some (s', g', n)) : s'.core = s.core := by
  unfold sendPublishV5 at h
  simp only at h
  split at h
  · cases h
  · cases h; exact core_pushCopies ..

theorem core_sendV3 {g : Global} {s : Session} {m : SendPub} {s' : Session}
    {g' : Global} (h : sendPublishV3 g s m = some (s', g')) : s'.core = s.core := by
  unfold sendPublishV3 at h
  simp only at h
  split at h
  · cases h
  · cases h; exact core_pushCopies ..

theorem core_sendRetainedV5 (now : Nat → Nat) (filter : Str) (opts : SubOpts) (granted : QoS)
    (cs : List RetainContent) (j : Nat) (s : Session) :
    (sendRetainedV5 now filter opts granted j s cs).1.core = s.core := by
  induction cs generalizing j s with
  | nil => rfl
  | cons c cs ih =>
    simp only [sendRetainedV5]
    split
    · exact ih ..
    · split
      · exact (ih ..).trans (core_recvV5 ..)
      · exact (ih ..).trans (core_recvV5 ..)

theorem core_sendRetainedV3 (now : Nat → Nat) (filter : Str) (granted : QoS)
    (cs : List RetainContent) (j : Nat) (s : Session) :
    (sendRetainedV3 now filter granted j s cs).1.core = s.core := by
  induction cs generalizing j s with
  | nil => rfl
  | cons c cs ih =>
    simp only [sendRetainedV3]
    split
    · split
      · exact (ih ..).trans (core_recvV3 ..)
      · exact (ih ..).trans (core_recvV3 ..)
    · exact ih ..

/-- The effect of an accepted filter on the session (up to queues). -/
theorem core_acceptV5 {cfg : Config} {env : Env} {i : Nat} {g : Global} {s : Session} {f : Str}
    {opts : SubOpts} {id : Option Nat} {s' : Session} {g' : Global} {out : List OutPkt}
    (h : acceptV5 cfg env i g s f opts id = some (s', g', out)) :
    s'.core = { s.core with subscribes := (s.subscribes.insert f
        { opts := { opts with maxQos := min opts.maxQos cfg.maxAllowedQos }, id }) } := by
  unfold acceptV5 at h
  simp only at h
  split at h
  · cases h
  · split at h
    · split at h
      · cases h
      · split at h
        · cases h; exact (core_pendingsV5 ..).trans ((core_sendRetainedV5 ..).trans rfl)
        · cases h; exact (core_sendRetainedV5 ..).trans rfl
    · cases h; rfl

theorem core_acceptV3 {cfg : Config} {env : Env} {i : Nat} {g : Global} {s : Session} {f : Str}
    {q : QoS} {s' : Session} {g' : Global} {out : List OutPkt}
    (h : acceptV3 cfg env i g s f q = some (s', g', out)) :
    s'.core = { s.core with subscribes := (s.subscribes.insert f
        { opts := { maxQos := min q cfg.maxAllowedQos } }) } := by
  unfold acceptV3 at h
  simp only at h
  split at h
  · cases h
  · split at h
    · cases h
    · split at h
      · cases h; exact (core_pendingsV3 ..).trans ((core_sendRetainedV3 ..).trans rfl)
      · cases h; exact (core_sendRetainedV3 ..).trans rfl

theorem ident_subscribeLoopV5 {cfg : Config} {env : Env} {id : Option Nat}
    {ts : List (Str × SubOpts)} {i : Nat} {g : Global} {s : Session}
    {r : Session × Global × List OutPkt × List Reason}
    (h : subscribeLoopV5 cfg env id i g s ts = some r) : r.1.ident = s.ident := by
  induction ts generalizing i g s r with
  | nil => simp only [subscribeLoopV5, Option.some.injEq] at h; subst h; rfl
  | cons t ts ih =>
    obtain ⟨f, opts⟩ := t
    rw [subscribeLoopV5] at h
    split at h
    · split at h
      · cases h
      · rename_i ha
        rw [Option.map_eq_some_iff] at h
        obtain ⟨r', h1, rfl⟩ := h
        have h2 := core_acceptV5 ha
        refine (ih h1).trans ?_
        unfold Session.ident; rw [h2]
    · rw [Option.map_eq_some_iff] at h
      obtain ⟨r', h1, rfl⟩ := h
      exact (ih h1 : r'.1.ident = s.ident)

theorem ident_subscribeLoopV3 {cfg : Config} {env : Env}
    {ts : List (Str × QoS)} {i : Nat} {g : Global} {s : Session}
    {r : Session × Global × List OutPkt × List Reason × Bool}
    (h : subscribeLoopV3 cfg env i g s ts = some r) : r.1.ident = s.ident := by
  induction ts generalizing i g s r with
  | nil => simp only [subscribeLoopV3, Option.some.injEq] at h; subst h; rfl
  | cons t ts ih =>
    obtain ⟨f, q⟩ := t
    rw [subscribeLoopV3] at h
    split at h
    · cases h; rfl
    · split at h
      · cases h
      · rename_i ha
        rw [Option.map_eq_some_iff] at h
        obtain ⟨r', h1, rfl⟩ := h
        have h2 := core_acceptV3 ha
        refine (ih h1).trans ?_
        unfold Session.ident; rw [h2]

theorem ident_unsubscribeLoopV5 {ts : List Str} {g : Global} {s : Session}
    {r : Session × Global × List Reason}
    (h : unsubscribeLoopV5 g s ts = some r) : r.1.ident = s.ident := by
  induction ts generalizing g s r with
  | nil => simp only [unsubscribeLoopV5, Option.some.injEq] at h; subst h; rfl
  | cons t ts ih =>
    rw [unsubscribeLoopV5] at h
    split at h
    · cases h
    · simp only [Option.map_eq_some_iff] at h
      obtain ⟨r', h1, rfl⟩ := h
      exact (ih h1).trans rfl

theorem ident_unsubscribeLoopV3 {ts : List Str} {g : Global} {s : Session}
    {r : Session × Global}
    (h : unsubscribeLoopV3 g s ts = some r) : r.1.ident = s.ident := by
  induction ts generalizing g s r with
  | nil => simp only [unsubscribeLoopV3, Option.some.injEq] at h; subst h; rfl
  | cons t ts ih =>
    rw [unsubscribeLoopV3] at h
    split at h
    · cases h
    · exact (ih h).trans rfl

/-! ## runs as chains of steps -/

/-- The records form a run starting at `p`. -/
def IsRun (cfg : Config) (ext : Ext) (pr : Proto) : Peer → List Rec → Prop
  | _, [] => True
  | p, r :: rs =>
    r.pre = p ∧ p.step cfg ext pr r.env r.before r.ev = some (r.post, r.res) ∧
      IsRun cfg ext pr r.post rs

section
variable {cfg : Config} {ext : Ext} {pr : Proto}

theorem isRun_of_run {p : Peer} {evs : List (Env × Global × SessEv)} {recs : List Rec}
    (h : p.run cfg ext pr evs = some recs) : IsRun cfg ext pr p recs := by
  induction evs generalizing p recs with
  | nil => simp only [Peer.run, Option.some.injEq] at h; subst h; trivial
  | cons e evs ih =>
    obtain ⟨env, g, ev⟩ := e
    rw [Peer.run] at h
    split at h
    · cases h
    · rename_i p' r hs
      rw [Option.map_eq_some_iff] at h
      obtain ⟨l, h1, rfl⟩ := h
      exact ⟨rfl, hs, ih h1⟩

theorem isRun_append {p : Peer} {a b : List Rec} :
    IsRun cfg ext pr p (a ++ b) ↔ IsRun cfg ext pr p a ∧ IsRun cfg ext pr (endOf p a) b := by
  induction a generalizing p with
  | nil => simp [IsRun, endOf]
  | cons r rs ih =>
    simp only [List.cons_append, IsRun, endOf, ih]
    constructor
    · rintro ⟨h1, h2, h3, h4⟩; exact ⟨⟨h1, h2, h3⟩, h4⟩
    · rintro ⟨⟨h1, h2, h3⟩, h4⟩; exact ⟨h1, h2, h3, h4⟩

theorem endOf_append (p : Peer) (a b : List Rec) : endOf p (a ++ b) = endOf (endOf p a) b := by
  induction a generalizing p with
  | nil => rfl
  | cons r rs ih => exact ih _

end

end Akasa
