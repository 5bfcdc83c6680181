import Verif.Proof.Incoming
/-! Only publishing changes the copies waiting to be passed on. -/
namespace Akasa

/-- The copies waiting to be passed on, and their count. -/
def Session.copies (s : Session) : FMap ClientId (List NormalMsg) × Nat := (s.bcast, s.bcastCnt)

theorem copies_pendings (pr : Proto) (clk : Clock) (s : Session) :
    (handlePendingsOf pr clk s).1.copies = s.copies := by cases pr <;> rfl

theorem copies_after (pr : Proto) (clk : Clock) (s : Session) :
    (afterPacket pr clk s).1.copies = s.copies := by
  cases pr
  · rfl
  · simp only [afterPacket]; split
    · rfl
    · rfl

theorem copies_deliverV5 (now : Nat) (s : Session) (m : RecvPub) (props : PubProps) :
    (deliverV5 now s m props).1.copies = s.copies := by
  unfold deliverV5
  simp only
  split
  · split <;> rfl
  · split
    · split <;> split <;> rfl
    · rfl

theorem copies_recvV5 (now : Nat) (s : Session) (m : RecvPub) :
    (recvPublishV5 now s m).1.copies = s.copies := by
  unfold recvPublishV5
  simp only
  split
  · exact copies_deliverV5 ..
  · split
    · rfl
    · exact copies_deliverV5 ..

theorem copies_recvV3 (now : Nat) (s : Session) (topic qos retain payload filter subQos) :
    (recvPublishV3 now s topic qos retain payload filter subQos).1.copies = s.copies := by
  unfold recvPublishV3
  simp only
  split
  · rfl
  · split
    · rfl
    · split <;> rfl

theorem copies_normal (cfg : Config) (pr : Proto) (now : Nat) (s : Session) (m : NormalMsg) :
    (handleNormalOf cfg pr now s m).1.copies = s.copies := by
  cases pr <;> cases m <;> simp only [handleNormalOf, handleNormalV3, handleNormalV5]
  · exact copies_recvV3 ..
  · split
    · rfl
    · exact copies_recvV3 ..
  · split
    · rfl
    · exact copies_recvV5 ..
  · split
    · rfl
    · exact copies_recvV5 ..

theorem copies_onNormal (cfg : Config) (pr : Proto) (env : Env) (g : Global) (s : Session)
    (m : NormalMsg) : (onNormal cfg pr env g s m).session.copies = s.copies := by
  unfold onNormal
  simp only
  split
  · exact copies_normal ..
  · split
    · exact (copies_pendings ..).trans (copies_normal ..)
    · exact copies_normal ..

theorem copies_sendRetainedV5 (now : Nat → Nat) (filter : Str) (opts : SubOpts) (granted : QoS)
    (cs : List RetainContent) (j : Nat) (s : Session) :
    (sendRetainedV5 now filter opts granted j s cs).1.copies = s.copies := by
  induction cs generalizing j s with
  | nil => rfl
  | cons c cs ih =>
    simp only [sendRetainedV5]
    split
    · exact ih ..
    · split
      · exact (ih ..).trans (copies_recvV5 ..)
      · exact (ih ..).trans (copies_recvV5 ..)

theorem copies_sendRetainedV3 (now : Nat → Nat) (filter : Str) (granted : QoS)
    (cs : List RetainContent) (j : Nat) (s : Session) :
    (sendRetainedV3 now filter granted j s cs).1.copies = s.copies := by
  induction cs generalizing j s with
  | nil => rfl
  | cons c cs ih =>
    simp only [sendRetainedV3]
    split
    · split
      · exact (ih ..).trans (copies_recvV3 ..)
      · exact (ih ..).trans (copies_recvV3 ..)
    · exact ih ..

theorem copies_acceptV5 {cfg : Config} {env : Env} {i : Nat} {g : Global} {s : Session} {f : Str}
    {opts : SubOpts} {id : Option Nat} {s' : Session} {g' : Global} {out : List OutPkt}
    (h : acceptV5 cfg env i g s f opts id = some (s', g', out)) : s'.copies = s.copies := by
  unfold acceptV5 at h
  simp only at h
  split at h
  · cases h
  · split at h
    · split at h
      · cases h
      · split at h
        · cases h; exact (copies_pendings .v5 ..).trans ((copies_sendRetainedV5 ..).trans rfl)
        · cases h; exact (copies_sendRetainedV5 ..).trans rfl
    · cases h; rfl

theorem copies_acceptV3 {cfg : Config} {env : Env} {i : Nat} {g : Global} {s : Session} {f : Str}
    {q : QoS} {s' : Session} {g' : Global} {out : List OutPkt}
    (h : acceptV3 cfg env i g s f q = some (s', g', out)) : s'.copies = s.copies := by
  unfold acceptV3 at h
  simp only at h
  split at h
  · cases h
  · split at h
    · cases h
    · split at h
      · cases h; exact (copies_pendings .v3 ..).trans ((copies_sendRetainedV3 ..).trans rfl)
      · cases h; exact (copies_sendRetainedV3 ..).trans rfl

theorem copies_subscribeLoopV5 {cfg : Config} {env : Env} {id : Option Nat}
    {ts : List (Str × SubOpts)} {i : Nat} {g : Global} {s : Session}
    {r : Session × Global × List OutPkt × List Reason}
    (h : subscribeLoopV5 cfg env id i g s ts = some r) : r.1.copies = s.copies := by
  induction ts generalizing i g s r with
  | nil => simp only [subscribeLoopV5, Option.some.injEq] at h; subst h; rfl
  | cons t ts ih =>
    obtain ⟨f, opts⟩ := t
    rw [subscribeLoopV5] at h
    split at h
    · split at h
      · cases h
      · rename_i ha
        rw [Option.map_eq_some_iff] at h
        obtain ⟨r', h1, rfl⟩ := h
        exact (ih h1).trans (copies_acceptV5 ha)
    · rw [Option.map_eq_some_iff] at h
      obtain ⟨r', h1, rfl⟩ := h
      exact (ih h1 : r'.1.copies = s.copies)

theorem copies_subscribeLoopV3 {cfg : Config} {env : Env}
    {ts : List (Str × QoS)} {i : Nat} {g : Global} {s : Session}
    {r : Session × Global × List OutPkt × List Reason × Bool}
    (h : subscribeLoopV3 cfg env i g s ts = some r) : r.1.copies = s.copies := by
  induction ts generalizing i g s r with
  | nil => simp only [subscribeLoopV3, Option.some.injEq] at h; subst h; rfl
  | cons t ts ih =>
    obtain ⟨f, q⟩ := t
    rw [subscribeLoopV3] at h
    split at h
    · cases h; rfl
    · split at h
      · cases h
      · rename_i ha
        rw [Option.map_eq_some_iff] at h
        obtain ⟨r', h1, rfl⟩ := h
        exact (ih h1).trans (copies_acceptV3 ha)

theorem copies_unsubscribeLoopV5 {ts : List Str} {g : Global} {s : Session}
    {r : Session × Global × List Reason}
    (h : unsubscribeLoopV5 g s ts = some r) : r.1.copies = s.copies := by
  induction ts generalizing g s r with
  | nil => simp only [unsubscribeLoopV5, Option.some.injEq] at h; subst h; rfl
  | cons t ts ih =>
    rw [unsubscribeLoopV5] at h
    split at h
    · cases h
    · simp only [Option.map_eq_some_iff] at h
      obtain ⟨r', h1, rfl⟩ := h
      exact (ih h1).trans rfl

theorem copies_unsubscribeLoopV3 {ts : List Str} {g : Global} {s : Session}
    {r : Session × Global}
    (h : unsubscribeLoopV3 g s ts = some r) : r.1.copies = s.copies := by
  induction ts generalizing g s r with
  | nil => simp only [unsubscribeLoopV3, Option.some.injEq] at h; subst h; rfl
  | cons t ts ih =>
    rw [unsubscribeLoopV3] at h
    split at h
    · cases h
    · exact (ih h).trans rfl

theorem copies_handleComplete (g : Global) (s : Session) (pid : Pid) (q : QoS) :
    (handleComplete g s pid q).session.copies = s.copies := by
  unfold handleComplete; rfl

variable {cfg : Config} {ext : Ext} {pr : Proto} {env : Env} {g : Global} {s : Session} {n : Nat}
  {pkt : InPkt} {r : Res}

/-- Handling a packet that hands nothing to routing keeps the copies. -/
theorem copies_handlePacket (h : handlePacket cfg ext pr env g s n pkt = some r)
    (hr : r.routed = []) : r.session.copies = s.copies := by
  by_cases hp : ∃ p, pkt = .publish p
  · obtain ⟨p, rfl⟩ := hp
    have hc := handle_publish_cases h
    cases hc with
    | rejectV5 hpr s' hs' code => rw [resolvedOr_eq hs']; rfl
    | rejectV3 hpr => rfl
    | inUse hpr s1 topic pid prev hres hl hg hne => simp only; rw [resolved_ident hres]; rfl
    | repeated s1 topic pid hres hl hd hg => simp only; rw [resolved_ident hres]; rfl
    | lostFirst s1 topic pid hres hl hd hg hlen => simp only; rw [resolved_ident hres]; rfl
    | route2 s1 topic pid s' g' n hres hl hd hg hlen hsend => cases hr
    | route01 s1 topic s' g' n hres hl hsend => cases hr
  · cases pr
    · simp only [handlePacket, handlePacketV3] at h
      split at h
      · cases h; rfl
      · cases pkt <;> simp only at h
        case publish p => exact absurd ⟨p, rfl⟩ hp
        case puback pid => cases h; exact copies_handleComplete ..
        case pubrec pid =>
          cases h
          rfl
        case pubrel pid =>
          cases h
          unfold handlePubrelV3
          split <;> rfl
        case pubcomp pid => cases h; exact copies_handleComplete ..
        case subscribe pid ts id =>
          simp only [handleSubscribeV3, Option.map_eq_some_iff] at h
          obtain ⟨r', h1, rfl⟩ := h
          have := copies_subscribeLoopV3 h1
          split <;> exact this
        case unsubscribe pid ts =>
          simp only [handleUnsubscribeV3, Option.map_eq_some_iff] at h
          obtain ⟨r', h1, rfl⟩ := h
          exact copies_unsubscribeLoopV3 h1
        all_goals (cases h; rfl)
    · simp only [handlePacket, handlePacketV5] at h
      split at h
      · cases h; rfl
      · cases pkt <;> simp only at h
        case publish p => exact absurd ⟨p, rfl⟩ hp
        case puback pid => cases h; exact copies_handleComplete ..
        case pubrec pid =>
          cases h
          rfl
        case pubrel pid =>
          cases h
          unfold handlePubrelV5
          split <;> rfl
        case pubcomp pid => cases h; exact copies_handleComplete ..
        case disconnect reason expiry =>
          cases h
          unfold handleDisconnectV5
          split
          · split <;> rfl
          · rfl
        case subscribe pid ts id =>
          simp only [handleSubscribeV5] at h
          split at h
          · cases h; rfl
          · split at h
            · cases h; rfl
            · rw [Option.map_eq_some_iff] at h
              obtain ⟨r', h1, rfl⟩ := h
              exact copies_subscribeLoopV5 h1
        case unsubscribe pid ts =>
          simp only [handleUnsubscribeV5, Option.map_eq_some_iff] at h
          obtain ⟨r', h1, rfl⟩ := h
          exact copies_unsubscribeLoopV5 h1
        all_goals (cases h; rfl)

end Akasa
