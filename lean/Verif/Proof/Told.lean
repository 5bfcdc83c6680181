import Verif.Spec.Told
import Verif.Props.Publish
import Verif.Proof.Subscribe
import Verif.Proof.OnlineClose
import Verif.Proof.OnlineSession
/-! # Why a connection is closed -/
namespace Akasa

variable {cfg : Config} {ext : Ext} {env : Env} {g : Global} {s : Session} {size : Nat}
  {pkt : InPkt} {r0 : Res} {bound : Nat → Option Str} {held : List Pid} {interval : Nat}

/-- The effect of a packet on an MQTT 5 session as far as the end of the connection is concerned. -/
inductive V5Case (cfg : Config) (bound : Nat → Option Str) (held : List Pid) (g : Global)
    (s : Session) (size : Nat) (pkt : InPkt) (r0 : Res) : Prop
  /-- it is refused -/
  | fail (s' : Session) (code : Reason) (hr : r0 = failV5 s' g code)
      (hf : Fault cfg bound held s.expiryInterval size pkt code)
      (hc : s'.clientDisconnected = s.clientDisconnected)
  /-- the client leaves -/
  | bye (reason : Reason) (e : Option Nat) (hp : pkt = .disconnect reason e)
      (ho : r0.out = []) (hc : r0.closed = false) (h1 : r0.session.clientDisconnected = true)
      (h2 : r0.session.serverDisconnected = s.serverDisconnected)
      (hn : ∀ code, ¬ Fault cfg bound held s.expiryInterval size pkt code)
  /-- the identifier is in use -/
  | inUse (p : Publish) (pid : Pid) (hp : pkt = .publish p) (hl : p.qosPid = .level2 pid)
      (hh : pid ∈ held) (ho : r0.out = [.pubrec pid .packetIdentifierInUse])
      (hc : r0.closed = false) (hi : r0.session.expiryInterval = s.expiryInterval)
      (h1 : r0.session.clientDisconnected = s.clientDisconnected)
      (h2 : r0.session.serverDisconnected = s.serverDisconnected)
  /-- it is fine -/
  | fine (ho : ∀ o ∈ r0.out, o.isDisconnect = false) (hc : r0.closed = true → pkt = .invalid)
      (hi : r0.session.expiryInterval = s.expiryInterval)
      (h1 : r0.session.clientDisconnected = s.clientDisconnected)
      (h2 : r0.session.serverDisconnected = s.serverDisconnected)
      (hn : ∀ code, ¬ Fault cfg bound held s.expiryInterval size pkt code)

theorem not_disconnect {o : OutPkt} (h : o.isDelivery = true) : o.isDisconnect = false := by
  cases o <;> first | rfl | cases h

theorem ident_interval {a b : Session} (h : a.ident = b.ident) :
    a.expiryInterval = b.expiryInterval := congrArg (fun s => s.expiryInterval) h

theorem v5_case (h : handlePacketV5 cfg ext env g s size pkt = some r0)
    (hq : s.qos2.keys = held) (hal : ∀ a, s.aliases.get a = bound a) :
    V5Case cfg bound held g s size pkt r0 := by
  unfold handlePacketV5 at h
  by_cases hn : size > cfg.maxPacketSizeServer
  · rw [if_pos hn] at h
    cases h
    exact .fail _ _ rfl (.tooLarge hn) rfl
  rw [if_neg hn] at h
  cases pkt with
  | disconnect reason e =>
    simp only [Option.some.injEq] at h
    subst h
    cases e with
    | none =>
      refine .bye reason none rfl rfl rfl rfl rfl ?_
      intro code hf
      cases hf
      exact hn ‹_›
    | some n =>
      simp only [handleDisconnectV5]
      by_cases h1 : s.expiryInterval = 0 ∧ n > 0
      · rw [if_pos h1]
        exact .fail _ _ rfl (.keep h1.1 h1.2) rfl
      · rw [if_neg h1]
        refine .bye reason (some n) rfl rfl rfl rfl rfl ?_
        intro code hf
        cases hf with
        | tooLarge hf => exact hn hf
        | keep h2 h3 => exact h1 ⟨h2, h3⟩
  | puback pid =>
    cases h
    refine .fine (by simp [handleComplete]) (by simp [handleComplete]) rfl rfl rfl ?_
    intro code hf; cases hf; exact hn ‹_›
  | pubcomp pid =>
    cases h
    refine .fine (by simp [handleComplete]) (by simp [handleComplete]) rfl rfl rfl ?_
    intro code hf; cases hf; exact hn ‹_›
  | pubrec pid =>
    cases h
    refine .fine (by simp [handlePubrecV5, OutPkt.isDisconnect]) (by simp [handlePubrecV5])
      rfl rfl rfl ?_
    intro code hf; cases hf; exact hn ‹_›
  | pubrel pid =>
    cases h
    refine .fine (by simp [handlePubrelV5, OutPkt.isDisconnect]) (by simp [handlePubrelV5])
      rfl rfl rfl ?_
    intro code hf; cases hf; exact hn ‹_›
  | pingreq =>
    cases h
    refine .fine (by simp [OutPkt.isDisconnect]) (by simp) rfl rfl rfl ?_
    intro code hf; cases hf; exact hn ‹_›
  | invalid =>
    cases h
    refine .fine (by simp) (by simp) rfl rfl rfl ?_
    intro code hf; cases hf; exact hn ‹_›
  | unsubscribe pid topics =>
    simp only [handleUnsubscribeV5, Option.map_eq_some_iff] at h
    obtain ⟨r, h1, rfl⟩ := h
    have hi := ident_unsubscribeLoopV5 h1
    refine .fine (by simp [OutPkt.isDisconnect]) (by simp) (ident_interval hi) (ident_cd hi)
      (ident_sd hi) ?_
    intro code hf; cases hf; exact hn ‹_›
  | subscribe pid topics id =>
    simp only [handleSubscribeV5] at h
    by_cases h0 : id = some 0
    · rw [if_pos h0] at h
      cases h
      subst h0
      exact .fail _ _ rfl .zeroId rfl
    rw [if_neg h0] at h
    have hno : ∀ code, ¬ Fault cfg bound held s.expiryInterval size (.subscribe pid topics id) code := by
      intro code hf
      cases hf with
      | tooLarge hf => exact hn hf
      | zeroId => exact h0 rfl
    by_cases h1 : (!cfg.subscriptionIdAvailable && id.isSome) = true
    · rw [if_pos h1] at h
      cases h
      exact .fine (by simp [OutPkt.isDisconnect]) (by simp) rfl rfl rfl hno
    rw [if_neg h1, Option.map_eq_some_iff] at h
    obtain ⟨r, h2, rfl⟩ := h
    have hi := ident_subscribeLoopV5 h2
    have hd := (subscribeLoopV5_effect (by
      rintro ⟨h3, h4⟩
      apply h1
      cases id with
      | none => exact absurd rfl h4
      | some _ => simp [h3]) h2).2.2
    refine .fine ?_ (by simp) (ident_interval hi) (ident_cd hi) (ident_sd hi) hno
    intro o ho
    simp only [List.mem_append, List.mem_singleton] at ho
    rcases ho with ho | rfl
    · exact not_disconnect (hd o ho)
    · rfl
  | publish p =>
    simp only [handlePublishV5] at h
    by_cases h1 : p.topic.head? = some '$'
    · rw [if_pos h1] at h; cases h
      exact .fail _ _ rfl (.reserved h1) rfl
    rw [if_neg h1] at h
    by_cases h2 : p.qosPid = .level0 ∧ p.dup = true
    · rw [if_pos h2] at h; cases h
      exact .fail _ _ rfl (.dup h2.1 h2.2) rfl
    rw [if_neg h2] at h
    have hr : ∀ res, resolveAlias cfg s p = res →
        match res with
        | .error code => Fault cfg bound held s.expiryInterval size (.publish p) code
        | .ok (s', t) => s'.ident = { s.ident with aliases := s'.aliases } ∧ s'.qos2 = s.qos2 ∧
            (∀ a, p.props.topicAlias = some a → a ≠ 0 ∧ a ≤ cfg.topicAliasMax) ∧
            (p.topic = [] → ∃ a, p.props.topicAlias = some a ∧ bound a ≠ none) := by
      rintro res rfl
      unfold resolveAlias
      cases ha : p.props.topicAlias with
      | none =>
        simp only
        by_cases ht : p.topic = []
        · rw [if_pos ht]
          exact .noTopic ht (by simp [ha])
        · rw [if_neg ht]
          exact ⟨rfl, rfl, by simp, fun h => absurd h ht⟩
      | some a =>
        simp only
        by_cases h3 : a = 0
        · rw [if_pos h3]; exact .badAlias ha (.inl h3)
        rw [if_neg h3]
        by_cases h4 : a > cfg.topicAliasMax
        · rw [if_pos h4]; exact .badAlias ha (.inr h4)
        rw [if_neg h4]
        have hok : ∀ b, some a = some b → b ≠ 0 ∧ b ≤ cfg.topicAliasMax := by
          rintro b hb; cases hb; exact ⟨h3, Nat.le_of_not_gt h4⟩
        by_cases ht : p.topic = []
        · rw [if_pos ht]
          cases hg : s.aliases.get a with
          | none =>
            refine .noTopic ht ?_
            intro b hb
            rw [ha] at hb; cases hb
            rw [← hal, hg]
          | some t =>
            exact ⟨rfl, rfl, hok, fun _ => ⟨a, rfl, by rw [← hal, hg]; simp⟩⟩
        · rw [if_neg ht]
          exact ⟨rfl, rfl, hok, fun h => absurd h ht⟩
    generalize hres : resolveAlias cfg s p = res at h
    have hr := hr res hres
    cases res with
    | error code =>
      cases h
      exact .fail _ _ rfl hr rfl
    | ok st =>
      obtain ⟨s1, t⟩ := st
      obtain ⟨hid, hq1, hok, htop⟩ := hr
      have hi1 : s1.expiryInterval = s.expiryInterval := congrArg (fun s => s.expiryInterval) hid
      have hc1 : s1.clientDisconnected = s.clientDisconnected :=
        congrArg (fun s => s.clientDisconnected) hid
      have hs1 : s1.serverDisconnected = s.serverDisconnected :=
        congrArg (fun s => s.serverDisconnected) hid
      simp only at h
      by_cases h3 : p.props.subscriptionIds ≠ []
      · rw [if_pos h3] at h; cases h
        exact .fail _ _ rfl (.ids h3) hc1
      rw [if_neg h3] at h
      have mem : ∀ pid, pid ∈ held ↔ ∃ v, s1.qos2.get pid = some v := by
        intro pid
        rw [← hq, ← hq1]
        rw [← FMap.get_isSome_iff, Option.isSome_iff_exists]
      -- no fault but those of the identifier
      have hno : (∀ pid, p.qosPid = .level2 pid → pid ∈ held → p.dup = true) →
          (∀ pid, p.qosPid = .level2 pid → pid ∉ held → held.length < cfg.maxInflightServer) →
          ∀ code, ¬ Fault cfg bound held s.expiryInterval size (.publish p) code := by
        intro ha hb code hf
        cases hf with
        | tooLarge hf => exact hn hf
        | reserved hf => exact h1 hf
        | dup ha hb => exact h2 ⟨ha, hb⟩
        | badAlias hx hf =>
          obtain ⟨h5, h6⟩ := hok _ hx
          rcases hf with hf | hf
          · exact h5 hf
          · exact absurd h6 (Nat.not_le.2 hf)
        | noTopic ht hf =>
          obtain ⟨a, h5, h6⟩ := htop ht
          exact h6 (hf a h5)
        | ids hf => exact h3 hf
        | again hl hm hd => rw [ha _ hl hm] at hd; cases hd
        | many hl hm hf => exact absurd (hb _ hl hm) (Nat.not_lt.2 hf)
      have hck : ∀ ck, checkQos2V5 cfg ext s1 p = ck →
          match ck with
          | .inUse pid => p.qosPid = .level2 pid ∧ pid ∈ held
          | .fail code => Fault cfg bound held s.expiryInterval size (.publish p) code
          | .proceed s2 => s2.ident = { s1.ident with qos2 := s2.qos2 } ∧
              ∀ code, ¬ Fault cfg bound held s.expiryInterval size (.publish p) code := by
        rintro ck rfl
        unfold checkQos2V5
        cases hl : p.qosPid with
        | level0 => exact ⟨rfl, hno (by simp [hl]) (by simp [hl])⟩
        | level1 pid => exact ⟨rfl, hno (by simp [hl]) (by simp [hl])⟩
        | level2 pid =>
          simp only
          cases hg : s1.qos2.get pid with
          | some v =>
            simp only
            have hm := (mem pid).2 ⟨v, hg⟩
            by_cases h5 : ext.hash p ≠ v
            · rw [if_pos h5]
              exact ⟨rfl, hm⟩
            rw [if_neg h5]
            by_cases h6 : (!p.dup) = true
            · rw [if_pos h6]
              exact .again hl hm (by simpa using h6)
            rw [if_neg h6]
            have h6' : p.dup = true := by simpa using h6
            refine ⟨rfl, hno (fun _ _ _ => h6') ?_⟩
            intro pid' hl' hm'
            rw [hl] at hl'; cases hl'
            exact absurd hm hm'
          | none =>
            simp only
            have hm : pid ∉ held := by
              intro hm
              obtain ⟨v, hv⟩ := (mem pid).1 hm
              rw [hg] at hv; cases hv
            have hlen : s1.qos2.length = held.length := by
              rw [← hq, hq1]; simp [FMap.keys]
            by_cases h5 : s1.qos2.length ≥ cfg.maxInflightServer
            · rw [if_pos h5]
              exact .many hl hm (by rw [← hlen]; exact h5)
            rw [if_neg h5]
            refine ⟨rfl, hno ?_ ?_⟩
            · intro pid' hl' hm'
              rw [hl] at hl'; cases hl'
              exact absurd hm' hm
            · intro pid' hl' hm'
              rw [← hlen]; exact Nat.lt_of_not_ge h5
      generalize hce : checkQos2V5 cfg ext s1 p = ck at h
      have hck := hck ck hce
      cases ck with
      | inUse pid =>
        cases h
        exact .inUse p pid rfl hck.1 hck.2 rfl rfl hi1 hc1 hs1
      | fail code =>
        cases h
        exact .fail _ _ rfl hck hc1
      | proceed s2 =>
        obtain ⟨h5, h7⟩ := hck
        have hack : ∀ n, ∀ o ∈ ackV5 p n, o.isDisconnect = false := by
          intro n o ho
          unfold ackV5 at ho
          simp only at ho
          split at ho <;> simp at ho <;> subst ho <;> rfl
        have hi2 : s2.expiryInterval = s1.expiryInterval := congrArg (fun s => s.expiryInterval) h5
        have hc2 : s2.clientDisconnected = s1.clientDisconnected :=
          congrArg (fun s => s.clientDisconnected) h5
        have hs2 : s2.serverDisconnected = s1.serverDisconnected :=
          congrArg (fun s => s.serverDisconnected) h5
        simp only at h
        split at h
        · cases h
          exact .fine (hack 1) (by simp) (hi2.trans hi1) (hc2.trans hc1) (hs2.trans hs1) h7
        · split at h
          · cases h
          · rename_i s3 g3 n hsend
            cases h
            have hi3 := ident_of_core (core_sendV5 hsend)
            exact .fine (hack n) (by simp) ((ident_interval hi3).trans (hi2.trans hi1))
              ((ident_cd hi3).trans (hc2.trans hc1)) ((ident_sd hi3).trans (hs2.trans hs1)) h7

/-! ## over the life of a session -/

/-- While connected, the interval is the one asked for. -/
def IntervalInv (n : Nat) (p : Peer) (l : List Rec) : Prop :=
  p.online = true → p.session.disconnected = false →
    p.session.expiryInterval = askedInterval n l

theorem askedInterval_snoc (n : Nat) (l : List Rec) (r : Rec) :
    askedInterval n (l ++ [r]) = match r.ev with
      | .resume c => c.expiryInterval
      | _ => askedInterval n l := by
  simp only [askedInterval, List.foldl_append, List.foldl_cons, List.foldl_nil]
  cases r.ev <;> rfl

theorem intervalInv_step {n : Nat} {l : List Rec} {r : Rec}
    (hs : r.pre.step cfg ext .v5 r.env r.before r.ev = some (r.post, r.res))
    (ih : IntervalInv n r.pre l) : IntervalInv n r.post (l ++ [r]) := by
  intro hon hdis
  rw [askedInterval_snoc]
  cases hr : r.received with
  | none =>
    by_cases hres : ∃ c, r.ev = .resume c
    · obtain ⟨c, hc⟩ := hres
      rw [hc] at hs ⊢
      simp only [Peer.step, Option.some.injEq, Prod.mk.injEq] at hs
      rw [← hs.1]
      exact (ident_interval (ident_of_core (core_pendings ..))).trans rfl
    · have hne : ∀ c, r.ev ≠ .resume c := fun c hc => hres ⟨c, hc⟩
      obtain ⟨-, -, -, -, h⟩ := step_idle hs hr
      obtain ⟨h1, h2⟩ := h hne
      have hi := ident_of_core h1
      have := (ident_interval hi).trans (ih (h2 hon) (by rw [← ident_disc hi]; exact hdis))
      rw [this]
      split
      · rename_i c hc; exact absurd hc (hne c)
      · rfl
  | some pkt =>
    obtain ⟨k, r0, st⟩ := step_received hs hr
    obtain ⟨after, hev⟩ := st.isEv
    rw [hev]
    have hi := ident_of_core st.core
    have hd0 : r0.session.disconnected = false := by rw [← ident_disc hi]; exact hdis
    have key : r0.session.expiryInterval = r.pre.session.expiryInterval := by
      cases v5_case st.handled rfl (fun _ => rfl) with
      | fail s' code hr hf hcs => rw [hr] at hd0; simp [failV5, Session.disconnected] at hd0
      | bye _ _ _ _ _ h1 => simp [Session.disconnected, h1] at hd0
      | inUse _ _ _ _ _ _ _ hi => exact hi
      | fine _ _ hi => exact hi
    exact (ident_interval hi).trans (key.trans (ih st.on st.connected))

theorem intervalInv_run {p : Peer} {l : List Rec} (hrun : IsRun cfg ext .v5 p l) :
    IntervalInv p.session.expiryInterval (endOf p l) l := by
  induction l using snoc_induction with
  | nil => intro _ _; rfl
  | snoc l r ih =>
    rw [isRun_append] at hrun
    obtain ⟨hl, hpre, hst, _⟩ := hrun
    have := ih hl
    rw [← hpre] at this hst
    rw [endOf_append]
    exact intervalInv_step hst this

/-- A packet in the life of a session. -/
theorem v5_at {identifier : Str} {id : ClientId} {cp : ConnParams}
    {evs : List (Env × Global × SessEv)} {recs : List Rec}
    (hrun : ({ session := Session.start cfg .v5 identifier id cp } : Peer).run cfg ext .v5 evs =
      some recs) {a c : List Rec} {r : Rec} (hsplit : recs = a ++ r :: c) {pkt : InPkt}
    (hr : r.received = some pkt) :
    r.pre.session.expiryInterval = askedInterval cp.expiryInterval a ∧
    ∃ r0, Step1 cfg ext .v5 r pkt r.size r0 ∧
      V5Case cfg (boundTopic a) (unreleased a) r.before r.pre.session r.size pkt r0 := by
  obtain ⟨n, r0, st, hq, hal⟩ := at_step hrun hsplit hr
  have hsz := size_of_step st
  subst hsz
  refine ⟨?_, r0, st, v5_case st.handled hq (hal rfl)⟩
  have h := isRun_of_run hrun
  rw [hsplit, isRun_append] at h
  obtain ⟨hA, hpre, -⟩ := h
  have := intervalInv_run hA
  rw [← hpre] at this
  exact this st.on st.connected

/-! ## in the task of the connection -/

section task
variable {hooks : HookConfig} {hext : HookExt} {enc : OutPkt → Option Bytes}

/-- What a packet does to the end of the connection. -/
inductive V5Packet (s : Session) (pkt : InPkt) (res : Res) : Prop
  | fail (code : Reason) (ho : res.out = [.disconnect code])
      (h1 : res.session.clientDisconnected = false) (h2 : res.session.serverDisconnected = true)
      (hc : res.closed = false)
  | bye (reason : Reason) (e : Option Nat) (hp : pkt = .disconnect reason e)
      (ho : ∀ o ∈ res.out, o.isDisconnect = false)
      (h1 : res.session.clientDisconnected = true) (h2 : res.session.serverDisconnected = false)
      (hc : res.closed = false)
  | fine (ho : ∀ o ∈ res.out, o.isDisconnect = false)
      (h1 : res.session.disconnected = false) (hc : res.closed = true → pkt = .invalid)

theorem connected_iff {s : Session} : s.disconnected = false ↔
    s.clientDisconnected = false ∧ s.serverDisconnected = false := by
  simp [Session.disconnected]

theorem v5_packet {after : Clock} {res : Res} (hd : s.disconnected = false)
    (h : onPacketHook cfg hooks hext .v5 env {} after g s size pkt = some res) :
    V5Packet s pkt res := by
  rw [C69_invisible] at h
  unfold onPacket at h
  split at h
  · cases h
  · rename_i r0 h0
    obtain ⟨hd1, hd2⟩ := connected_iff.1 hd
    have hcase := v5_case (bound := fun a => s.aliases.get a) h0 rfl (fun _ => rfl)
    split at h
    · rename_i hc
      cases h
      cases hcase with
      | fail s' code hr hf hcs => rw [hr] at hc; cases hc
      | bye _ _ _ _ h1 => rw [h1] at hc; cases hc
      | inUse _ _ _ _ _ _ h1 => rw [h1] at hc; cases hc
      | fine ho hc' hi h1 h2 =>
        exact .fine ho (connected_iff.2 ⟨h1.trans hd1, h2.trans hd2⟩) hc'
    · rename_i hc
      simp only [Option.some.injEq] at h
      subst h
      have hc' : r0.closed = false := by simpa using hc
      have hi := ident_of_core (core_after .v5 after r0.session)
      have hdel : ∀ o ∈ (afterPacket .v5 after r0.session).2, o.isDisconnect = false :=
        fun o ho => not_disconnect (after_isDelivery _ _ _ o ho)
      have all : (∀ o ∈ r0.out, o.isDisconnect = false) →
          ∀ o ∈ r0.out ++ (afterPacket .v5 after r0.session).2, o.isDisconnect = false := by
        intro h o ho
        rcases List.mem_append.1 ho with ho | ho
        · exact h o ho
        · exact hdel o ho
      cases hcase with
      | fail s' code hr hf hcs =>
        have hnil : (afterPacket .v5 after r0.session).2 = [] := by
          rw [hr]; simp [afterPacket, failV5, Session.disconnected]
        by_cases hcd : s'.clientDisconnected = true
        · rw [hcs, hd1] at hcd; cases hcd
        · refine .fail code ?_ ?_ ?_ hc'
          · simp only [hnil, List.append_nil]; rw [hr]; rfl
          · refine (ident_cd hi).trans ?_; rw [hr]; simpa [failV5] using hcd
          · refine (ident_sd hi).trans ?_; rw [hr]; rfl
      | bye reason e hp ho _ h1 h2 =>
        exact .bye reason e hp (all (by simp [ho])) ((ident_cd hi).trans h1)
          ((ident_sd hi).trans (h2.trans hd2)) hc'
      | inUse p pid hp hl hh ho _ _ h1 h2 =>
        exact .fine (all (by simp [ho, OutPkt.isDisconnect])) (by
          refine (ident_disc hi).trans (connected_iff.2 ⟨h1.trans hd1, h2.trans hd2⟩))
          (by simp [hc'])
      | fine ho _ _ h1 h2 =>
        exact .fine (all ho) (by
          refine (ident_disc hi).trans (connected_iff.2 ⟨h1.trans hd1, h2.trans hd2⟩))
          (by simp [hc'])

/-- What has been sent, and who ends the connection. -/
structure EndInv (b : List Handled) (l : OnlineLoop) : Prop where
  open_ : l.out.session.serverDisconnected = false →
    ∀ o ∈ b.flatMap (·.out), o.isDisconnect = false
  server : l.out.session.serverDisconnected = true → ∃ init x c,
    b = init ++ [x] ∧ x.out = [.disconnect c] ∧
    (x.what = .malformed → c = .malformedPacket) ∧
    (∀ o ∈ init.flatMap (·.out), o.isDisconnect = false)
  bye : l.out.session.clientDisconnected = true → ∃ x ∈ b, x.what.isBye = true
  one : l.out.session.clientDisconnected = true → l.out.session.serverDisconnected = false

theorem endInv_step {b b' : List Handled} {l l' : OnlineLoop} {got : List (ClientId × NormalMsg)}
    (hi : StepInv l) (h : EndInv b l) (hu : ∀ x ∈ b', x.what.unhooked)
    (hs : LStep cfg hooks hext .v5 enc l b' got l') : EndInv (b ++ b') l' := by
  have same : b' = [] → l'.out.session.ident = l.out.session.ident → EndInv (b ++ b') l' := by
    rintro rfl he
    rw [List.append_nil]
    refine ⟨?_, ?_, ?_, ?_⟩
    · rw [ident_sd he]; exact h.open_
    · rw [ident_sd he]; exact h.server
    · rw [ident_cd he]; exact h.bye
    · rw [ident_sd he, ident_cd he]; exact h.one
  have packet : ∀ {m : Moment} {size : Nat} {p : InPkt} {res : Res}, m.ans = {} →
      l.out.session.disconnected = false →
      onPacketHook cfg hooks hext .v5 m.env m.ans m.after m.global l.out.session size p =
        some res → b' = [⟨.packet m size p, res.out⟩] → l'.out.session = res.session →
      EndInv (b ++ b') l' := by
    rintro m size p res ha hd hp rfl hl
    rw [ha] at hp
    have hold := h.open_ (connected_iff.1 hd).2
    cases v5_packet hd hp with
    | fail code ho h1 h2 hc =>
      refine ⟨?_, ?_, ?_, ?_⟩
      · rw [hl, h2]; intro hx; cases hx
      · exact fun _ => ⟨b, _, code, rfl, ho, (fun hx => by cases hx), hold⟩
      · rw [hl, h1]; intro hx; cases hx
      · rw [hl, h1]; intro hx; cases hx
    | bye reason e hp ho h1 h2 hc =>
      refine ⟨?_, ?_, ?_, ?_⟩
      · intro _ o ho'
        simp only [List.flatMap_append, List.mem_append, List.flatMap_cons, List.flatMap_nil,
          List.append_nil] at ho'
        rcases ho' with ho' | ho'
        · exact hold o ho'
        · exact ho o ho'
      · rw [hl, h2]; intro hx; cases hx
      · intro _
        exact ⟨_, List.mem_append.2 (.inr (List.mem_singleton.2 rfl)), by rw [hp]; rfl⟩
      · rw [hl, h2]; exact fun _ => rfl
    | fine ho h1 hc =>
      obtain ⟨h2, h3⟩ := connected_iff.1 h1
      refine ⟨?_, ?_, ?_, ?_⟩
      · intro _ o ho'
        simp only [List.flatMap_append, List.mem_append, List.flatMap_cons, List.flatMap_nil,
          List.append_nil] at ho'
        rcases ho' with ho' | ho'
        · exact hold o ho'
        · exact ho o ho'
      · rw [hl, h3]; intro hx; cases hx
      · rw [hl, h2]; intro hx; cases hx
      · rw [hl, h3]; exact fun _ => rfl
  cases hs with
  | packet hh hd ht hc hp hcl => exact packet (hu _ (List.mem_singleton.2 rfl)) hd hp rfl rfl
  | ask => exact same rfl rfl
  | answer hh hp hcl =>
    exact packet (hu _ (List.mem_singleton.2 rfl)) (hi.asked (by simp [hh])).1 hp rfl rfl
  | malformed hh hd ht hpr =>
    obtain ⟨h1, h2⟩ := connected_iff.1 hd
    refine ⟨?_, ?_, ?_, ?_⟩
    · intro hx; cases hx
    · exact fun _ => ⟨b, _, _, rfl, rfl, fun _ => rfl, h.open_ h2⟩
    · intro hx
      have : l.out.session.clientDisconnected = true := hx
      rw [h1] at this; cases this
    · intro hx
      have : l.out.session.clientDisconnected = true := hx
      rw [h1] at this; cases this
  | normal hh hd ht =>
    rename_i m msg
    obtain ⟨h1, h2⟩ := connected_iff.1 hd
    have he := ident_of_core (core_onNormal cfg .v5 m.env m.global l.out.session msg)
    refine ⟨?_, ?_, ?_, ?_⟩
    · intro _ o ho'
      simp only [List.flatMap_append, List.mem_append, List.flatMap_cons, List.flatMap_nil,
        List.append_nil] at ho'
      rcases ho' with ho' | ho'
      · exact h.open_ h2 o ho'
      · exact not_disconnect (onNormal_out _ _ _ _ _ _ o ho')
    · intro hx
      have := (ident_sd he).symm.trans hx
      rw [h2] at this; cases this
    · intro hx
      have := (ident_cd he).symm.trans hx
      rw [h1] at this; cases this
    · exact fun _ => (ident_sd he).trans h2
  | write => exact same rfl rfl
  | pass hh hp => exact same rfl ((congrArg Session.ident (pass_core hp)).trans rfl)
  | flags ho _ _ => exact same rfl (by rw [ho])

theorem read_stopped {items : List ReadItem} {r r' : PollOut}
    (h : readLoop cfg hooks hext .v5 items r = some (.back, r')) (hf : .failed ∉ items)
    (hu : ∀ x ∈ r'.log, x.what.unhooked ∧ x.what.isForeign = false) : r'.ended = r.ended := by
  induction items generalizing r with
  | nil =>
    unfold readLoop at h
    simp only at h
    split at h
    · cases h
    · split at h <;> cases h
  | cons it items ih =>
    have hf' : .failed ∉ items := fun h => hf (by simp [h])
    unfold readLoop at h
    simp only at h
    split at h
    · cases h
    · rename_i hd
      split at h
      · cases h
      · cases it with
        | failed => simp at hf
        | malformed => exact (ih h hf').trans rfl
        | packet m size p slow =>
          simp only at h
          split at h
          · cases h; rfl
          · split at h
            · cases h
            · rename_i res hp
              split at h
              · rename_i hc
                cases h
                have := hu ⟨.packet m size p, res.out⟩ (by simp)
                have ha : m.ans = {} := this.1
                rw [ha] at hp
                cases v5_packet (by simpa using hd) hp with
                | fail _ _ _ _ h1 => rw [h1] at hc; cases hc
                | bye _ _ _ _ _ _ h1 => rw [h1] at hc; cases hc
                | fine _ _ h1 =>
                  have h2 := this.2
                  rw [h1 hc] at h2; cases h2
              · exact (ih h hf').trans rfl

theorem control_draining {items : List CtlItem} {r : PollOut} :
    (controlLoop items r).2.loop.draining = r.loop.draining := by
  induction items generalizing r with
  | nil => rfl
  | cons it items ih =>
    cases it with
    | other => exact ih
    | kick => rfl
    | takeOver => rfl

theorem normal_draining {pr : Proto} {items : List (Moment × NormalMsg)} {r : PollOut} :
    (normalLoop cfg pr items r).loop.draining = r.loop.draining := by
  induction items generalizing r with
  | nil =>
    unfold normalLoop
    simp only
    split
    · rfl
    · split <;> rfl
  | cons it items ih =>
    unfold normalLoop
    simp only
    split
    · rfl
    · split
      · rfl
      · rw [ih]; rfl

theorem write_draining {i : PollIn} {r r' : PollOut} {w : Bool} {f : Flowing}
    (h : writePart enc i r = (f, w, r')) : r'.loop.draining = r.loop.draining := by
  unfold writePart at h
  simp only at h
  split at h
  · cases h; rfl
  · split at h
    · split at h <;> cases h <;> rfl
    · cases h; rfl

/-- A connection that is being closed stays so. -/
theorem run_disc {pr : Proto} {l l' : OnlineLoop} {b : List Handled}
    {got : List (ClientId × NormalMsg)} (h : LRun cfg hooks hext pr enc l b got l')
    (hd : l.out.session.disconnected = true) (hh : l.hook = none) :
    l'.out.session.disconnected = true ∧ l'.hook = none := by
  induction h with
  | nil => exact ⟨hd, hh⟩
  | snoc _ hs ih => exact disc_step ih.1 ih.2 hs

theorem work_stopped {i : PollIn} {r0 r : PollOut} (h0 : r0.ended = none)
    (h : workPart cfg hooks hext .v5 enc i r0 = some r) (he : r.ended.isSome)
    (hl : r.loop.writer.live = true) (hk : .kick ∉ i.controls) (hfl : i.flush ≠ .error)
    (hf : .failed ∉ i.reads)
    (hu : ∀ x ∈ r.log, x.what.unhooked ∧ x.what.isForeign = false) :
    r.loop.draining.isSome ∧
      (r.loop.out.session.disconnected = true ∨ r0.loop.draining.isSome) := by
  unfold workPart at h
  split at h
  · cases h
  · rename_i r1 hr
    cases h
    rw [read_stopped hr hf hu, h0] at he
    cases he
  · rename_i r1 hr
    obtain ⟨hdr1, h2, -⟩ := read_ended hr
    have hc := control_ended (r := r1) hk
    have hdr2 := control_draining (items := i.controls) (r := r1)
    split at h
    · rename_i r2 hctl
      cases h
      rw [hctl] at hc
      rw [show r.ended = _ from hc, h2 rfl, h0] at he
      cases he
    · rename_i r2 hctl
      rw [hctl] at hc hdr2
      split at h
      · rename_i w r3 hw
        cases h
        cases (write_ended hfl hw hl).1
      · rename_i w r3 hw
        unfold lastPart at h
        split at h
        · cases h
        · rename_i out got hp
          simp only at h
          split at h
          · rename_i d hd
            cases h
            have hsame : (drainPart enc i { r3 with
              loop := { r3.loop with out := out,
                                     draining := r3.loop.draining <|> out.session.disconnectedBy },
              got := r3.got ++ got,
              waits := r3.waits ++ r3.loop.out.blocking i.sinks } d).loop.draining =
                (r3.loop.draining <|> out.session.disconnectedBy) := by
              unfold drainPart
              simp only
              repeat' split
              all_goals rfl
            refine ⟨by rw [hsame, hd]; rfl, ?_⟩
            have hout : (drainPart enc i { r3 with
              loop := { r3.loop with out := out,
                                     draining := r3.loop.draining <|> out.session.disconnectedBy },
              got := r3.got ++ got,
              waits := r3.waits ++ r3.loop.out.blocking i.sinks } d).loop.out = out := by
              unfold drainPart
              simp only
              repeat' split
              all_goals rfl
            rw [hout]
            cases hx : r3.loop.draining with
            | some d' =>
              right
              rw [write_draining hw, normal_draining, show r2.loop.draining = _ from hdr2, hdr1] at hx
              rw [hx]; rfl
            | none =>
              left
              rw [hx] at hd
              exact disconnectedBy_some hd
          · cases h
            have h3 := (write_ended hfl hw hl).2
            have : r3.ended.isSome := he
            rw [h3, normal_ended, show r2.ended = _ from hc, h2 rfl, h0] at this
            cases this

theorem poll_stopped {l : OnlineLoop} {i : PollIn} {r : PollOut} (hi : LoopInv l)
    (h : l.poll cfg hooks hext .v5 enc i = some r) (he : r.ended = some .stopped)
    (hl : r.loop.writer.live = true) (hk : .kick ∉ i.controls) (hfl : i.flush ≠ .error)
    (hf : .failed ∉ i.reads)
    (hu : ∀ x ∈ r.log, x.what.unhooked ∧ x.what.isForeign = false) :
    r.loop.draining.isSome ∧ r.loop.out.session.disconnected = true := by
  have hdid := (poll_done hi h).1
  have hand : ∀ r0 : PollOut, r0.ended = none → r0.loop.draining = l.draining →
      handoverPart cfg hooks hext .v5 enc i r0 = some r →
      r.loop.draining.isSome ∧ r.loop.out.session.disconnected = true := by
    intro r0 h0 hr0 h
    unfold handoverPart at h
    split at h
    · split at h
      · cases h; cases he
      · cases h; rw [show r0.ended = _ from he] at h0; cases h0
    · obtain ⟨h1, h2⟩ := work_stopped h0 h (by rw [he]; rfl) hl hk hfl hf hu
      refine ⟨h1, h2.elim id fun h2 => ?_⟩
      rw [hr0] at h2
      have hd := hi.drain h2
      have hh : l.hook = none := by
        cases hx : l.hook with
        | none => rfl
        | some _ =>
          rw [(hi.asked (by rw [hx]; rfl)).1] at hd; cases hd
      rcases hdid with hdid | ⟨b, x, l1, -, -, h3, h4⟩
      · exact (run_disc hdid hd hh).1
      · obtain ⟨h5, h6⟩ := run_disc h3 hd hh
        rcases h4.from_ with h7 | ⟨-, h7, -⟩
        · rw [h6] at h7; cases h7
        · rw [h5] at h7; cases h7
  unfold OnlineLoop.poll at h
  simp only at h
  split at h
  · exact hand _ rfl rfl h
  · rename_i size p hh
    split at h
    · cases h; cases he
    · rename_i m hm
      split at h
      · cases h
      · rename_i res hp
        split at h
        · rename_i hc
          cases h
          have := hu ⟨.packet m size p, res.out⟩ (by simp)
          have ha : m.ans = {} := this.1
          rw [ha] at hp
          cases v5_packet (hi.asked (by rw [hh]; rfl)).1 hp with
          | fail _ _ _ _ h1 => rw [h1] at hc; cases hc
          | bye _ _ _ _ _ _ h1 => rw [h1] at hc; cases hc
          | fine _ _ h1 =>
            have h2 := this.2
            rw [h1 hc] at h2; cases h2
        · exact hand _ rfl rfl h

/-- At the end of a run. -/
theorem loop_run_end {s : Session} (hs : s.idle) (hd : s.disconnected = false) {is : List PollIn}
    {rs : List PollOut} (h : (OnlineLoop.new s).run cfg hooks hext .v5 enc is = some rs)
    {r : PollOut} (hr : rs.getLast? = some r)
    (hu : ∀ x ∈ handledBy rs, x.what.unhooked ∧ x.what.isForeign = false) :
    EndInv (handledBy rs) r.loop := by
  obtain ⟨h1, h2⟩ := connected_iff.1 hd
  refine loop_run_induction (cfg := cfg) (hooks := hooks) (ext := hext) (pr := .v5) (enc := enc)
    (Q := fun b _ l => EndInv b l) (loopInv_new hs.1 hs.2) h hr ?_ ?_ ?_
  · refine ⟨fun _ o ho => by simp at ho, fun hx => ?_, fun hx => ?_, fun _ => h2⟩
    · have : s.serverDisconnected = true := hx
      rw [h2] at this; cases this
    · have : s.clientDisconnected = true := hx
      rw [h1] at this; cases this
  · intro b g l1 b' g' l2 hi hq hst hm
    exact endInv_step hi hq (fun x hx => (hu x (hm x (by simp [hx]))).1) hst
  · intro b g l1 x l2 hi hq hl hm
    exfalso
    obtain ⟨m, size, p, res, hp, hc, rfl, rfl⟩ := hl.ex
    have := hu ⟨.packet m size p, res.out⟩ (hm _ (by simp))
    have ha : m.ans = {} := this.1
    rw [ha] at hp
    have hd : l1.out.session.disconnected = false := by
      rcases hl.from_ with h | ⟨-, h, -⟩
      · exact (hi.asked h).1
      · exact h
    cases v5_packet hd hp with
    | fail _ _ _ _ h1 => rw [h1] at hc; cases hc
    | bye _ _ _ _ _ _ h1 => rw [h1] at hc; cases hc
    | fine _ _ h1 =>
      have h2 := this.2
      rw [h1 hc] at h2; cases h2

end task

end Akasa
