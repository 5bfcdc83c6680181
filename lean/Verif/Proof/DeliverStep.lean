import Verif.Proof.Deliver
import Verif.Proof.Incoming
/-! Every step of a session acts on its outgoing queue as its inputs say. -/
namespace Akasa

/-! ## the queue is not touched by incoming PUBLISH -/

theorem sender_pushCopy (s : Session) (reg : ClientId → Bool) (id : ClientId) (m : NormalMsg) :
    (s.pushCopy reg id m).sender = s.sender := by
  unfold Session.pushCopy
  split
  · rfl
  · split <;> rfl

theorem sender_pushFold (reg : ClientId → Bool) (cs : List (ClientId × NormalMsg)) (s : Session) :
    (cs.foldl (fun s c => s.pushCopy reg c.1 c.2) s).sender = s.sender := by
  induction cs generalizing s with
  | nil => rfl
  | cons c cs ih => exact (ih _).trans (sender_pushCopy ..)

theorem sender_sendOf {pr : Proto} {env : Env} {g : Global} {s : Session} {m : SendPub}
    {s' : Session} {g' : Global} {n : Nat} (h : sendOf pr env g s m = some (s', g', n)) :
    s'.sender = s.sender := by
  cases pr
  · simp only [sendOf, Option.map_eq_some_iff] at h
    obtain ⟨r, h1, h2⟩ := h
    unfold sendPublishV3 at h1
    simp only at h1
    split at h1
    · cases h1
    · cases h1; cases h2; exact sender_pushFold ..
  · simp only [sendOf, sendPublishV5] at h
    split at h
    · cases h
    · cases h; exact sender_pushFold ..

theorem replyOf_quiet (pr : Proto) (p : Publish) (n : Nat) :
    (replyOf pr p n).filter OutPkt.isDelivery = [] := by
  cases pr <;> simp only [replyOf, ackV3, ackV5] <;> split <;> rfl

theorem publish_quiet {cfg : Config} {ext : Ext} {pr : Proto} {env : Env} {g : Global} {s : Session}
    {p : Publish} {r : Res} (h : PubCase cfg ext pr env g s p r) :
    r.session.sender = s.sender ∧ r.out.filter OutPkt.isDelivery = [] ∧
      (r.closed = true → r.out = []) := by
  have hres : ∀ {s1 : Session} {t : Str}, Resolved cfg pr s p s1 t → s1.sender = s.sender := by
    intro s1 t h
    rw [resolved_ident h]
  cases h with
  | rejectV5 hpr s' hs code =>
    refine ⟨?_, rfl, by simp [failV5]⟩
    rcases hs with rfl | ⟨t, ht⟩
    · rfl
    · exact (hres ht :)
  | rejectV3 hpr => exact ⟨rfl, rfl, by simp [failV3]⟩
  | inUse _ s1 topic pid prev h1 => exact ⟨hres h1, rfl, by simp⟩
  | repeated s1 topic pid h1 => exact ⟨hres h1, rfl, by simp⟩
  | lostFirst s1 topic pid h1 => exact ⟨(hres h1 :), rfl, by simp⟩
  | route2 s1 topic pid s' g' n h1 _ _ _ _ hs =>
    exact ⟨(sender_sendOf hs).trans (hres h1 :), replyOf_quiet .., by simp⟩
  | route01 s1 topic s' g' n h1 _ hs =>
    exact ⟨(sender_sendOf hs).trans (hres h1), replyOf_quiet .., by simp⟩

/-! ## SUBSCRIBE -/

theorem disc_of_core {a b : Session} (h : a.core = b.core) : a.disconnected = b.disconnected :=
  ident_disc (ident_of_core h)

theorem copyV5_congr {a b : Session} (h : a.ident = b.ident) (cfg : Config) (o : SubOpts)
    (id : Option Nat) : retainedCopyV5 cfg a o id = retainedCopyV5 cfg b o id := by
  funext c
  unfold retainedCopyV5
  rw [ident_identifier h, ident_maxPacketSize h]

theorem retained_handedV5 {cfg : Config} {s : Session} (hc : s.disconnected = false) (now : Nat)
    {F : Str} {o : SubOpts} {d : SubData} (hF : s.subscribes.get F = some d)
    (c : RetainContent) (hown : ¬ (o.noLocal = true ∧ c.publisher = s.identifier)) :
    Handed .v5 now s (retainedCopyV5 cfg s o d.id c)
      (recvPublishV5 now s {
        topic := c.topic, qos := c.qos, retain := o.retainAsPublished, payload := c.payload
        props := c.props, ids := .lookup F, subQos := min o.maxQos cfg.maxAllowedQos
        encodeLen := match c.props with
          | none => c.encodeLen + 1
          | some _ => c.encodeLen }) := by
  simp only [recvPublishV5, hF]
  have hsize : (match c.props with
      | none => c.encodeLen + 1
      | some _ => c.encodeLen) = c.size := by
    unfold RetainContent.size
    cases c.props <;> simp
  have := handed_deliverV5 hc now
    { topic := c.topic, qos := c.qos, retain := o.retainAsPublished, payload := c.payload
      props := c.props, ids := .lookup F, subQos := min o.maxQos cfg.maxAllowedQos
      encodeLen := c.size } { c.props.getD {} with subscriptionIds := d.id.toList }
  rw [hsize]
  have hd : retainedCopyV5 cfg s o d.id c = RecvPub.due s
      { topic := c.topic, qos := c.qos, retain := o.retainAsPublished, payload := c.payload
        props := c.props, ids := .lookup F, subQos := min o.maxQos cfg.maxAllowedQos
        encodeLen := c.size } { c.props.getD {} with subscriptionIds := d.id.toList } := by
    unfold retainedCopyV5 RecvPub.due
    rw [if_neg hown]
  rw [hd]
  exact this

theorem filterMap_map_message {α : Type} (f : α → Option PubPacket) (c : α) (cs : List α) :
    ((c :: cs).filterMap f).map Input.message =
      ((f c).map Input.message).toList ++ (cs.filterMap f).map Input.message := by
  rw [List.filterMap_cons]
  cases f c <;> rfl

theorem refines_sendRetainedV5 {cfg : Config} (now : Nat → Nat) {F : Str} (o : SubOpts)
    {d : SubData} (cs : List RetainContent) (j : Nat) (s : Session)
    (hc : s.disconnected = false) (hF : s.subscribes.get F = some d) :
    ∃ ops, Refines .v5 s
        (sendRetainedV5 now F { o with maxQos := min o.maxQos cfg.maxAllowedQos }
          (min o.maxQos cfg.maxAllowedQos) j s cs).1
        (sendRetainedV5 now F { o with maxQos := min o.maxQos cfg.maxAllowedQos }
          (min o.maxQos cfg.maxAllowedQos) j s cs).2.1 ops ∧
      ops.filterMap OutOp.input = (cs.filterMap (retainedCopyV5 cfg s o d.id)).map .message ∧
      passClocks ops = [] := by
  induction cs generalizing j s with
  | nil => exact ⟨[], .quiet rfl rfl, rfl, rfl⟩
  | cons c cs ih =>
    simp only [sendRetainedV5]
    by_cases hown : o.noLocal = true ∧ c.publisher = s.identifier
    · rw [if_pos (by simpa using hown)]
      obtain ⟨ops, h1, h2, hp⟩ := ih (j + 1) s hc hF
      refine ⟨ops, h1, ?_, hp⟩
      rw [h2, filterMap_map_message]
      have : retainedCopyV5 cfg s o d.id c = none := by unfold retainedCopyV5; rw [if_pos hown]
      rw [this]; rfl
    · rw [if_neg (by simpa using hown)]
      have hh := retained_handedV5 (cfg := cfg) hc (now j) hF c hown
      generalize hr : recvPublishV5 (now j) s {
        topic := c.topic, qos := c.qos, retain := o.retainAsPublished, payload := c.payload
        props := c.props, ids := .lookup F, subQos := min o.maxQos cfg.maxAllowedQos
        encodeLen := match c.props with
          | none => c.encodeLen + 1
          | some _ => c.encodeLen } = r at hh ⊢
      have hcore : r.1.core = s.core := by rw [← hr]; exact core_recvV5 ..
      obtain ⟨ops1, h1, h2, hp1⟩ := hh.refines
      obtain ⟨ops2, h3, h4, hp2⟩ := ih (j + 1) r.1 ((disc_of_core hcore).trans hc)
        (by rw [core_subs hcore]; exact hF)
      refine ⟨ops1 ++ ops2, ?_, ?_, by rw [passClocks_append, hp1, hp2]; rfl⟩
      · cases hr2 : r.2 with
        | none =>
          rw [hr2] at h1
          exact h1.trans h3
        | some x =>
          rw [hr2] at h1
          exact h1.trans h3
      · rw [List.filterMap_append, h2, h4, filterMap_map_message,
          copyV5_congr (ident_of_core hcore)]

theorem refines_sendRetainedV3 {cfg : Config} (now : Nat → Nat) {F : Str} (q : QoS)
    {d : SubData} (cs : List RetainContent) (j : Nat) (s : Session)
    (hc : s.disconnected = false) (hF : s.subscribes.get F = some d) :
    ∃ ops, Refines .v3 s
        (sendRetainedV3 now F (min q cfg.maxAllowedQos) j s cs).1
        (sendRetainedV3 now F (min q cfg.maxAllowedQos) j s cs).2.1 ops ∧
      ops.filterMap OutOp.input = (cs.filterMap (retainedCopyV3 cfg q)).map .message ∧
      passClocks ops = [] := by
  induction cs generalizing j s with
  | nil => exact ⟨[], .quiet rfl rfl, rfl, rfl⟩
  | cons c cs ih =>
    simp only [sendRetainedV3]
    by_cases hle : c.qos ≤ min q cfg.maxAllowedQos
    · rw [if_pos hle]
      have hh := handed_recvV3 hc (now j) c.topic c.qos true c.payload F (min q cfg.maxAllowedQos)
      have hmin : min c.qos (min q cfg.maxAllowedQos) = c.qos := by
        show (if c.qos ≤ min q cfg.maxAllowedQos then _ else _) = _
        rw [if_pos hle]
      rw [if_neg (by rw [hF]; simp), hmin] at hh
      generalize hr : recvPublishV3 (now j) s c.topic c.qos true c.payload F
        (min q cfg.maxAllowedQos) = r at hh ⊢
      have hcore : r.1.core = s.core := by rw [← hr]; exact core_recvV3 ..
      obtain ⟨ops1, h1, h2, hp1⟩ := hh.refines
      obtain ⟨ops2, h3, h4, hp2⟩ := ih (j + 1) r.1 ((disc_of_core hcore).trans hc)
        (by rw [core_subs hcore]; exact hF)
      refine ⟨ops1 ++ ops2, ?_, ?_, by rw [passClocks_append, hp1, hp2]; rfl⟩
      · cases hr2 : r.2 with
        | none => rw [hr2] at h1; exact h1.trans h3
        | some x => rw [hr2] at h1; exact h1.trans h3
      · rw [List.filterMap_append, h2, h4, filterMap_map_message]
        have : retainedCopyV3 cfg q c =
            some { topic := c.topic, payload := c.payload, qos := c.qos, retain := true } := by
          unfold retainedCopyV3
          rw [if_neg (by simpa using hle)]
        rw [this]
    · rw [if_neg hle]
      obtain ⟨ops, h1, h2, hp⟩ := ih (j + 1) s hc hF
      refine ⟨ops, h1, ?_, hp⟩
      rw [h2, filterMap_map_message]
      have : retainedCopyV3 cfg q c = none := by
        unfold retainedCopyV3; rw [if_pos (by simpa using hle)]
      rw [this]; rfl

theorem isShared_iff (F : Str) : isShared F = true ↔ ¬ IsPlain F := by
  unfold isShared IsPlain
  cases sharedInfo F <;> simp

theorem hasWildcard_iff (F : Str) : hasWildcard F = true ↔ ¬ ('+' ∉ F ∧ '#' ∉ F) := by
  unfold hasWildcard
  rw [List.any_eq_true]
  constructor
  · rintro ⟨c, hc, h⟩ ⟨h1, h2⟩
    simp at h
    rcases h with rfl | rfl
    · exact h1 hc
    · exact h2 hc
  · intro h
    by_cases h1 : '+' ∈ F
    · exact ⟨_, h1, by simp⟩
    · by_cases h2 : '#' ∈ F
      · exact ⟨_, h2, by simp⟩
      · exact absurd ⟨h1, h2⟩ h

theorem subscribeCode_accepts {cfg : Config} {F : Str} (o : SubOpts) (h : Accepts cfg F) :
    subscribeCode cfg F o = .grantedQos (min o.maxQos cfg.maxAllowedQos) := by
  obtain ⟨h1, h2⟩ := h
  unfold subscribeCode
  rw [if_neg, if_neg]
  · intro hh
    simp only [Bool.and_eq_true, Bool.not_eq_true'] at hh
    rcases h2 with h2 | h2
    · rw [h2] at hh; cases hh.1
    · exact (hasWildcard_iff F).mp hh.2 h2
  · intro hh
    simp only [Bool.and_eq_true, Bool.not_eq_true'] at hh
    rcases h1 with h1 | h1
    · rw [h1] at hh; cases hh.1
    · exact (isShared_iff F).mp hh.2 h1

theorem subscribeCode_refuses {cfg : Config} {F : Str} (o : SubOpts) (h : ¬ Accepts cfg F) :
    (subscribeCode cfg F o = .sharedSubscriptionNotSupported ∧ cfg.sharedAvailable = false ∧
      ¬ IsPlain F) ∨
    (subscribeCode cfg F o = .wildcardSubscriptionsNotSupported ∧ cfg.wildcardAvailable = false ∧
      ('+' ∈ F ∨ '#' ∈ F)) := by
  unfold subscribeCode
  by_cases h1 : (!cfg.sharedAvailable && isShared F) = true
  · left
    rw [if_pos h1]
    simp only [Bool.and_eq_true, Bool.not_eq_true'] at h1
    exact ⟨rfl, h1.1, (isShared_iff F).mp h1.2⟩
  · rw [if_neg h1]
    by_cases h2 : (!cfg.wildcardAvailable && hasWildcard F) = true
    · right
      rw [if_pos h2]
      simp only [Bool.and_eq_true, Bool.not_eq_true'] at h2
      refine ⟨rfl, h2.1, ?_⟩
      have := (hasWildcard_iff F).mp h2.2
      by_cases hp : '+' ∈ F
      · exact .inl hp
      · by_cases hq : '#' ∈ F
        · exact .inr hq
        · exact absurd ⟨hp, hq⟩ this
    · exfalso
      apply h
      simp only [Bool.and_eq_true, Bool.not_eq_true', not_and] at h1 h2
      constructor
      · cases hs : cfg.sharedAvailable with
        | true => exact .inl rfl
        | false =>
          right
          have := h1 hs
          by_cases hp : IsPlain F
          · exact hp
          · exact absurd ((isShared_iff F).mpr hp) this
      · cases hs : cfg.wildcardAvailable with
        | true => exact .inl rfl
        | false =>
          right
          have := h2 hs
          by_cases hp : '+' ∉ F ∧ '#' ∉ F
          · exact hp
          · exact absurd ((hasWildcard_iff F).mpr hp) this

theorem sendsRetained_iff (cfg : Config) (F : Str) (o : SubOpts) (q : QoS) (known : Bool) :
    sendsRetained cfg F { o with maxQos := q } known = true ↔
      WantsRetained cfg F o (known = true) := by
  unfold sendsRetained WantsRetained
  have := isShared_iff F
  cases cfg.retainAvailable <;> cases hs : isShared F <;> cases o.retainHandling <;> cases known <;>
    simp_all

theorem contains_iff_get (s : Session) (F : Str) :
    s.subscribes.contains F = true ↔ s.subscribes.get F ≠ none := by
  simp only [FMap.contains]
  cases FMap.get s.subscribes F <;> simp

theorem refines_acceptV5 {cfg : Config} {env : Env} {i : Nat} {g : Global} {s : Session} {F : Str}
    {o : SubOpts} {id : Option Nat} {s' : Session} {g' : Global} {out : List OutPkt}
    (hc : s.disconnected = false) (h : acceptV5 cfg env i g s F o id = some (s', g', out)) :
    ∃ ops, Refines .v5 s s' out ops ∧
      ops.filterMap OutOp.input =
        (if WantsRetained cfg F o (s.subscribes.get F ≠ none) then
          (g.stored F).filterMap (retainedCopyV5 cfg s o id) else []).map .message ∧
      (passClocks ops).Sublist [env.clk i] := by
  unfold acceptV5 at h
  simp only at h
  split at h
  · cases h
  · have hiff : (sendsRetained cfg F { o with maxQos := min o.maxQos cfg.maxAllowedQos }
        (s.subscribes.contains F) = true) ↔
        WantsRetained cfg F o (s.subscribes.get F ≠ none) := by
      rw [sendsRetained_iff]
      unfold WantsRetained
      rw [contains_iff_get]
    split at h
    · rename_i hw
      rw [if_pos (hiff.mp hw)]
      split at h
      · cases h
      · rename_i cs hcs
        have hst : g.stored F = cs := by unfold Global.stored; rw [hcs]; rfl
        rw [hst]
        obtain ⟨ops, h1, h2, hp⟩ := refines_sendRetainedV5 (cfg := cfg) (env.now i) o cs 0
          ({ s with subscribes := (s.subscribes.insert F
            { opts := { o with maxQos := min o.maxQos cfg.maxAllowedQos }, id }) }) hc
          (FMap.get_insert_self _ _ _)
        have h1' : Refines .v5 s _ _ ops := ⟨h1.sender, h1.out, h1.way⟩
        split at h
        · cases h
          refine ⟨_, h1'.trans (refines_pendings .v5 (env.clk i) _), ?_,
            by rw [passClocks_append, hp]; exact List.Sublist.refl _⟩
          rw [List.filterMap_append, h2]
          exact List.append_nil _
        · cases h
          exact ⟨_, h1', h2, by rw [hp]; exact List.nil_sublist _⟩
    · rename_i hw
      cases h
      rw [if_neg (fun hh => hw (hiff.mpr hh))]
      exact ⟨[], .quiet rfl rfl, rfl, List.nil_sublist _⟩

theorem refines_acceptV3 {cfg : Config} {env : Env} {i : Nat} {g : Global} {s : Session} {F : Str}
    {q : QoS} {s' : Session} {g' : Global} {out : List OutPkt}
    (hc : s.disconnected = false) (h : acceptV3 cfg env i g s F q = some (s', g', out)) :
    ∃ ops, Refines .v3 s s' out ops ∧
      ops.filterMap OutOp.input =
        ((g.stored F).filterMap (retainedCopyV3 cfg q)).map .message ∧
      (passClocks ops).Sublist [env.clk i] := by
  unfold acceptV3 at h
  simp only at h
  split at h
  · cases h
  · split at h
    · cases h
    · rename_i cs hcs
      have hst : g.stored F = cs := by unfold Global.stored; rw [hcs]; rfl
      rw [hst]
      obtain ⟨ops, h1, h2, hp⟩ := refines_sendRetainedV3 (cfg := cfg) (env.now i) q cs 0
        ({ s with subscribes := (s.subscribes.insert F
          { opts := { maxQos := min q cfg.maxAllowedQos } }) }) hc (FMap.get_insert_self _ _ _)
      have h1' : Refines .v3 s _ _ ops := ⟨h1.sender, h1.out, h1.way⟩
      split at h
      · cases h
        refine ⟨_, h1'.trans (refines_pendings .v3 (env.clk i) _), ?_,
          by rw [passClocks_append, hp]; exact List.Sublist.refl _⟩
        rw [List.filterMap_append, h2]
        exact List.append_nil _
      · cases h
        exact ⟨_, h1', h2, by rw [hp]; exact List.nil_sublist _⟩

theorem retainedV5_congr {a b : Session} {cfg : Config} {g g' : Global} {id : Option Nat}
    (hi : a.ident = b.ident) (hg : g.retain = g'.retain) {e1 e2 : List Str}
    (hk : ∀ F, (a.subscribes.get F ≠ none ∨ F ∈ e1) ↔ (b.subscribes.get F ≠ none ∨ F ∈ e2))
    (F : Str) (o : SubOpts) :
    retainedV5 cfg g a id e1 F o = retainedV5 cfg g' b id e2 F o := by
  have h1 : g.stored F = g'.stored F := by unfold Global.stored; rw [hg]
  unfold retainedV5
  rw [h1, copyV5_congr hi]
  have h2 : WantsRetained cfg F o (a.subscribes.get F ≠ none ∨ F ∈ e1) ↔
      WantsRetained cfg F o (b.subscribes.get F ≠ none ∨ F ∈ e2) := by
    unfold WantsRetained; rw [hk]
  by_cases hh : Accepts cfg F ∧ WantsRetained cfg F o (a.subscribes.get F ≠ none ∨ F ∈ e1)
  · rw [if_pos hh, if_pos ⟨hh.1, h2.mp hh.2⟩]
  · rw [if_neg hh, if_neg (fun x => hh ⟨x.1, h2.mpr x.2⟩)]

theorem retainedDueV5_congr {cfg : Config} {id : Option Nat} (ts : List (Str × SubOpts))
    {a b : Session} {g g' : Global}
    (hi : a.ident = b.ident) (hg : g.retain = g'.retain) {e1 e2 : List Str}
    (hk : ∀ F, Accepts cfg F →
      ((a.subscribes.get F ≠ none ∨ F ∈ e1) ↔ (b.subscribes.get F ≠ none ∨ F ∈ e2))) :
    retainedDueV5 cfg g a id e1 ts = retainedDueV5 cfg g' b id e2 ts := by
  induction ts generalizing e1 e2 with
  | nil => rfl
  | cons t ts ih =>
    obtain ⟨F, o⟩ := t
    simp only [retainedDueV5]
    rw [ih (e1 := F :: e1) (e2 := F :: e2)]
    · congr 1
      by_cases ha : Accepts cfg F
      · have h1 : g.stored F = g'.stored F := by unfold Global.stored; rw [hg]
        have h2 : WantsRetained cfg F o (a.subscribes.get F ≠ none ∨ F ∈ e1) ↔
            WantsRetained cfg F o (b.subscribes.get F ≠ none ∨ F ∈ e2) := by
          unfold WantsRetained; rw [hk F ha]
        unfold retainedV5
        rw [h1, copyV5_congr hi]
        by_cases hh : Accepts cfg F ∧ WantsRetained cfg F o (a.subscribes.get F ≠ none ∨ F ∈ e1)
        · rw [if_pos hh, if_pos ⟨hh.1, h2.mp hh.2⟩]
        · rw [if_neg hh, if_neg (fun x => hh ⟨x.1, h2.mpr x.2⟩)]
      · unfold retainedV5
        rw [if_neg (fun x => ha x.1), if_neg (fun x => ha x.1)]
    · intro F' hF'
      have := hk F' hF'
      simp only [List.mem_cons]
      constructor
      · rintro (h | h | h)
        · exact (this.mp (.inl h)).elim .inl (fun x => .inr (.inr x))
        · exact .inr (.inl h)
        · exact (this.mp (.inr h)).elim .inl (fun x => .inr (.inr x))
      · rintro (h | h | h)
        · exact (this.mpr (.inl h)).elim .inl (fun x => .inr (.inr x))
        · exact .inr (.inl h)
        · exact (this.mpr (.inr h)).elim .inl (fun x => .inr (.inr x))

theorem refines_subscribeLoopV5 {cfg : Config} {env : Env} {id : Option Nat}
    {ts : List (Str × SubOpts)} {i : Nat} {g : Global} {s : Session}
    {r : Session × Global × List OutPkt × List Reason} (hc : s.disconnected = false)
    (h : subscribeLoopV5 cfg env id i g s ts = some r) :
    ∃ ops, Refines .v5 s r.1 r.2.2.1 ops ∧
      ops.filterMap OutOp.input = (retainedDueV5 cfg g s id [] ts).map .message ∧
      (passClocks ops).Sublist ((List.range' i ts.length).map env.clk) := by
  induction ts generalizing i g s r with
  | nil =>
    simp only [subscribeLoopV5, Option.some.injEq] at h; subst h
    exact ⟨[], .quiet rfl rfl, rfl, List.nil_sublist _⟩
  | cons t ts ih =>
    obtain ⟨F, o⟩ := t
    rw [subscribeLoopV5] at h
    by_cases hacc : Accepts cfg F
    · rw [subscribeCode_accepts o hacc] at h
      simp only at h
      split at h
      · cases h
      · rename_i s1 g1 out ha
        rw [Option.map_eq_some_iff] at h
        obtain ⟨r', h1, rfl⟩ := h
        have hcore := core_acceptV5 ha
        have hid : s1.ident = s.ident := by unfold Session.ident; rw [hcore]
        obtain ⟨ops1, k1, k2, hp1⟩ := refines_acceptV5 hc ha
        obtain ⟨ops2, k3, k4, hp2⟩ := ih ((ident_disc hid).trans hc) h1
        refine ⟨ops1 ++ ops2, k1.trans k3, ?_, by
          rw [passClocks_append, List.length_cons, List.range'_succ, List.map_cons]
          exact hp1.append hp2⟩
        rw [List.filterMap_append, k2, k4, ← List.map_append]
        congr 1
        simp only [retainedDueV5]
        congr 1
        · unfold retainedV5 WantsRetained
          simp [hacc]
        · refine retainedDueV5_congr ts hid (retain_acceptV5 ha) ?_
          intro F' _
          have hsub : s1.subscribes = s.subscribes.insert F
              { opts := { o with maxQos := min o.maxQos cfg.maxAllowedQos }, id } :=
            congrArg Session.subscribes hcore
          rw [hsub, FMap.get_insert]
          by_cases e : F' = F
          · subst e; simp
          · simp [e, Ne.symm e]
    · have hcode : ∀ q, subscribeCode cfg F o ≠ .grantedQos q := by
        intro q e
        rcases subscribeCode_refuses o hacc with ⟨h1, _⟩ | ⟨h1, _⟩ <;> rw [h1] at e <;> cases e
      split at h
      · rename_i q hq
        exact absurd hq (hcode q)
      · rw [Option.map_eq_some_iff] at h
        obtain ⟨r', h1, rfl⟩ := h
        obtain ⟨ops2, k3, k4, hp2⟩ := ih hc h1
        refine ⟨ops2, k3, ?_, by
          rw [List.length_cons, List.range'_succ, List.map_cons]
          exact hp2.cons _⟩
        rw [k4]
        congr 1
        simp only [retainedDueV5]
        have : retainedV5 cfg g s id [] F o = [] := by
          unfold retainedV5; rw [if_neg (fun x => hacc x.1)]
        rw [this, List.nil_append]
        refine retainedDueV5_congr ts rfl rfl ?_
        intro F' hF'
        have : F' ≠ F := by rintro rfl; exact hacc hF'
        simp [this]

theorem retainedDueV3_congr (cfg : Config) {g g' : Global} (hg : g.retain = g'.retain)
    (ts : List (Str × SubOpts)) : retainedDueV3 cfg g ts = retainedDueV3 cfg g' ts := by
  induction ts with
  | nil => rfl
  | cons t ts ih =>
    obtain ⟨F, o⟩ := t
    have h1 : g.stored F = g'.stored F := by unfold Global.stored; rw [hg]
    simp only [retainedDueV3, ih, h1]

theorem refines_subscribeLoopV3 {cfg : Config} {env : Env}
    {ts : List (Str × SubOpts)} {i : Nat} {g : Global} {s : Session}
    {r : Session × Global × List OutPkt × List Reason × Bool} (hc : s.disconnected = false)
    (h : subscribeLoopV3 cfg env i g s (ts.map fun t => (t.1, t.2.maxQos)) = some r) :
    ∃ ops, Refines .v3 s r.1 r.2.2.1 ops ∧
      ops.filterMap OutOp.input = (retainedDueV3 cfg g ts).map .message ∧
      (passClocks ops).Sublist ((List.range' i ts.length).map env.clk) := by
  induction ts generalizing i g s r with
  | nil =>
    simp only [List.map_nil, subscribeLoopV3, Option.some.injEq] at h; subst h
    exact ⟨[], .quiet rfl rfl, rfl, List.nil_sublist _⟩
  | cons t ts ih =>
    obtain ⟨F, o⟩ := t
    rw [List.map_cons, subscribeLoopV3] at h
    by_cases hp : IsPlain F
    · have hns : ¬ isShared F = true := fun hh => (isShared_iff F).mp hh hp
      rw [if_neg hns] at h
      split at h
      · cases h
      · rename_i s1 g1 out ha
        rw [Option.map_eq_some_iff] at h
        obtain ⟨r', h1, rfl⟩ := h
        have hcore := core_acceptV3 ha
        have hid : s1.ident = s.ident := by unfold Session.ident; rw [hcore]
        obtain ⟨ops1, k1, k2, hp1⟩ := refines_acceptV3 hc ha
        obtain ⟨ops2, k3, k4, hp2⟩ := ih ((ident_disc hid).trans hc) h1
        refine ⟨ops1 ++ ops2, k1.trans k3, ?_, by
          rw [passClocks_append, List.length_cons, List.range'_succ, List.map_cons]
          exact hp1.append hp2⟩
        rw [List.filterMap_append, k2, k4, ← List.map_append]
        simp only [retainedDueV3]
        rw [if_pos hp, retainedDueV3_congr cfg (retain_acceptV3 ha)]
    · rw [if_pos ((isShared_iff F).mpr hp)] at h
      cases h
      refine ⟨[], .quiet rfl rfl, ?_, List.nil_sublist _⟩
      simp only [retainedDueV3]
      rw [if_neg hp]; rfl

end Akasa
