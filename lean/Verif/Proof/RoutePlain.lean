import Verif.Proof.RouteTable
import Verif.Proof.Retain
import Verif.Model.Online
/-! # A routing table without shared subscriptions never panics -/
namespace Akasa
open RouteNode

/-- A routing table without shared subscriptions. -/
structure PlainRoute (t : RouteTable) : Prop where
  clean : t.root.Clean
  tf : ∀ p, (t.root.contentAt p).isEmpty = false → (t.root.contentAt p).topicFilter ≠ none
  groups : ∀ p, (t.root.contentAt p).groups = []

theorem PlainRoute.empty : PlainRoute RouteTable.empty := by
  have h : ∀ p, RouteTable.empty.root.contentAt p = RouteContent.empty := contentAt_new
  exact ⟨fun p _ => h p, (fun p hp => by rw [h] at hp; cases hp), (fun p => by rw [h]; rfl)⟩

theorem PlainRoute.sub {t : RouteTable} (h : PlainRoute t) {f : Str} (hf : IsPlain f)
    (id : ClientId) (q : QoS) : ∃ t', t.subscribe f id q = some t' ∧ PlainRoute t' := by
  have e : t.subscribe f id q = t.subscribeShared f id q none := by
    unfold IsPlain at hf; unfold RouteTable.subscribe; rw [hf]
  rw [e]
  obtain ⟨t', h1, h2⟩ := RouteTable.subscribeShared_some (t := t) (f := f) (id := id) (q := q)
    (g := none) rfl
  have hadd := add_facts (c := t.root.contentAt (levels f)) (f := f) (id := id) (q := q)
    (g := none) rfl
  refine ⟨t', h1, ?_, ?_, ?_⟩
  · intro p hp
    rw [h2] at hp ⊢
    split at hp
    · rw [hadd.1] at hp; cases hp
    · rename_i hne; rw [if_neg hne]; exact h.clean p hp
  · intro p hp
    rw [h2] at hp ⊢
    split at hp
    · rename_i he; rw [if_pos he, hadd.2.1]; simp
    · rename_i hne; rw [if_neg hne]; exact h.tf p hp
  · intro p
    rw [h2]
    split
    · exact h.groups _
    · exact h.groups p

theorem PlainRoute.unsub {t : RouteTable} (h : PlainRoute t) (f : Str) (id : ClientId) :
    ∃ t', t.unsubscribe f id = some t' ∧ PlainRoute t' := by
  have e : t.unsubscribe f id =
      t.unsubscribeShared (RouteOp.target f).1 id (RouteOp.target f).2 := step_unsub_eq t f id
  rw [e]
  generalize RouteOp.target f = tg
  obtain ⟨f, g⟩ := tg
  have hdel : ∃ c', (t.root.contentAt (levels f)).del id g = some c' ∧ c'.groups = [] ∧
      (c'.isEmpty = true → c' = RouteContent.empty) := by
    have hg := h.groups (levels f)
    cases g with
    | none =>
      unfold RouteContent.del
      simp only [Option.map_some]
      refine ⟨_, rfl, ?_, ?_⟩
      · split
        · exact hg
        · exact hg
      · intro he
        split at he
        · rename_i hi
          rw [if_pos hi]
          obtain ⟨e1, e2⟩ := isEmpty_eq hi
          simp only at e1 e2
          simp only [RouteContent.empty, e1, e2]
        · rename_i hi; exact absurd he hi
    | some name =>
      have hn : (t.root.contentAt (levels f)).groups.get name = none := by rw [hg]; rfl
      unfold RouteContent.del
      simp only [hn, Option.map_some]
      refine ⟨_, rfl, ?_, ?_⟩
      · split
        · exact hg
        · exact hg
      · intro he
        split at he
        · rename_i hi
          rw [if_pos hi]
          obtain ⟨e1, e2⟩ := isEmpty_eq hi
          simp only [RouteContent.empty, e1, e2]
        · rename_i hi; exact absurd he hi
  obtain ⟨c', hc', hgr, hem⟩ := hdel
  obtain ⟨t', h1, h2⟩ := RouteTable.unsubscribeShared_some h.clean hc'
  have hfacts := del_facts hc'
  refine ⟨t', h1, ?_, ?_, ?_⟩
  · intro p hp
    rw [h2] at hp ⊢
    split at hp
    · rename_i he; rw [if_pos he]; exact hem hp
    · rename_i hne; rw [if_neg hne]; exact h.clean p hp
  · intro p hp
    rw [h2] at hp ⊢
    split at hp
    · rename_i he
      rw [if_pos he, hfacts.1 hp]
      apply h.tf
      cases hc : (t.root.contentAt (levels f)).isEmpty with
      | false => rfl
      | true => rw [hfacts.2.1 hc] at hp; cases hp
    · rename_i hne; rw [if_neg hne]; exact h.tf p hp
  · intro p
    rw [h2]
    split
    · exact hgr
    · exact h.groups p

theorem PlainRoute.unsubs {t : RouteTable} (h : PlainRoute t) (id : ClientId) (fs : List Str) :
    ∃ t', t.run (fs.map fun f => .unsub f id) = some t' ∧ PlainRoute t' := by
  induction fs generalizing t with
  | nil => exact ⟨t, rfl, h⟩
  | cons f fs ih =>
    obtain ⟨t1, h1, hp⟩ := h.unsub f id
    obtain ⟨t2, h2, hp2⟩ := ih hp
    refine ⟨t2, ?_, hp2⟩
    have h1' : t.step (.unsub f id) = some t1 := h1
    simp only [List.map_cons, RouteTable.run, h1']
    exact h2

/-! ### Lookup -/

theorem push_all {P : RouteContent → Prop} {n : RouteNode} (h : ∀ p, P (n.contentAt p)) :
    ∀ c ∈ n.pushContent, P c ∧ c.isEmpty = false := by
  intro c hc
  unfold pushContent at hc
  split at hc
  · cases hc
  · rename_i he
    simp at hc; subst hc
    exact ⟨h [], by simpa using he⟩

theorem child_all {P : RouteContent → Prop} {n m : RouteNode} {l : Str}
    (h : ∀ p, P (n.contentAt p)) (hg : FMap.get n.nodes l = some m) : ∀ p, P (m.contentAt p) := by
  intro p
  have := h (l :: p)
  rw [contentAt_cons, hg] at this
  exact this

/-- Whatever is looked up is in the tree. -/
theorem getMatches_all {P : RouteContent → Prop} (n : RouteNode) (prev : Str) (cur : Option Str)
    (h : ∀ p, P (n.contentAt p)) : ∀ c ∈ n.getMatches prev cur, P c ∧ c.isEmpty = false := by
  induction hk : cursorLen cur using Nat.strongRecOn generalizing n cur prev with
  | _ k ih =>
    intro c hc
    unfold getMatches at hc
    split at hc
    · exact push_all h c hc
    · cases cur with
      | none =>
        simp only [List.mem_append] at hc
        rcases hc with hc | hc
        · exact push_all h c hc
        · split at hc
          · rename_i m hm; exact push_all (child_all h hm) c hc
          · cases hc
      | some s =>
        have hlt : cursorLen (splitTopic s).2 < k := by rw [← hk]; exact splitTopic_cursorLen s
        simp only [List.mem_append] at hc
        rcases hc with (hc | hc) | hc
        all_goals
          split at hc
          · rename_i m hm; exact ih _ hlt m _ _ (child_all h hm) rfl c hc
          · cases hc

theorem table_getMatches_all {P : RouteContent → Prop} {t : RouteTable} (topic : Str)
    (h : ∀ p, P (t.root.contentAt p)) : ∀ c ∈ t.getMatches topic, P c ∧ c.isEmpty = false := by
  intro c hc
  unfold RouteTable.getMatches at hc
  simp only [List.mem_append] at hc
  rcases hc with hc | hc
  · split at hc
    · rename_i m hm; exact getMatches_all m _ _ (child_all (n := t.root) h hm) c hc
    · cases hc
  · split at hc
    · cases hc
    · simp only [List.mem_append] at hc
      rcases hc with hc | hc
      all_goals
        split at hc
        · rename_i m hm; exact getMatches_all m _ _ (child_all (n := t.root) h hm) c hc
        · cases hc

theorem PlainRoute.found {t : RouteTable} (h : PlainRoute t) (topic : Str) :
    ∀ c ∈ t.getMatches topic, c.topicFilter ≠ none ∧ c.groups = [] := by
  intro c hc
  obtain ⟨h1, h2⟩ := table_getMatches_all
    (P := fun c => (c.isEmpty = false → c.topicFilter ≠ none) ∧ c.groups = []) topic
    (fun p => ⟨h.tf p, h.groups p⟩) c hc
  exact ⟨h1.1 h2, h1.2⟩

theorem collectV3_some {cs : List RouteContent}
    (h : ∀ c ∈ cs, c.topicFilter ≠ none ∧ c.groups = []) : ∃ r, collectV3 cs = some r := by
  induction cs with
  | nil => exact ⟨[], rfl⟩
  | cons c cs ih =>
    obtain ⟨r, hr⟩ := ih fun d hd => h d (by simp [hd])
    have := (h c (by simp)).1
    unfold collectV3
    cases hc : c.topicFilter with
    | none => exact absurd hc this
    | some f => simp only [hr]; exact ⟨_, rfl⟩

theorem collectV5_some (s : Session) (pick : Str → Str → Nat) {cs : List RouteContent}
    (h : ∀ c ∈ cs, c.topicFilter ≠ none ∧ c.groups = []) (r0 : Receivers) :
    ∃ r, collectV5 s pick cs r0 = some r := by
  induction cs generalizing r0 with
  | nil => exact ⟨r0, rfl⟩
  | cons c cs ih =>
    obtain ⟨h1, h2⟩ := h c (by simp)
    unfold collectV5
    cases hc : c.topicFilter with
    | none => exact absurd hc h1
    | some f =>
      simp only [h2, addGroups]
      exact ih (fun d hd => h d (by simp [hd])) _

variable {cfg : Config} {ext : Ext} {env : Env}

theorem PlainRoute.sendV3 {g : Global} (h : PlainRoute g.route) (s : Session) (m : SendPub) :
    ∃ s' g', sendPublishV3 g s m = some (s', g') ∧ g'.route = g.route := by
  obtain ⟨r, hr⟩ := collectV3_some (h.found m.topic)
  unfold sendPublishV3
  simp only [hr]
  exact ⟨_, _, rfl, rfl⟩

theorem PlainRoute.sendV5 {g : Global} (h : PlainRoute g.route) (env : Env) (s : Session)
    (m : SendPub) :
    ∃ s' g' n, sendPublishV5 env g s m = some (s', g', n) ∧ g'.route = g.route := by
  obtain ⟨r, hr⟩ := collectV5_some s env.pick (h.found m.topic) []
  unfold sendPublishV5
  simp only [hr]
  exact ⟨_, _, _, rfl, rfl⟩

theorem retained_some (t : RetainTable) {f : Str} (hv : ValidFilter f) :
    ∃ rs, t.getMatches f = some rs := by
  have hv' : ValidFilterLevels ((splitTopic f).1 :: cursorLevels (splitTopic f).2) := by
    rw [← levels_split]; exact hv
  exact ⟨_, RetainNode.getMatches_eq _ _ _ _ hv'⟩

/-! ### Handlers -/

/-- A filter that is handled without panic. -/
def Harmless (cfg : Config) (F : Str) : Prop :=
  ValidFilter F ∧ (cfg.sharedAvailable = false ∨ IsPlain F)

theorem PlainRoute.acceptV5 {g : Global} (h : PlainRoute g.route) (i : Nat) (s : Session) {F : Str}
    (hv : ValidFilter F) (hp : IsPlain F) (o : SubOpts) (id : Option Nat) :
    ∃ s' g' out, acceptV5 cfg env i g s F o id = some (s', g', out) ∧ PlainRoute g'.route := by
  obtain ⟨t', h1, h2⟩ := h.sub hp s.clientId (min o.maxQos cfg.maxAllowedQos)
  obtain ⟨rs, hrs⟩ := retained_some g.retain hv
  unfold Akasa.acceptV5
  simp only [h1, hrs]
  split
  · split
    · exact ⟨_, _, _, rfl, h2⟩
    · exact ⟨_, _, _, rfl, h2⟩
  · exact ⟨_, _, _, rfl, h2⟩

theorem PlainRoute.acceptV3 {g : Global} (h : PlainRoute g.route) (i : Nat) (s : Session) {F : Str}
    (hv : ValidFilter F) (hp : IsPlain F) (q : QoS) :
    ∃ s' g' out, acceptV3 cfg env i g s F q = some (s', g', out) ∧ PlainRoute g'.route := by
  obtain ⟨t', h1, h2⟩ := h.sub hp s.clientId (min q cfg.maxAllowedQos)
  obtain ⟨rs, hrs⟩ := retained_some g.retain hv
  unfold Akasa.acceptV3
  simp only [h1, hrs]
  split
  · exact ⟨_, _, _, rfl, h2⟩
  · exact ⟨_, _, _, rfl, h2⟩

theorem code_plain {F : Str} {o : SubOpts} {q : QoS} (hF : Harmless cfg F)
    (h : subscribeCode cfg F o = .grantedQos q) : IsPlain F := by
  rcases hF.2 with ha | hp
  · unfold subscribeCode at h
    simp only [ha, Bool.not_false, Bool.true_and] at h
    split at h
    · cases h
    · rename_i hs
      unfold isShared at hs
      unfold IsPlain
      cases hi : sharedInfo F with
      | none => rfl
      | some _ => rw [hi] at hs; exact absurd rfl hs
  · exact hp

theorem PlainRoute.subV5 {ts : List (Str × SubOpts)} (hts : ∀ e ∈ ts, Harmless cfg e.1)
    {g : Global} (h : PlainRoute g.route) (id : Option Nat) (i : Nat) (s : Session) :
    ∃ r, subscribeLoopV5 cfg env id i g s ts = some r ∧ PlainRoute r.2.1.route := by
  induction ts generalizing g i s with
  | nil => exact ⟨_, rfl, h⟩
  | cons e ts ih =>
    obtain ⟨F, o⟩ := e
    have hF : Harmless cfg F := hts (F, o) (by simp)
    have hrest : ∀ e ∈ ts, Harmless cfg e.1 := fun e he => hts e (by simp [he])
    unfold subscribeLoopV5
    split
    · rename_i q hc
      obtain ⟨s', g', out, h1, h2⟩ := h.acceptV5 (cfg := cfg) (env := env) i s hF.1
        (code_plain hF hc) o id
      obtain ⟨r, hr, hp⟩ := ih hrest h2 (i + 1) s'
      simp only [h1, hr]
      exact ⟨_, rfl, hp⟩
    · obtain ⟨r, hr, hp⟩ := ih hrest h (i + 1) s
      simp only [hr]
      exact ⟨_, rfl, hp⟩

theorem PlainRoute.subV3 {ts : List (Str × QoS)} (hts : ∀ e ∈ ts, ValidFilter e.1)
    {g : Global} (h : PlainRoute g.route) (i : Nat) (s : Session) :
    ∃ r, subscribeLoopV3 cfg env i g s ts = some r ∧ PlainRoute r.2.1.route := by
  induction ts generalizing g i s with
  | nil => exact ⟨_, rfl, h⟩
  | cons e ts ih =>
    obtain ⟨F, q⟩ := e
    have hF : ValidFilter F := hts (F, q) (by simp)
    unfold subscribeLoopV3
    split
    · exact ⟨_, rfl, h⟩
    · rename_i hs
      have hp : IsPlain F := by
        unfold isShared at hs
        unfold IsPlain
        cases hi : sharedInfo F with
        | none => rfl
        | some _ => rw [hi] at hs; exact absurd rfl hs
      obtain ⟨s', g', out, h1, h2⟩ := h.acceptV3 (cfg := cfg) (env := env) i s hF hp q
      obtain ⟨r, hr, hpr⟩ := ih (fun e he => hts e (by simp [he])) h2 (i + 1) s'
      simp only [h1, hr]
      exact ⟨_, rfl, hpr⟩

theorem PlainRoute.unsubV5 (ts : List Str) {g : Global} (h : PlainRoute g.route) (s : Session) :
    ∃ r, unsubscribeLoopV5 g s ts = some r ∧ PlainRoute r.2.1.route := by
  induction ts generalizing g s with
  | nil => exact ⟨_, rfl, h⟩
  | cons F ts ih =>
    obtain ⟨t', h1, h2⟩ := h.unsub F s.clientId
    obtain ⟨r, hr, hp⟩ := ih (g := { g with route := t' }) h2
      { s with subscribes := s.subscribes.erase F }
    unfold unsubscribeLoopV5
    simp only [h1, hr]
    exact ⟨_, rfl, hp⟩

theorem PlainRoute.unsubV3 (ts : List Str) {g : Global} (h : PlainRoute g.route) (s : Session) :
    ∃ r, unsubscribeLoopV3 g s ts = some r ∧ PlainRoute r.2.route := by
  induction ts generalizing g s with
  | nil => exact ⟨_, rfl, h⟩
  | cons F ts ih =>
    obtain ⟨t', h1, h2⟩ := h.unsub F s.clientId
    obtain ⟨r, hr, hp⟩ := ih (g := { g with route := t' }) h2
      { s with subscribes := s.subscribes.erase F }
    unfold unsubscribeLoopV3
    simp only [h1, hr]
    exact ⟨_, rfl, hp⟩

theorem PlainRoute.publishV5 {g : Global} (h : PlainRoute g.route) (s : Session) (p : Publish) :
    ∃ r, handlePublishV5 cfg ext env g s p = some r ∧ PlainRoute r.global.route := by
  unfold handlePublishV5
  split
  · exact ⟨_, rfl, h⟩
  split
  · exact ⟨_, rfl, h⟩
  split
  · exact ⟨_, rfl, h⟩
  rename_i s1 topic _
  split
  · exact ⟨_, rfl, h⟩
  split
  · exact ⟨_, rfl, h⟩
  · exact ⟨_, rfl, h⟩
  rename_i s2 _
  split
  · exact ⟨_, rfl, h⟩
  simp only
  obtain ⟨s', g', n, h1, h2⟩ := h.sendV5 env s2 { qos := p.qosPid.qos, retain := p.retain, topic, payload := p.payload, props := { p.props with topicAlias := none }, encodeLen := ext.encLen p }
  simp only [h1]
  exact ⟨_, rfl, by show PlainRoute g'.route; rw [h2]; exact h⟩

theorem PlainRoute.publishV3 {g : Global} (h : PlainRoute g.route) (s : Session) (p : Publish) :
    ∃ r, handlePublishV3 ext g s p = some r ∧ PlainRoute r.global.route := by
  unfold handlePublishV3
  split
  · exact ⟨_, rfl, h⟩
  split
  · exact ⟨_, rfl, h⟩
  split
  · exact ⟨_, rfl, h⟩
  split
  · exact ⟨_, rfl, h⟩
  rename_i s2 _
  split
  · exact ⟨_, rfl, h⟩
  simp only
  obtain ⟨s', g', h1, h2⟩ := h.sendV3 s2 { qos := p.qosPid.qos, retain := p.retain, topic := p.topic, payload := p.payload, encodeLen := ext.encLen p }
  simp only [h1]
  exact ⟨_, rfl, by show PlainRoute g'.route; rw [h2]; exact h⟩

/-- The filters of a packet are handled without panic. -/
def InPkt.harmless (cfg : Config) : InPkt → Prop
  | .subscribe _ topics _ => ∀ e ∈ topics, Harmless cfg e.1
  | _ => True

theorem PlainRoute.packet {g : Global} (h : PlainRoute g.route) (pr : Proto) (s : Session) (n : Nat)
    {p : InPkt} (hp : p.harmless cfg) :
    ∃ r, handlePacket cfg ext pr env g s n p = some r ∧ PlainRoute r.global.route := by
  cases pr with
  | v3 =>
    simp only [handlePacket]
    unfold handlePacketV3
    split
    · exact ⟨_, rfl, h⟩
    cases p with
    | publish p => exact h.publishV3 s p
    | subscribe pid ts id =>
      obtain ⟨r, hr, hpr⟩ := PlainRoute.subV3 (cfg := cfg) (env := env)
        (ts := ts.map fun t => (t.1, t.2.maxQos)) (by
          intro e he
          obtain ⟨e', he', rfl⟩ := List.mem_map.mp he
          exact (hp e' he').1) h 0 s
      simp only [handleSubscribeV3, hr, Option.map_some]
      refine ⟨_, rfl, ?_⟩
      split <;> exact hpr
    | unsubscribe pid ts =>
      obtain ⟨r, hr, hpr⟩ := PlainRoute.unsubV3 ts h s
      simp only [handleUnsubscribeV3, hr, Option.map_some]
      exact ⟨_, rfl, hpr⟩
    | pubrel pid =>
      refine ⟨_, rfl, ?_⟩
      unfold handlePubrelV3
      split <;> exact h
    | _ => exact ⟨_, rfl, h⟩
  | v5 =>
    simp only [handlePacket]
    unfold handlePacketV5
    split
    · exact ⟨_, rfl, h⟩
    cases p with
    | publish p => exact h.publishV5 s p
    | subscribe pid ts id =>
      unfold Akasa.handleSubscribeV5
      simp only
      split
      · exact ⟨_, rfl, h⟩
      split
      · exact ⟨_, rfl, h⟩
      obtain ⟨r, hr, hpr⟩ := PlainRoute.subV5 (cfg := cfg) (env := env) hp h id 0 s
      simp only [hr, Option.map_some]
      exact ⟨_, rfl, hpr⟩
    | unsubscribe pid ts =>
      obtain ⟨r, hr, hpr⟩ := PlainRoute.unsubV5 ts h s
      simp only [handleUnsubscribeV5, hr, Option.map_some]
      exact ⟨_, rfl, hpr⟩
    | disconnect c e =>
      refine ⟨_, rfl, ?_⟩
      unfold handleDisconnectV5
      split
      · split <;> exact h
      · exact h
    | _ => exact ⟨_, rfl, h⟩

theorem PlainRoute.onPacket {g : Global} (h : PlainRoute g.route) (pr : Proto) (s : Session)
    (n : Nat) (after : Clock) {p : InPkt} (hp : p.harmless cfg) :
    ∃ r, onPacket cfg ext pr env after g s n p = some r ∧ PlainRoute r.global.route := by
  obtain ⟨r, hr, hpr⟩ := h.packet (cfg := cfg) (ext := ext) (env := env) pr s n hp
  unfold Akasa.onPacket
  simp only [hr]
  split <;> exact ⟨_, rfl, hpr⟩

end Akasa
