import Verif.Spec.Granted
import Verif.Proof.Selective
/-! # A session has the subscriptions its client was granted -/
namespace Akasa

variable {cfg : Config} {ext : Ext} {pr : Proto}

def OutPkt.isSuback : OutPkt → Bool
  | .suback _ _ => true
  | _ => false

theorem delivery_not_suback {o : OutPkt} (h : o.isDelivery = true) : o.isSuback = false := by
  cases o <;> first | rfl | cases h

/-- Only a SUBSCRIBE that is not too large is answered by SUBACK. -/
theorem handle_suback {env : Env} {g : Global} {s : Session} {n : Nat} {pkt : InPkt} {r : Res}
    (h : handlePacket cfg ext pr env g s n pkt = some r) {o : OutPkt} (ho : o ∈ r.out)
    (hu : o.isSuback = true) :
    ∃ pid ts id, pkt = .subscribe pid ts id ∧ n ≤ cfg.maxPacketSizeServer := by
  by_cases hpub : ∃ q, pkt = .publish q
  · obtain ⟨q, rfl⟩ := hpub
    have hreply : ∀ k, o ∈ replyOf pr q k → False := by
      intro k hk
      unfold replyOf ackV3 ackV5 at hk
      cases pr <;> simp only at hk <;> split at hk <;>
        simp only [List.mem_singleton, List.not_mem_nil] at hk <;>
        (try subst hk) <;> first | exact hk | cases hu
    cases handle_publish_cases h with
    | route2 s1 t pid s' g' k hres hl hd hg hlen hsend => exact (hreply k ho).elim
    | route01 s1 t s' g' k hres hp hsend => exact (hreply k ho).elim
    | rejectV5 => simp only [failV5, List.mem_singleton] at ho; subst ho; cases hu
    | rejectV3 => cases ho
    | _ => simp only [List.mem_singleton] at ho; subst ho; cases hu
  · cases pr with
    | v3 =>
      simp only [handlePacket, handlePacketV3] at h
      split at h
      · cases h; cases ho
      · rename_i hn
        cases pkt with
        | publish q => exact absurd ⟨q, rfl⟩ hpub
        | subscribe a b c => exact ⟨a, b, c, rfl, by omega⟩
        | unsubscribe pid fs =>
          simp only [handleUnsubscribeV3] at h
          rw [Option.map_eq_some_iff] at h
          obtain ⟨x, hx, rfl⟩ := h
          rw [List.mem_singleton.1 ho] at hu; cases hu
        | pubrec pid =>
          cases h
          simp only [handlePubrecV3, List.mem_singleton] at ho
          subst ho; cases hu
        | puback pid => cases h; cases ho
        | pubcomp pid => cases h; cases ho
        | pubrel pid =>
          cases h
          unfold handlePubrelV3 at ho
          split at ho <;> simp only [failV3, List.mem_singleton, List.not_mem_nil] at ho
          subst ho; cases hu
        | disconnect a b => cases h; cases ho
        | pingreq => cases h; rw [List.mem_singleton.1 ho] at hu; cases hu
        | invalid => cases h; cases ho
    | v5 =>
      simp only [handlePacket, handlePacketV5] at h
      split at h
      · cases h; rw [List.mem_singleton.1 ho] at hu; cases hu
      · rename_i hn
        cases pkt with
        | publish q => exact absurd ⟨q, rfl⟩ hpub
        | subscribe a b c => exact ⟨a, b, c, rfl, by omega⟩
        | unsubscribe pid fs =>
          simp only [handleUnsubscribeV5] at h
          rw [Option.map_eq_some_iff] at h
          obtain ⟨x, hx, rfl⟩ := h
          rw [List.mem_singleton.1 ho] at hu; cases hu
        | pubrec pid =>
          cases h
          simp only [handlePubrecV5, List.mem_singleton] at ho
          subst ho; cases hu
        | puback pid => cases h; cases ho
        | pubcomp pid => cases h; cases ho
        | pubrel pid =>
          cases h
          simp only [handlePubrelV5, List.mem_singleton] at ho
          subst ho; cases hu
        | disconnect reason expiry =>
          cases h
          unfold handleDisconnectV5 at ho
          split at ho
          · split at ho
            · rw [List.mem_singleton.1 ho] at hu; cases hu
            · cases ho
          · cases ho
        | pingreq => cases h; rw [List.mem_singleton.1 ho] at hu; cases hu
        | invalid => cases h; cases ho

/-- What the client holds the session has. -/
def HeldBy (h : Held) (σ : Subs) : Prop :=
  ∀ F q o, h F = some (q, o) →
    ∃ d, σ F = some d ∧ d.opts.maxQos = q ∧ (d.opts.noLocal = true → o.noLocal = true)

theorem HeldBy.forget {h : Held} {σ σ' : Subs} (hb : HeldBy h σ) {fs : List Str}
    (ho : ∀ F, F ∉ fs → σ' F = σ F) : HeldBy (h.forget fs) σ' := by
  intro F q o hF
  unfold Held.forget at hF
  split at hF
  · cases hF
  · rename_i hn
    rw [ho F hn]
    exact hb F q o hF

/-- The codes answer, the accepted filters are entered. -/
theorem HeldBy.answer {p : Str × SubOpts → Bool} {f : Str × SubOpts → SubData}
    {code : Str × SubOpts → Reason} {ts : List (Str × SubOpts)}
    (hp : ∀ t, p t = true → code t = .grantedQos (f t).opts.maxQos ∧
      ((f t).opts.noLocal = true → t.2.noLocal = true))
    (hn : ∀ t, p t = false → ∀ q, code t ≠ .grantedQos q)
    {h : Held} {σ : Subs} (hb : HeldBy h σ) :
    HeldBy (h.answer ts (ts.map code)) (σ.after ((ts.filter p).map fun t => .set t.1 (f t))) := by
  induction ts generalizing h σ with
  | nil => exact hb
  | cons t ts ih =>
    obtain ⟨F, o⟩ := t
    cases hpt : p (F, o) with
    | true =>
      obtain ⟨h1, h2⟩ := hp _ hpt
      rw [List.map_cons, h1, List.filter_cons_of_pos hpt, List.map_cons, Subs.after_cons]
      refine ih ?_
      intro F' q' o' hF
      simp only at hF
      simp only [Subs.step]
      split at hF
      · rename_i he
        rw [if_pos he]
        cases hF
        exact ⟨_, rfl, rfl, h2⟩
      · rename_i he
        rw [if_neg he]
        exact hb F' q' o' hF
    | false =>
      have h1 := hn _ hpt
      rw [List.map_cons, List.filter_cons_of_neg (by simp [hpt])]
      have : h.answer ((F, o) :: ts) (code (F, o) :: ts.map code) = h.answer ts (ts.map code) := by
        cases hc : code (F, o) <;> first | rfl | exact absurd hc (h1 _)
      rw [this]
      exact ih hb

/-- Neither a packet from the client nor a SUBACK. -/
def Obs.calm : Obs → Prop
  | .received _ => False
  | .sent o => o.isSuback = false
  | _ => True

theorem grants_calm {l : List Obs} (h : ∀ o ∈ l, o.calm) (st : Grants) :
    l.foldl Obs.grants st = st := by
  induction l generalizing st with
  | nil => rfl
  | cons o l ih =>
    have : Obs.grants st o = st := by
      have := h o List.mem_cons_self
      cases o with
      | received p => cases this
      | sent p => cases p <;> first | rfl | cases this
      | _ => rfl
    rw [List.foldl_cons, this]
    exact ih (fun o ho => h o (List.mem_cons_of_mem _ ho)) st

/-- The answer to a SUBSCRIBE that is not too large: nothing, or one SUBACK and deliveries. -/
theorem handle_subscribe_answer {env : Env} {g : Global} {s : Session} {n : Nat} {pid : Pid}
    {ts : List (Str × SubOpts)} {id : Option Nat} {r : Res}
    (h : handlePacket cfg ext pr env g s n (.subscribe pid ts id) = some r)
    (hn : n ≤ cfg.maxPacketSizeServer) :
    (∀ o ∈ r.out, o.isSuback = false) ∨
    ∃ (del : List OutPkt) (p : Str × SubOpts → Bool) (f : Str × SubOpts → SubData)
      (code : Str × SubOpts → Reason), r.out = del ++ [.suback pid (ts.map code)] ∧ (∀ o ∈ del, o.isDelivery = true) ∧
      (acceptedSubs cfg pr ts id).map (fun t => SubChange.set t.1 t.2) =
        (ts.filter p).map (fun t => .set t.1 (f t)) ∧
      (∀ t, p t = true → code t = .grantedQos (f t).opts.maxQos ∧
        ((f t).opts.noLocal = true → t.2.noLocal = true)) ∧
      (∀ t, p t = false → ∀ q, code t ≠ .grantedQos q) := by
  cases pr with
  | v3 =>
    simp only [handlePacket, handlePacketV3, if_neg (show ¬ n > cfg.maxPacketSizeServer by omega),
      handleSubscribeV3, Option.map_eq_some_iff] at h
    obtain ⟨a, ha, rfl⟩ := h
    obtain ⟨_, h3, h4, h5⟩ := subscribeLoopV3_effect ha
    cases hf : a.2.2.2.2 with
    | true => left; intro o ho; cases ho
    | false =>
      right
      refine ⟨a.2.2.1, fun _ => true,
        fun t => { opts := { maxQos := min t.2.maxQos cfg.maxAllowedQos } },
        fun t => .grantedQos (min t.2.maxQos cfg.maxAllowedQos), ?_, h5, ?_, ?_, ?_⟩
      · simp only [h3 hf]; simp [hf]
      · simp only [acceptedSubs]
        have : ∀ l : List (Str × SubOpts), (∀ t ∈ l, IsPlain t.1) →
            l.takeWhile (fun t => decide (IsPlain t.1)) = l := by
          intro l
          induction l with
          | nil => intro _; rfl
          | cons x l ih =>
            intro hl
            rw [List.takeWhile_cons_of_pos (by simpa using hl x List.mem_cons_self),
              ih fun t ht => hl t (List.mem_cons_of_mem _ ht)]
        rw [this ts (h4.1 hf), List.map_map, List.filter_eq_self.2 (fun _ _ => rfl)]
        rfl
      · intro t _; exact ⟨rfl, fun h => by cases h⟩
      · intro t h; cases h
  | v5 =>
    simp only [handlePacket, handlePacketV5, if_neg (show ¬ n > cfg.maxPacketSizeServer by omega),
      handleSubscribeV5] at h
    split at h
    · left; cases h; intro o ho; rw [List.mem_singleton.1 ho]; rfl
    · rename_i hid
      by_cases href : RefusesId cfg id
      · rw [if_pos (by simp only [RefusesId] at href; simp [href.1, Option.isSome_iff_ne_none, href.2])]
          at h
        cases h
        right
        refine ⟨[], fun _ => false, fun t => { opts := t.2 },
          fun _ => .subscriptionIdentifiersNotSupported, ?_, ?_, ?_, ?_, ?_⟩
        · simp
        · intro o ho; cases ho
        · simp [acceptedSubs, href]
        · intro t h; cases h
        · intro t _ q h; cases h
      · rw [if_neg (by simp only [RefusesId] at href; simpa [Option.isSome_iff_ne_none] using href),
          Option.map_eq_some_iff] at h
        obtain ⟨a, ha, rfl⟩ := h
        obtain ⟨_, h3, h4⟩ := subscribeLoopV5_effect href ha
        right
        refine ⟨a.2.2.1, fun t => decide (Accepts cfg t.1), fun t => { opts := t.2.granted cfg, id },
          fun t => codeFor cfg id t.1 t.2, ?_, h4, ?_, ?_, ?_⟩
        · simp only [h3]
        · simp [acceptedSubs, hid, href]
        · intro t ht
          exact ⟨(accepts_code href t.1 t.2).1 (by simpa using ht), fun h => h⟩
        · intro t ht q hq
          have : ¬ Accepts cfg t.1 := by simpa using ht
          refine this ((accepts_code href t.1 t.2).2 ?_)
          unfold codeFor at hq ⊢
          grind

/-- One step. -/
theorem grants_step {r : Rec} (hs : r.pre.step cfg ext pr r.env r.before r.ev = some (r.post, r.res))
    {st : Grants} (h : HeldBy st.held r.pre.session.subs) :
    HeldBy (r.obs.foldl Obs.grants st).held r.post.session.subs := by
  have hm := (moves_step hs).subs
  cases hr : r.received with
  | none =>
    have hch : r.changes cfg pr = [] := by
      have : r.processed cfg = none := by
        unfold Rec.processed
        unfold Rec.received at hr
        split
        · rename_i hev
          rw [hev] at hr
          simp only at hr
          split at hr
          · cases hr
          · rename_i hf
            rw [if_neg (by simp only [Bool.and_eq_true] at hf ⊢; exact fun h => hf h.1)]
        · rfl
      simp only [Rec.changes, this]
    rw [hch] at hm
    rw [grants_calm, hm]
    · exact h
    · have hi := step_idle hs hr
      intro o ho
      unfold Rec.obs at ho
      rw [hr] at ho
      simp only [List.mem_append, List.mem_map] at ho
      rcases ho with ho | ho | ⟨_, _, rfl⟩ | ⟨_, _, rfl⟩ | ⟨x, hx, rfl⟩
      · split at ho
        · rw [List.mem_singleton.1 ho]; trivial
        · cases ho
      · obtain ⟨_, ho, _⟩ := ho; cases ho
      · trivial
      · trivial
      · exact delivery_not_suback (hi.2.2.2.1 x hx)
  | some pkt =>
    obtain ⟨n, r0, h1⟩ := step_received hs hr
    obtain ⟨after, hev⟩ := h1.isEv
    have hch : r.changes cfg pr =
        if n ≤ cfg.maxPacketSizeServer then pkt.changes cfg pr else [] := by
      simp only [Rec.changes, Rec.processed, hev, h1.on, h1.connected]
      by_cases hn : n ≤ cfg.maxPacketSizeServer <;> simp [hn]
    obtain ⟨rest, ho, hrest⟩ := h1.out
    have still : (∀ o ∈ r0.out, o.isSuback = false) →
        ∀ st, (r.res.routed.map Obs.routed ++ r.res.out.map Obs.sent).foldl Obs.grants st = st := by
      intro hne st
      refine grants_calm (fun o hmem => ?_) st
      rw [List.mem_append, List.mem_map, List.mem_map] at hmem
      rcases hmem with ⟨_, _, rfl⟩ | ⟨x, hx, rfl⟩
      · trivial
      · rw [ho] at hx
        rcases List.mem_append.1 hx with hx | hx
        · exact hne x hx
        · exact delivery_not_suback (hrest x hx)
    have quiet : (¬ ∃ pid ts id, pkt = .subscribe pid ts id ∧ n ≤ cfg.maxPacketSizeServer) →
        ∀ st, (r.res.routed.map Obs.routed ++ r.res.out.map Obs.sent).foldl Obs.grants st = st := by
      intro hne
      refine still fun x hx => ?_
      cases hu : x.isSuback with
      | false => rfl
      | true => exact absurd (handle_suback h1.handled hx hu) hne
    rw [obs_received hr, List.foldl_cons]
    cases pkt with
    | subscribe pid topics id =>
      have hforget : ∀ σ : Subs, (∀ F, F ∉ topics.map (·.1) → σ F = r.pre.session.subs F) →
          HeldBy (st.held.forget (topics.map (·.1))) σ := fun σ hσ => h.forget hσ
      have hother : ∀ F, F ∉ topics.map (·.1) → r.post.session.subs F = r.pre.session.subs F := by
        intro F hin
        rw [hm, Subs.after_other]
        intro c hc
        rw [hch] at hc
        split at hc
        · simp only [InPkt.changes, List.mem_map] at hc
          obtain ⟨t, ht, rfl⟩ := hc
          intro hf
          exact hin (hf ▸ accepted_filter ht)
        · cases hc
      by_cases hn : n ≤ cfg.maxPacketSizeServer
      · rcases handle_subscribe_answer h1.handled hn with hno | ⟨del, p, f, code, h2, h3, h4, h5, h6⟩
        · rw [still hno]
          exact hforget _ hother
        · have hfold : (r.res.routed.map Obs.routed ++ r.res.out.map Obs.sent).foldl Obs.grants
              (Obs.grants st (.received (.subscribe pid topics id))) =
              Obs.grants (Obs.grants st (.received (.subscribe pid topics id)))
                (.sent (.suback pid (topics.map code))) := by
            rw [ho, h2, List.map_append, List.map_append, List.foldl_append, List.foldl_append,
              List.foldl_append, grants_calm (l := List.map Obs.routed _),
              grants_calm (l := List.map Obs.sent del), grants_calm (l := List.map Obs.sent rest)]
            · rfl
            · intro o ho
              rw [List.mem_map] at ho
              obtain ⟨x, hx, rfl⟩ := ho
              exact delivery_not_suback (hrest x hx)
            · intro o ho
              rw [List.mem_map] at ho
              obtain ⟨x, hx, rfl⟩ := ho
              exact delivery_not_suback (h3 x hx)
            · intro o ho
              rw [List.mem_map] at ho
              obtain ⟨_, _, rfl⟩ := ho
              trivial
          rw [hfold, hm, hch, if_pos hn]
          simp only [InPkt.changes, h4]
          exact HeldBy.answer h5 h6 (hforget _ fun _ _ => rfl)
      · rw [quiet (by rintro ⟨_, _, _, _, h⟩; exact hn h)]
        exact hforget _ hother
    | unsubscribe pid fs =>
      rw [quiet (by rintro ⟨_, _, _, h, _⟩; cases h)]
      refine h.forget fun F hF => ?_
      rw [hm, hch]
      split
      · rw [Subs.after_other]
        intro c hc
        simp only [InPkt.changes, List.mem_map] at hc
        obtain ⟨t, ht, rfl⟩ := hc
        intro hf
        exact hF (hf ▸ ht)
      · rfl
    | _ =>
      rw [quiet (by rintro ⟨_, _, _, h, _⟩; cases h)]
      have : r.changes cfg pr = [] := by rw [hch]; split <;> rfl
      rw [this] at hm
      rw [hm]
      exact h

theorem grants_run {p : Peer} {recs : List Rec} (h : IsRun cfg ext pr p recs)
    {st : Grants} (h0 : HeldBy st.held p.session.subs) :
    HeldBy ((recs.flatMap Rec.obs).foldl Obs.grants st).held (endOf p recs).session.subs := by
  induction recs generalizing p st with
  | nil => exact h0
  | cons r recs ih =>
    obtain ⟨hp, hs, h1⟩ := h
    rw [← hp] at hs h0
    rw [List.flatMap_cons, List.foldl_append]
    exact ih h1 (grants_step hs h0)

/-- The session has what was granted in its life. -/
theorem granted_lives {obs : List Obs} {p : Peer} (h : Lives cfg ext pr obs p) :
    HeldBy (grantedIn obs) p.session.subs := by
  obtain ⟨i, id, c, sevs, recs, h1, rfl, rfl⟩ := h
  unfold grantedIn
  rw [List.foldl_cons]
  exact grants_run (isRun_of_run h1) (st := {}) fun F q o h => by cases h

end Akasa
