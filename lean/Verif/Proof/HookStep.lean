import Verif.Model.Hook
import Verif.Proof.WorldFrame
/-! # What the hooks do to a session -/
namespace Akasa

variable {cfg : Config} {hooks : HookConfig} {ext : HookExt} {pr : Proto} {env : Env}

/-- With hooks, a packet is either refused, leaving the session as it is, or handled like the packet
the hook made of it. -/
theorem hook_handled {h : HookAns} {g : Global} {s : Session} {n : Nat} {p : InPkt} {r : Res}
    {as : List HookAction} (hh : handlePacketHook cfg hooks ext.toExt pr env h g s n p = some (r, as)) :
    (r.session = s ∧ as = []) ∨ ∃ n' p' r0, handlePacket cfg ext.toExt pr env g s n' p' = some r0 ∧
      r.session = r0.session ∧ (r.out = r0.out ∨ r.out = []) ∧ r.routed = r0.routed ∧ r.global = r0.global := by
  have plain : ∀ {x : Res × List HookAction},
      ((handlePacket cfg ext.toExt pr env g s n p).map fun r => (r, ([] : List HookAction))) = some x →
      ∃ n' p' r0, handlePacket cfg ext.toExt pr env g s n' p' = some r0 ∧
      x.1.session = r0.session ∧ (x.1.out = r0.out ∨ x.1.out = []) ∧ x.1.routed = r0.routed ∧
        x.1.global = r0.global := by
    intro x hx
    rw [Option.map_eq_some_iff] at hx
    obtain ⟨r0, h0, rfl⟩ := hx
    exact ⟨n, p, r0, h0, rfl, .inl rfl, rfl, rfl⟩
  have fol : ∀ {r0 r : Res} {a : Option (List HookAction)} {as : List HookAction},
      r0.followed a = (r, as) → r.session = r0.session ∧ (r.out = r0.out ∨ r.out = []) ∧ r.routed = r0.routed ∧
        r.global = r0.global := by
    intro r0 r a as hf
    unfold Res.followed at hf
    split at hf <;> cases hf <;> exact ⟨rfl, by simp, rfl, rfl⟩
  have zero : ¬ (0 > cfg.maxPacketSizeServer) := by omega
  unfold handlePacketHook at hh
  split at hh
  · exact .inr (plain hh)
  · split at hh
    · rename_i q
      split at hh
      · cases pr with
        | v3 =>
          simp only [requestPublishV3] at hh
          split at hh
          · cases hh; exact .inl ⟨rfl, rfl⟩
          · rename_i q' _
            split at hh
            · cases hh
            · rename_i r0 h0
              refine .inr ⟨0, .publish q', r0, ?_, ?_⟩
              · simp only [handlePacket, handlePacketV3, if_neg zero]; exact h0
              · split at hh
                · cases hh; exact ⟨rfl, .inl rfl, rfl, rfl⟩
                · simp only [Option.some.injEq] at hh; exact fol hh
          · cases hh; exact .inl ⟨rfl, rfl⟩
        | v5 =>
          simp only [requestPublishV5] at hh
          split at hh
          · cases hh; exact .inl ⟨rfl, rfl⟩
          · rename_i q' _
            split at hh
            · cases hh
            · rename_i r0 h0
              refine .inr ⟨0, .publish q', r0, ?_, ?_⟩
              · simp only [handlePacket, handlePacketV5, if_neg zero]; exact h0
              · split at hh
                · cases hh; exact ⟨rfl, .inl rfl, rfl, rfl⟩
                · simp only [Option.some.injEq] at hh; exact fol hh
          · cases hh; exact .inl ⟨rfl, rfl⟩
      · exact .inr (plain hh)
    · rename_i pid topics id
      split at hh
      · cases pr with
        | v3 =>
          simp only [requestSubscribeV3] at hh
          split at hh
          · cases hh; exact .inl ⟨rfl, rfl⟩
          · rename_i q' _
            split at hh
            · cases hh
            · rename_i r0 h0
              refine .inr ⟨0, .subscribe q'.pid q'.topics q'.subscriptionId, r0, ?_, ?_⟩
              · simp only [handlePacket, handlePacketV3, if_neg zero]; exact h0
              · split at hh
                · cases hh; exact ⟨rfl, .inl rfl, rfl, rfl⟩
                · simp only [Option.some.injEq] at hh; exact fol hh
          · cases hh; exact .inl ⟨rfl, rfl⟩
        | v5 =>
          simp only [requestSubscribeV5] at hh
          split at hh
          · cases hh; exact .inl ⟨rfl, rfl⟩
          · rename_i q' _
            rw [Option.map_eq_some_iff] at hh
            obtain ⟨r0, h0, hf⟩ := hh
            refine .inr ⟨0, .subscribe q'.pid q'.topics q'.subscriptionId, r0, ?_, fol hf⟩
            simp only [handlePacket, handlePacketV5, if_neg zero]; exact h0
          · cases hh; exact .inl ⟨rfl, rfl⟩
      · exact .inr (plain hh)
    · rename_i pid topics
      split at hh
      · cases pr with
        | v3 =>
          simp only [requestUnsubscribeV3] at hh
          split at hh
          · cases hh; exact .inl ⟨rfl, rfl⟩
          · rename_i q' _
            rw [Option.map_eq_some_iff] at hh
            obtain ⟨r0, h0, hf⟩ := hh
            refine .inr ⟨0, .unsubscribe q'.pid q'.topics, r0, ?_, fol hf⟩
            simp only [handlePacket, handlePacketV3, if_neg zero]; exact h0
          · cases hh; exact .inl ⟨rfl, rfl⟩
        | v5 =>
          simp only [requestUnsubscribeV5] at hh
          split at hh
          · cases hh; exact .inl ⟨rfl, rfl⟩
          · rename_i q' _
            rw [Option.map_eq_some_iff] at hh
            obtain ⟨r0, h0, hf⟩ := hh
            refine .inr ⟨0, .unsubscribe q'.pid q'.topics, r0, ?_, fol hf⟩
            simp only [handlePacket, handlePacketV5, if_neg zero]; exact h0
          · cases hh; exact .inl ⟨rfl, rfl⟩
      · exact .inr (plain hh)
    · exact .inr (plain hh)

/-- A property of sessions that depends only on the copies on their way to other sessions and is kept
when copies are added. -/
structure OfCopies (Q : Session → Prop) : Prop where
  same : ∀ {s s' : Session}, s'.copies = s.copies → Q s → Q s'
  push : ∀ {s : Session} (reg : ClientId → Bool) (cs : List (ClientId × NormalMsg)), Q s →
    Q (s.pushCopies reg cs)

variable {Q : Session → Prop}

theorem OfCopies.packet (hQ : OfCopies Q) {e : Ext} {g : Global} {s : Session} {n : Nat} {p : InPkt}
    {r : Res} (hs : Q s) (h : handlePacket cfg e pr env g s n p = some r) : Q r.session := by
  by_cases hr : r.routed = []
  · exact hQ.same (copies_handlePacket h hr) hs
  · by_cases hp : ∃ q, p = .publish q
    · obtain ⟨q, rfl⟩ := hp
      cases handle_publish_cases h with
      | route2 s1 t pid s' g' n hres hl hd hg hlen hsend =>
        obtain ⟨cs, rfl⟩ := sendOf_push hsend
        refine hQ.push _ cs (hQ.same ?_ hs)
        rw [resolved_ident hres]; rfl
      | route01 s1 t s' g' n hres hp hsend =>
        obtain ⟨cs, rfl⟩ := sendOf_push hsend
        refine hQ.push _ cs (hQ.same ?_ hs)
        rw [resolved_ident hres]; rfl
      | _ => exact absurd rfl hr
    · exact absurd (handle_other (fun q hq => hp ⟨q, hq⟩) h).1 hr

theorem OfCopies.action (hQ : OfCopies Q) {g : Global} {s : Session} {a : HookAction} {r : Res}
    (hs : Q s) (h : applyAction cfg ext pr env g s a = some r) : Q r.session := by
  cases a with
  | publish a =>
    simp only [applyAction] at h
    split at h
    · cases pr with
      | v3 =>
        simp only [Option.map_eq_some_iff] at h
        obtain ⟨x, h1, rfl⟩ := h
        have : sendOf .v3 env g s (a.message ext.toExt .v3) = some (x.1, x.2, 0) := by
          simp only [sendOf, h1, Option.map_some]
        obtain ⟨cs, hc⟩ := sendOf_push this
        simp only [hc]
        exact hQ.push _ cs hs
      | v5 =>
        simp only [Option.map_eq_some_iff] at h
        obtain ⟨x, h1, rfl⟩ := h
        have : sendOf .v5 env g s (a.message ext.toExt .v5) = some (x.1, x.2.1, x.2.2) := by
          simp only [sendOf, h1]
        obtain ⟨cs, hc⟩ := sendOf_push this
        simp only [hc]
        exact hQ.push _ cs hs
    · cases h; exact hs
  | subscribe topics =>
    refine hQ.same ?_ hs
    cases pr with
    | v3 =>
      simp only [applyAction, Option.map_eq_some_iff] at h
      obtain ⟨x, h1, rfl⟩ := h
      simp only [handleSubscribeV3, Option.map_eq_some_iff] at h1
      obtain ⟨r', h1, rfl⟩ := h1
      have := copies_subscribeLoopV3 h1
      simp only
      split <;> exact this
    | v5 =>
      simp only [applyAction, Option.map_eq_some_iff] at h
      obtain ⟨x, h1, rfl⟩ := h
      simp only [handleSubscribeV5] at h1
      split at h1
      · cases h1; rfl
      · split at h1
        · cases h1; rfl
        · rw [Option.map_eq_some_iff] at h1
          obtain ⟨r', h1, rfl⟩ := h1
          exact copies_subscribeLoopV5 h1
  | unsubscribe topics =>
    refine hQ.same ?_ hs
    cases pr with
    | v3 =>
      simp only [applyAction, Option.map_eq_some_iff] at h
      obtain ⟨x, h1, rfl⟩ := h
      simp only [handleUnsubscribeV3, Option.map_eq_some_iff] at h1
      obtain ⟨r', h1, rfl⟩ := h1
      exact copies_unsubscribeLoopV3 h1
    | v5 =>
      simp only [applyAction, Option.map_eq_some_iff] at h
      obtain ⟨x, h1, rfl⟩ := h
      simp only [handleUnsubscribeV5, Option.map_eq_some_iff] at h1
      obtain ⟨r', h1, rfl⟩ := h1
      exact copies_unsubscribeLoopV5 h1

theorem OfCopies.actions (hQ : OfCopies Q) {envs : Nat → Env} {i : Nat} {g : Global} {s : Session}
    {as : List HookAction} {r : Res} (hs : Q s)
    (h : applyActions cfg ext pr envs i g s as = some r) : Q r.session := by
  induction as generalizing i g s r with
  | nil => cases h; exact hs
  | cons a as ih =>
    simp only [applyActions] at h
    split at h
    · cases h
    · rename_i r0 h0
      have h1 := hQ.action hs h0
      split at h
      · cases h; exact h1
      · rw [Option.map_eq_some_iff] at h
        obtain ⟨r', h2, rfl⟩ := h
        exact (ih h1 h2 : Q r'.session)

/-- One received packet, with hooks. -/
theorem OfCopies.onPacketHook (hQ : OfCopies Q) {ans : HookAns} {after : Clock} {g : Global}
    {s : Session} {n : Nat} {p : InPkt} {r : Res} (hs : Q s)
    (h : onPacketHook cfg hooks ext pr env ans after g s n p = some r) : Q r.session := by
  unfold Akasa.onPacketHook at h
  split at h
  · cases h
  · rename_i r0 as h0
    have h1 : Q r0.session := by
      rcases hook_handled h0 with ⟨h1, -⟩ | ⟨n', p', r1, h1, h2, -⟩
      · rw [h1]; exact hs
      · rw [h2]; exact hQ.packet hs h1
    split at h
    · cases h; exact h1
    · split at h
      · cases h
        exact hQ.same (copies_after ..) h1
      · split at h
        · cases h
        · rename_i r' h2
          have h3 := hQ.actions h1 h2
          split at h
          · cases h; exact h3
          · cases h
            exact hQ.same (copies_after ..) h3

theorem OfCopies.onNormal (hQ : OfCopies Q) {g : Global} {s : Session} {m : NormalMsg} (hs : Q s) :
    Q (onNormal cfg pr env g s m).session := hQ.same (copies_onNormal ..) hs

end Akasa
