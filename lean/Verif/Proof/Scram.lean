import Verif.Spec.Scram
import Verif.Proof.Auth
import Verif.Proof.Util
/-!
# Lemmas for C49
-/
namespace Akasa.Scram

theorem field_iff {k : Char} {p r : Str} : field k p = some r ↔ p = k :: '=' :: r := by
  unfold field
  split
  · rename_i a b rest
    split
    · rename_i h
      obtain ⟨rfl, rfl⟩ := h
      simp
    · rename_i h
      simp only [reduceCtorEq, List.cons.injEq, false_iff]
      rintro ⟨h1, h2, _⟩
      exact h ⟨h1, h2⟩
  · rename_i h
    simp only [reduceCtorEq, false_iff]
    rintro rfl
    exact h _ _ _ rfl

theorem parseClientFirst_iff {d a n : Str} {z : Option Str} :
    parseClientFirst d = some (a, z, n) ↔ isClientFirst d a z n := by
  unfold parseClientFirst isClientFirst hasParts
  constructor
  · intro h
    split at h
    · rename_i token zz c nn more hs
      split at h
      · rename_i ht
        split at h
        · rename_i z' a' n' h1 h2 h3
          simp only [Option.some.injEq, Prod.mk.injEq] at h
          obtain ⟨rfl, rfl, rfl⟩ := h
          rw [field_iff] at h2 h3
          refine ⟨token, ht, more, ?_⟩
          rw [hs, h2, h3]
          by_cases hz : zz = []
          · rw [if_pos hz] at h1
            simp only [Option.some.injEq] at h1
            subst h1
            rw [hz]
            rfl
          · rw [if_neg hz] at h1
            cases hf : field 'a' zz with
            | none => rw [hf] at h1; cases h1
            | some w =>
              rw [hf] at h1
              simp only [Option.map_some, Option.some.injEq] at h1
              subst h1
              rw [field_iff] at hf
              rw [hf]
              rfl
        · cases h
      · cases h
    · cases h
  · rintro ⟨flag, hf, more, hs⟩
    rw [hs]
    have h2 : field 'n' ("n=".toList ++ a) = some a := field_iff.mpr rfl
    have h3 : field 'r' ("r=".toList ++ n) = some n := field_iff.mpr rfl
    simp only [List.cons_append]
    rw [if_pos (show flag = ['n'] ∨ flag = ['y'] from hf), h2, h3]
    cases z with
    | none => rfl
    | some w =>
      have h1 : field 'a' ("a=".toList ++ w) = some w := field_iff.mpr rfl
      simp only
      rw [if_neg (by simp), h1]
      rfl

theorem parseClientFinal_iff {d c r p : Str} :
    parseClientFinal d = some (c, r, p) ↔ isClientFinal d c r p := by
  unfold parseClientFinal isClientFinal hasParts
  constructor
  · intro h
    split at h
    · rename_i c' r' p' more hs
      split at h
      · rename_i h1 h2 h3
        simp only [Option.some.injEq, Prod.mk.injEq] at h
        obtain ⟨rfl, rfl, rfl⟩ := h
        rw [field_iff] at h1 h2 h3
        refine ⟨more, ?_⟩
        rw [hs, h1, h2, h3]
        rfl
      · cases h
    · cases h
  · rintro ⟨more, hs⟩
    rw [hs]
    have h1 : field 'c' ("c=".toList ++ c) = some c := field_iff.mpr rfl
    have h2 : field 'r' ("r=".toList ++ r) = some r := field_iff.mpr rfl
    have h3 : field 'p' ("p=".toList ++ p) = some p := field_iff.mpr rfl
    simp only [List.cons_append]
    rw [h1, h2, h3]

theorem acceptedFirst_iff {d : Str} :
    (Op.first d).acceptedFirst ↔ parseClientFirst d ≠ none := by
  constructor
  · rintro ⟨a, z, n, h⟩
    rw [parseClientFirst_iff.mpr h]
    simp
  · intro h
    cases hp : parseClientFirst d with
    | none => exact absurd hp h
    | some r =>
      obtain ⟨a, z, n⟩ := r
      exact ⟨a, z, n, parseClientFirst_iff.mp hp⟩

theorem after_snoc (x : Ext) (ops : List Op) (op : Op) :
    Server.after x (ops ++ [op]) = ((Server.after x ops).step x op).1 := by
  simp [Server.after, List.foldl_append]

theorem after_append (x : Ext) (a b : List Op) :
    Server.after x (a ++ b) = b.foldl (fun s op => (s.step x op).1) (Server.after x a) := by
  simp [Server.after, List.foldl_append]

/-- The state in which the server waits for the client-final message of an exchange. -/
def Exchange.state (x : Ext) (e : Exchange) : Server :=
  .waitingForClientFinal e.saltedPassword e.nonce e.header e.clientFirstBare (e.serverFirst x)
    e.authcid e.authzid

/-- A client-first message has been accepted and not answered yet. -/
def Asked (ops : List Op) (a : Str) (z : Option Str) (n : Str) : Prop :=
  ∃ before d between, ops = before ++ .first d :: between ∧ isClientFirst d a z n ∧
    ∀ op ∈ between, ¬ op.acceptedFirst ∧ ¬ op.isPassword

theorem serverFirst_state (x : Ext) (e : Exchange) :
    (Server.waitingForPassword e.authcid e.authzid e.clientNonce).serverFirst x e.saltedPassword
      e.salt e.iterations e.serverNonce = (e.state x, some (e.serverFirst x)) := by
  unfold Server.serverFirst Exchange.state Exchange.header Exchange.nonce Exchange.clientFirstBare
    Exchange.serverFirst Exchange.nonce showNat
  obtain ⟨_, z, _⟩ := e
  cases z <;> rfl

theorem first_refused {x : Ext} {s : Server} {d : Str} (h : ¬ (Op.first d).acceptedFirst) :
    (s.step x (.first d)).1 = s := by
  rw [acceptedFirst_iff] at h
  have : parseClientFirst d = none := Classical.byContradiction h
  simp [Server.step, Server.clientFirst, this]

theorem asked_state {x : Ext} {ops : List Op} {a : Str} {z : Option Str} {n : Str}
    (h : Asked ops a z n) : Server.after x ops = .waitingForPassword a z n := by
  obtain ⟨before, d, between, rfl, hd, hb⟩ := h
  rw [after_append, List.foldl_cons]
  have h0 : ((Server.after x before).step x (.first d)).1 = .waitingForPassword a z n := by
    simp [Server.step, Server.clientFirst, parseClientFirst_iff.mpr hd]
  rw [h0]
  clear h0 hd
  induction between with
  | nil => rfl
  | cons op between ih =>
    have hop := hb op (by simp)
    rw [List.foldl_cons]
    have : ((Server.waitingForPassword a z n).step x op).1 = .waitingForPassword a z n := by
      cases op with
      | first d => exact first_refused hop.1
      | password => exact absurd trivial hop.2
      | final d => rfl
    rw [this]
    exact ih (fun o ho => hb o (by simp [ho]))

theorem waiting_state {x : Ext} {ops : List Op} {e : Exchange} (h : Waiting ops e) :
    Server.after x ops = e.state x := by
  obtain ⟨before, d, between, after, rfl, hd, hb, ha⟩ := h
  rw [after_append, List.foldl_cons,
    asked_state (a := e.authcid) (z := e.authzid) (n := e.clientNonce) ⟨before, d, between, rfl, hd, hb⟩]
  have h0 : ((Server.waitingForPassword e.authcid e.authzid e.clientNonce).step x
      (.password e.saltedPassword e.salt e.iterations e.serverNonce)).1 = e.state x := by
    simp only [Server.step]
    rw [serverFirst_state]
  rw [h0]
  clear h0 hd
  induction after with
  | nil => rfl
  | cons op after ih =>
    have hop := ha op (by simp)
    rw [List.foldl_cons]
    have : ((e.state x).step x op).1 = e.state x := by
      cases op with
      | first d => exact first_refused hop.1
      | password => rfl
      | final d => exact absurd trivial hop.2
    rw [this]
    exact ih (fun o ho => ha o (by simp [ho]))

theorem state_history (x : Ext) : ∀ ops : List Op,
    (∀ a z n, Server.after x ops = .waitingForPassword a z n → Asked ops a z n) ∧
    (∀ h n g b s a z, Server.after x ops = .waitingForClientFinal h n g b s a z →
      ∃ e, Waiting ops e ∧ e.state x = .waitingForClientFinal h n g b s a z) := by
  intro ops
  induction ops using snoc_induction with
  | nil =>
    refine ⟨?_, ?_⟩
    · intro a z n h; cases h
    · intro h n g b s a z h'; cases h'
  | snoc ops op ih =>
    have keepAsked : ∀ {a z n}, Asked ops a z n → ¬ op.acceptedFirst → ¬ op.isPassword →
        Asked (ops ++ [op]) a z n := by
      rintro a z n ⟨before, d, between, rfl, hd, hb⟩ h1 h2
      refine ⟨before, d, between ++ [op], by simp, hd, ?_⟩
      intro o ho
      rcases List.mem_append.mp ho with ho | ho
      · exact hb o ho
      · simp only [List.mem_singleton] at ho
        subst ho
        exact ⟨h1, h2⟩
    have keepWaiting : ∀ {e}, Waiting ops e → ¬ op.acceptedFirst → ¬ op.isFinal →
        Waiting (ops ++ [op]) e := by
      rintro e ⟨before, d, between, after, rfl, hd, hb, ha⟩ h1 h2
      refine ⟨before, d, between, after ++ [op], by simp, hd, hb, ?_⟩
      intro o ho
      rcases List.mem_append.mp ho with ho | ho
      · exact ha o ho
      · simp only [List.mem_singleton] at ho
        subst ho
        exact ⟨h1, h2⟩
    rw [after_snoc]
    cases op with
    | first d =>
      by_cases hacc : (Op.first d).acceptedFirst
      · obtain ⟨a, z, n, hd⟩ := hacc
        have h0 : ((Server.after x ops).step x (.first d)).1 = .waitingForPassword a z n := by
          simp [Server.step, Server.clientFirst, parseClientFirst_iff.mpr hd]
        rw [h0]
        refine ⟨?_, ?_⟩
        · intro a' z' n' h
          cases h
          exact ⟨ops, d, [], by simp, hd, by simp⟩
        · intro h n g b s a z h'; cases h'
      · rw [first_refused hacc]
        refine ⟨fun a z n h => keepAsked (ih.1 a z n h) hacc (by simp [Op.isPassword]), ?_⟩
        intro h n g b s a z h'
        obtain ⟨e, he, hs⟩ := ih.2 h n g b s a z h'
        exact ⟨e, keepWaiting he hacc (by simp [Op.isFinal]), hs⟩
    | password hp salt i r =>
      cases hst : Server.after x ops with
      | new =>
        refine ⟨?_, ?_⟩
        · intro a z n h; cases h
        · intro h n g b s a z h'; cases h'
      | done =>
        refine ⟨?_, ?_⟩
        · intro a z n h; cases h
        · intro h n g b s a z h'; cases h'
      | waitingForPassword a z n =>
        have hask := ih.1 a z n hst
        have h0 := serverFirst_state x ⟨a, z, n, r, hp, salt, i⟩
        simp only at h0
        refine ⟨?_, ?_⟩
        · intro a z n h
          simp only [Server.step, h0] at h
          cases h
        · intro h' n' g' b' s' a' z' hh
          simp only [Server.step, h0] at hh
          obtain ⟨before, d, between, rfl, hd, hb⟩ := hask
          exact ⟨⟨a, z, n, r, hp, salt, i⟩, ⟨before, d, between, [], by simp, hd, hb, by simp⟩, hh⟩
      | waitingForClientFinal h n g b s a z =>
        refine ⟨?_, ?_⟩
        · intro a z n h; cases h
        · intro h' n' g' b' s' a' z' hh
          obtain ⟨e, he, hs⟩ := ih.2 _ _ _ _ _ _ _ hst
          refine ⟨e, keepWaiting he (by simp [Op.acceptedFirst]) (by simp [Op.isFinal]), ?_⟩
          rw [hs]
          exact hh
    | final d =>
      cases hst : Server.after x ops with
      | new =>
        refine ⟨?_, ?_⟩
        · intro a z n h; cases h
        · intro h n g b s a z h'; cases h'
      | done =>
        refine ⟨?_, ?_⟩
        · intro a z n h; cases h
        · intro h n g b s a z h'; cases h'
      | waitingForPassword a z n =>
        refine ⟨?_, ?_⟩
        · intro a' z' n' h
          cases h
          exact keepAsked (ih.1 a z n hst) (by simp [Op.acceptedFirst]) (by simp [Op.isPassword])
        · intro h n g b s a z h'; cases h'
      | waitingForClientFinal h n g b s a z =>
        refine ⟨?_, ?_⟩
        · intro a z n h; cases h
        · intro h n g b s a z h'; cases h'

theorem utf8_append (a b : Str) : utf8 (a ++ b) = utf8 a ++ utf8 b := by
  simp [utf8, List.flatMap_append]

theorem findProofs_eq (x : Ext) (e : Exchange) :
    findProofs x e.header e.clientFirstBare (e.serverFirst x) e.saltedPassword e.nonce
      = (e.clientProof x, e.serverSignature x) := by
  have hm : utf8 e.clientFirstBare ++ utf8 [','] ++ utf8 (e.serverFirst x) ++ utf8 [',']
      ++ utf8 (['c', '='] ++ x.b64.encode (utf8 e.header) ++ [',', 'r', '='] ++ e.nonce)
      = utf8 (e.authMessage x) := by
    rw [Exchange.authMessage, ← utf8_append, ← utf8_append, ← utf8_append, ← utf8_append]
    rfl
  unfold findProofs Exchange.clientProof Exchange.serverSignature
  simp only [hm]
  rfl

/-- When a client-final message of a waiting exchange authenticates. -/
theorem final_state (x : Ext) (e : Exchange) (d : Str) (m : Str) :
    ((e.state x).step x (.final d)).2 = some (.authenticated, m) ↔
      ∃ proof, isClientFinal d (x.b64.encode (utf8 e.header)) e.nonce proof ∧
        x.b64.decode proof = some (e.clientProof x) ∧
        (e.authzid = none ∨ e.authzid = some e.authcid) ∧
        m = "v=".toList ++ x.b64.encode (e.serverSignature x) := by
  simp only [← parseClientFinal_iff]
  unfold Server.step Exchange.state Server.clientFinal
  simp only [findProofs_eq]
  constructor
  · intro h
    split at h
    · cases h
    · rename_i gs2 nonce proof hp
      split at h
      · cases h
      · rename_i h1
        split at h
        · cases h
        · rename_i h2
          split at h
          · cases h
          · rename_i bytes hdec
            split at h
            · cases h
            · rename_i h3
              refine ⟨proof, ?_, ?_, ?_⟩
              · rw [hp, Classical.not_not.mp h1, Classical.not_not.mp h2]
              · rw [hdec, Classical.not_not.mp h3]
              · split at h
                · rename_i az haz
                  split at h
                  · cases h
                  · rename_i h4
                    simp only [Option.some.injEq, Prod.mk.injEq, true_and] at h
                    exact ⟨Or.inr (by rw [haz, Classical.not_not.mp h4]), h.symm⟩
                · rename_i haz
                  simp only [Option.some.injEq, Prod.mk.injEq, true_and] at h
                  exact ⟨Or.inl haz, h.symm⟩
  · rintro ⟨proof, hp, hdec, hz, rfl⟩
    rw [hp]
    simp only [hdec, ne_eq, not_true_eq_false, if_false]
    rcases hz with hz | hz
    · rw [hz]
      rfl
    · rw [hz]
      simp only [ne_eq, not_true_eq_false, if_false]
      rfl

end Akasa.Scram
