import Verif.Proof.OnceRun
import Verif.Proof.Rest
/-! # What the client has got in the end -/
namespace Akasa

variable {cfg : Config} {ext : Ext} {pr : Proto}
variable {keep live : Bool} {D : List PubPacket} {s : Sender PubPacket} {r : Receiver}

theorem along_sublist {R : PubPacket → Publish → Prop} (D : List PubPacket) (b : Nat)
    (ws : List Publish) (hs : (ws.map Publish.pid0).Pairwise (· < ·))
    (h : ∀ w ∈ ws, b < w.pid0 ∧ ∃ p, D[w.pid0 - b - 1]? = some p ∧ R p w) :
    ∃ ms, ms.Sublist D ∧ Along R ms ws ∧
      ((∀ j, j < D.length → ∃ w ∈ ws, w.pid0 = b + j + 1) → ms = D) := by
  induction D generalizing b ws with
  | nil =>
    cases ws with
    | nil => exact ⟨[], .slnil, .nil, fun _ => rfl⟩
    | cons w ws =>
      obtain ⟨_, p, h1, _⟩ := h w (List.mem_cons_self ..)
      rw [List.getElem?_nil] at h1
      cases h1
  | cons p D ih =>
    have hshift : ∀ (l : List Publish), (∀ w ∈ l, w ∈ ws) → (∀ w ∈ l, b + 1 < w.pid0) →
        ∀ w ∈ l, b + 1 < w.pid0 ∧ ∃ p, D[w.pid0 - (b + 1) - 1]? = some p ∧ R p w := by
      intro l hl hb w hw
      obtain ⟨_, q, h1, h2⟩ := h w (hl w hw)
      have hlt : b + 1 < w.pid0 := hb w hw
      refine ⟨hlt, q, ?_, h2⟩
      have he : w.pid0 - b - 1 = (w.pid0 - (b + 1) - 1) + 1 := by
        have key : ∀ x : Nat, b + 1 < x → x - b - 1 = x - (b + 1) - 1 + 1 := fun x hx => by omega
        exact key _ hlt
      rw [he, List.getElem?_cons_succ] at h1
      exact h1
    cases ws with
    | nil =>
      refine ⟨[], List.nil_sublist _, .nil, fun hall => ?_⟩
      obtain ⟨w, hw, _⟩ := hall 0 (Nat.succ_pos _)
      cases hw
    | cons w ws =>
      rw [List.map_cons, List.pairwise_cons] at hs
      have hgt : ∀ v ∈ ws, w.pid0 < v.pid0 := fun v hv => hs.1 _ (List.mem_map.2 ⟨v, hv, rfl⟩)
      have hb := (h w (List.mem_cons_self ..)).1
      by_cases he : w.pid0 = b + 1
      · obtain ⟨_, q, h1, h2⟩ := h w (List.mem_cons_self ..)
        have h0 : w.pid0 - b - 1 = 0 := by rw [he]; show b + 1 - b - 1 = 0; omega
        rw [h0, List.getElem?_cons_zero] at h1
        cases h1
        obtain ⟨ms, k1, k2, k3⟩ := ih (b + 1) ws hs.2
          (hshift ws (fun v hv => List.mem_cons_of_mem _ hv) (fun v hv => by rw [← he]; exact hgt v hv))
        refine ⟨_ :: ms, k1.cons_cons _, .cons h2 k2, fun hall => ?_⟩
        rw [k3 (fun j hj => ?_)]
        obtain ⟨v, hv, hvj⟩ := hall (j + 1) (Nat.succ_lt_succ hj)
        rcases List.mem_cons.1 hv with rfl | hv
        · rw [he] at hvj
          have : b + 1 = b + (j + 1) + 1 := hvj
          omega
        · refine ⟨v, hv, ?_⟩
          rw [hvj]
          show b + (j + 1) + 1 = b + 1 + j + 1
          omega
      · have hlt : b + 1 < w.pid0 := Nat.lt_of_le_of_ne hb (fun h => he h.symm)
        have hall' : ∀ v ∈ w :: ws, b + 1 < v.pid0 := by
          intro v hv
          rcases List.mem_cons.1 hv with rfl | hv
          · exact hlt
          · exact Nat.lt_trans hlt (hgt v hv)
        obtain ⟨ms, k1, k2, k3⟩ := ih (b + 1) (w :: ws) (by
          rw [List.map_cons, List.pairwise_cons]; exact hs) (hshift _ (fun v hv => hv) hall')
        refine ⟨ms, k1.cons _, k2, fun hall => ?_⟩
        obtain ⟨v, hv, hvj⟩ := hall 0 (Nat.succ_pos _)
        have := hall' v hv
        rw [hvj] at this
        exact absurd this (Nat.lt_irrefl _)

/-- What the client has got. -/
theorem Once.result (h : Once keep live pr D s r) :
    ∃ ms, ms.Sublist D ∧ Along (fun p w => Gives pr p (.publish w)) ms (firstsOf r.got) ∧
      twosOf (firstsOf r.got) = twosOf r.got ∧
      (keep = true → s.pending.packets = [] → ms = D) := by
  obtain ⟨ms, k1, k2, k3⟩ := along_sublist (R := fun p w => Gives pr p (.publish w)) D 0
    (firstsOf r.got) h.firsts (by
      intro w hw
      obtain ⟨h1, h2⟩ := firstsOf_sub r.got w hw
      cases hp : w.qosPid.pid? with
      | none => cases hq : w.qosPid <;> rw [hq] at hp h2 <;> first | exact absurd rfl h2 | cases hp
      | some k =>
        have h0 : w.pid0 = k := by unfold Publish.pid0; rw [hp]; rfl
        obtain ⟨p, d, e, j1, j2, _, j4⟩ := h.got w h1 k hp
        rw [h0]
        exact ⟨j1, p, j2, k, d, e, j4⟩)
  refine ⟨ms, k1, k2, h.once, fun hk he => k3 fun j hj => ?_⟩
  rcases h.kept hk (j + 1) (Nat.succ_le_succ (Nat.zero_le _)) hj with ⟨a, l, p, d, hn⟩ | ⟨w, hw, hp⟩
  · rw [he] at hn; cases hn
  · obtain ⟨v, h1, h2⟩ := firstsOf_mem r.got w hw (pid_ne0 hp)
    refine ⟨v, h1, ?_⟩
    unfold Publish.pid0
    rw [h2, hp]
    show j + 1 = 0 + j + 1
    omega

/-! ## What the client still has to answer -/

/-- The packet that this one answers. -/
def InPkt.settles : InPkt → List Owed
  | .puback k => [.publish k]
  | .pubrec k => [.publish k]
  | .pubcomp k => [.pubrel k]
  | _ => []

/-- Everything that is not answered yet from the broker's point of view. -/
def Receiver.owed (r : Receiver) : List Owed := r.down.flatMap OutPkt.owed ++ r.up.flatMap InPkt.settles

theorem arrive_owed {o : OutPkt} {rest : List OutPkt} (hd : r.down = o :: rest) :
    (Receiver.arrive { r with down := rest } o).owed.Perm r.owed := by
  unfold Receiver.owed
  rw [hd]
  have hmove : ∀ (a : List Owed) (x : InPkt), a = x.settles →
      (rest.flatMap OutPkt.owed ++ (r.up ++ [x]).flatMap InPkt.settles).Perm
        ((a ++ rest.flatMap OutPkt.owed) ++ r.up.flatMap InPkt.settles) := by
    rintro a x rfl
    rw [List.flatMap_append, List.flatMap_singleton, ← List.append_assoc, List.append_assoc x.settles]
    exact List.perm_append_comm
  cases o with
  | publish w =>
    simp only [Receiver.arrive]
    split
    · rename_i hq
      rw [List.flatMap_cons, OutPkt.owed, hq]
      exact .refl _
    · rename_i k hq
      rw [List.flatMap_cons, OutPkt.owed, hq]
      exact hmove _ (.puback k) rfl
    · rename_i k hq
      rw [List.flatMap_cons, OutPkt.owed, hq]
      split <;> exact hmove _ (.pubrec k) rfl
  | pubrel k c =>
    simp only [Receiver.arrive]
    exact hmove _ (.pubcomp k) rfl
  | _ => exact .refl _

theorem moves_owed {obs : List Obs} {r' : Receiver} (hm : Receiver.Moves r obs r') {l : List Owed}
    (hl : l.Perm r.owed) : (obs.foldl Obs.owed l).Perm r'.owed := by
  induction hm generalizing l with
  | done r => exact hl
  | arrive hd hm ih => exact ih (hl.trans (arrive_owed hd).symm)
  | @see r r1 r' o obs hs hm ih =>
    rw [List.foldl_cons]
    refine ih ?_
    cases o with
    | connected b c => cases b <;> cases hs <;> exact .refl _
    | took m => cases hs; exact hl
    | routed m => cases hs; exact hl
    | sent x =>
      cases hs
      unfold Receiver.owed at hl ⊢
      simp only [Obs.owed]
      rw [List.flatMap_append, List.flatMap_singleton, List.append_assoc]
      refine (List.Perm.append_right _ hl).trans ?_
      rw [List.append_assoc]
      exact List.Perm.append_left _ List.perm_append_comm
    | received pk =>
      cases ha : pk.isAnswer with
      | false =>
        rw [sees_other ha hs]
        cases pk <;> first | exact hl | cases ha
      | true =>
        obtain ⟨up, hu, rfl⟩ := sees_answer ha hs
        have key : ∀ x, pk.settles = [x] → (l.erase x).Perm ({ r with up := up } : Receiver).owed := by
          intro x hx
          refine (hl.erase x).trans ?_
          unfold Receiver.owed
          rw [hu, List.flatMap_cons, hx]
          refine ((List.perm_append_comm (l₁ := r.down.flatMap OutPkt.owed)).erase x).trans ?_
          rw [List.cons_append, List.cons_append, List.nil_append, List.erase_cons_head]
          exact List.perm_append_comm
        cases pk with
        | puback k => exact key _ rfl
        | pubrec k => exact key _ rfl
        | pubcomp k => exact key _ rfl
        | _ => cases ha

theorem moves_still {r' : Receiver} (hm : Receiver.Moves r [] r') (hd : r.down = []) : r' = r := by
  generalize he : ([] : List Obs) = l at hm
  cases hm with
  | done r => rfl
  | arrive h1 h2 => rw [hd] at h1; cases h1
  | see h1 h2 => cases he

/-- A client that starts with nothing. -/
theorem moves_start {c : ConnParams} {obs : List Obs} {r' : Receiver}
    (hm : Receiver.Moves {} (.connected false c :: obs) r') : Receiver.Moves {} obs r' := by
  obtain ⟨r1, r2, m1, m2, m3⟩ := moves_cons hm
  have := moves_still m1 rfl
  subst this
  cases m2
  exact m3

theorem due_all (recs : List Rec) : recs.flatMap (Rec.due cfg pr) =
    (recs.flatMap (Rec.messages cfg pr)).filter fun p => decide (p.qos ≠ 0) := by
  rw [List.filter_flatMap]; rfl

end Akasa
