import Verif.Proof.WorldFlow
import Verif.Proof.Transfer
import Verif.Spec.Room
/-! # The number of messages on their way -/
namespace Akasa

variable {cfg : Config} {ext : Ext} {pr : Proto} {env : Env} {w w' : World} {e : List Event}

/-- The counter of a session is right. -/
structure Counted (s : Session) : Prop where
  wf : FMap.WF s.bcast
  count : s.bcastCnt = queuedCopies s.bcast

theorem Counted.of_copies {s s' : Session} (h : Counted s) (hc : s'.copies = s.copies) :
    Counted s' := by
  have h1 : s'.bcast = s.bcast := congrArg Prod.fst hc
  have h2 : s'.bcastCnt = s.bcastCnt := congrArg Prod.snd hc
  exact ⟨by rw [h1]; exact h.wf, by rw [h1, h2]; exact h.count⟩

theorem Counted.push {s : Session} (h : Counted s) (reg : ClientId → Bool)
    (cs : List (ClientId × NormalMsg)) : Counted (s.pushCopies reg cs) := by
  have hc := pushFold_count reg cs { s with bcastCnt := s.bcastCnt + cs.length }
    h.wf (by simp [h.count])
  exact ⟨hc.1, hc.2⟩

theorem counted_new {s : Session} (h : s.copies = ([], 0)) : Counted s := by
  have h1 : s.bcast = [] := congrArg Prod.fst h
  have h2 : s.bcastCnt = 0 := congrArg Prod.snd h
  exact ⟨by rw [h1]; exact FMap.wf_nil, by rw [h1, h2]; rfl⟩

/-- Handling a packet keeps the counter right. -/
theorem counted_packet {g : Global} {s : Session} {n : Nat} {p : InPkt} {r : Res} (hs : Counted s)
    (h : handlePacket cfg ext pr env g s n p = some r) : Counted r.session := by
  by_cases hr : r.routed = []
  · exact hs.of_copies (copies_handlePacket h hr)
  · by_cases hp : ∃ q, p = .publish q
    · obtain ⟨q, rfl⟩ := hp
      cases handle_publish_cases h with
      | route2 s1 t pid s' g' n hres hl hd hg hlen hsend =>
        obtain ⟨cs, rfl⟩ := sendOf_push hsend
        refine Counted.of_copies (Counted.push (hs.of_copies ?_) _ cs) rfl
        rw [resolved_ident hres]; rfl
      | route01 s1 t s' g' n hres hp hsend =>
        obtain ⟨cs, rfl⟩ := sendOf_push hsend
        refine Counted.of_copies (Counted.push (hs.of_copies ?_) _ cs) rfl
        rw [resolved_ident hres]; rfl
      | _ => exact absurd rfl hr
    · exact absurd (handle_other (fun q hq => hp ⟨q, hq⟩) h).1 hr

theorem counted_onPacket {g : Global} {s : Session} {n : Nat} {p : InPkt} {r : Res} {after : Clock}
    (hs : Counted s) (h : onPacket cfg ext pr env after g s n p = some r) : Counted r.session := by
  obtain ⟨r0, h0, -, hc, -⟩ := onPacket_handled h
  exact (counted_packet hs h0).of_copies hc

theorem counted_will {g g' : Global} {s s' : Session} {m : Option SendPub} (hs : Counted s)
    (h : WillSent ext pr env g s s' g' m) : Counted s' := by
  cases hw : s.will with
  | none => rw [(h.kept hw).1]; exact hs
  | some wl =>
    obtain ⟨n, hn⟩ := h.sent wl hw
    obtain ⟨cs, rfl⟩ := sendOf_push hn
    exact Counted.push (s := { s with will := none }) (hs.of_copies rfl) _ cs

theorem counted_session {req : Request} {old : Session} {level : Level} {s0 s : Session} {b : Bool}
    {clk : Clock} {out : List OutPkt} (h0 : req.session cfg old level = (s0, b))
    (h : handlePendingsOf pr clk s0 = (s, out)) : Counted s := by
  refine counted_new ?_
  have := copies_pendings pr clk s0
  rw [h] at this
  rw [this]
  unfold Request.session at h0
  split at h0
  · cases h0; cases req.level.proto <;> rfl
  · cases h0; cases req.level.proto <;> rfl

theorem counted_start {name : Str} {id : ClientId} {c : ConnParams} {s : Session}
    {clk : Clock} {out : List OutPkt}
    (h : handlePendingsOf pr clk (Session.start cfg pr name id c) = (s, out)) : Counted s := by
  refine counted_new ?_
  have := copies_pendings pr clk (Session.start cfg pr name id c)
  rw [h] at this
  rw [this]
  cases pr <;> rfl

theorem counted_next {s : Session} (h : Counted s) {d : ClientId} {m : NormalMsg}
    {rest : List NormalMsg} (hq : s.queue d = m :: rest) :
    Counted { s with bcast := if rest.isEmpty then s.bcast.erase d else s.bcast.insert d rest
                     bcastCnt := s.bcastCnt - 1 } := by
  unfold Session.queue at hq
  cases rest with
  | nil =>
    refine ⟨FMap.wf_erase h.wf _, ?_⟩
    have := queuedCopies_erase s.bcast h.wf d
    rw [hq] at this
    have h2 := h.count
    simp only [List.length_cons, List.length_nil, List.isEmpty_nil, if_true] at this ⊢
    omega
  | cons a l =>
    refine ⟨FMap.wf_insert h.wf _ _, ?_⟩
    have := queuedCopies_insert s.bcast h.wf d (a :: l)
    rw [hq] at this
    have h2 := h.count
    simp only [List.length_cons, List.isEmpty_cons, Bool.false_eq_true, if_false] at this ⊢
    omega

theorem counted_drop {s : Session} (h : Counted s) (d : ClientId) :
    Counted { s with bcast := s.bcast.erase d
                     bcastCnt := s.bcastCnt - (s.queue d).length } := by
  refine ⟨FMap.wf_erase h.wf _, ?_⟩
  have := queuedCopies_erase s.bcast h.wf d
  have h2 := h.count
  unfold Session.queue
  simp only
  omega

/-- The counter of the session of a task is right. -/
def Stage.counted : Stage → Prop
  | .online s => Counted s
  | .closed s => Counted s
  | .ending s => Counted s
  | .offline s => Counted s
  | .expired s => Counted s
  | _ => True

theorem counted_sending {st : Stage} {s : Session} (h : st.sending? = some s) :
    (st.counted ↔ Counted s) ∧ ∀ s', ((st.setSession s').counted ↔ Counted s') := by
  cases st <;> simp_all [Stage.sending?, Stage.counted, Stage.setSession]

/-- Inboxes hold no more than they can, counters are right. -/
structure RoomInv (w : World) : Prop where
  inbox : ∀ d q, w.inbox.get d = some q → q.length ≤ inboxSize
  count : ∀ t x, w.tasks.get t = some x → x.stage.counted

theorem RoomInv.init : RoomInv {} := ⟨(fun d q h => by cases h), fun t x h => by cases h⟩

theorem room_step {a : Act} (h : RoomInv w) (hc : WCase cfg ext w a w' e) : RoomInv w' := by
  have hins : ∀ {d : ClientId} {q : List (TaskId × NormalMsg)}, q.length ≤ inboxSize →
      ∀ d' q', (w.inbox.insert d q).get d' = some q' → q'.length ≤ inboxSize := by
    intro d q hq d' q' h'
    rw [FMap.get_insert] at h'
    split at h'
    · cases h'; exact hq
    · exact h.inbox _ _ h'
  have hera : ∀ {d : ClientId}, ∀ d' q', (w.inbox.erase d).get d' = some q' →
      q'.length ≤ inboxSize := by
    intro d d' q' h'
    rw [FMap.get_erase] at h'
    split at h'
    · cases h'
    · exact h.inbox _ _ h'
  have htask : ∀ {t : TaskId} {x : Task}, x.stage.counted →
      ∀ t' x', (w.tasks.insert t x).get t' = some x' → x'.stage.counted := by
    intro t x hx t' x' h'
    rw [FMap.get_insert] at h'
    split at h'
    · cases h'; exact hx
    · exact h.count _ _ h'
  have htask2 : ∀ {t b : TaskId} {x y : Task}, x.stage.counted → y.stage.counted →
      ∀ t' x', ((w.tasks.insert t x).insert b y).get t' = some x' → x'.stage.counted := by
    intro t b x y hx hy t' x' h'
    rw [FMap.get_insert] at h'
    split at h'
    · cases h'; exact hy
    · exact htask hx t' x' h'
  have hold : ∀ {t : TaskId} {x : Task} {st : Stage}, w.tasks.get t = some x → x.stage = st →
      st.counted := by
    rintro t x st hx rfl
    exact h.count _ _ hx
  cases hc with
  | idle => exact h
  | fresh req env r id hadd hw s out hs =>
    exact ⟨hins (Nat.zero_le _), htask (counted_start hs)⟩
  | stillborn req env wr r id hadd =>
    refine ⟨fun d q hq => ?_, htask trivial⟩
    have hq : ((w.inbox.insert id []).erase id).get d = some q := hq
    rw [FMap.get_erase] at hq
    split at hq
    · cases hq
    · exact hins (Nat.zero_le _) _ _ hq
  | wait => exact ⟨h.inbox, htask trivial⟩
  | locked => exact ⟨h.inbox, htask trivial⟩
  | accept t env x old level hx hst hw s0 present h0 s out hs =>
    exact ⟨h.inbox, htask (counted_session h0 hs)⟩
  | refused => exact ⟨hera, htask trivial⟩
  | packet t env after size p x s hx hst hd r hr hroom =>
    have := counted_onPacket (hold hx hst) hr
    refine ⟨h.inbox, htask ?_⟩
    cases r.closed <;> exact this
  | normalOn t env x s hx hst hd src m rest hi =>
    refine ⟨hins ?_, htask (Counted.of_copies (hold hx hst : Counted s) (copies_onNormal ..))⟩
    have := h.inbox _ _ hi
    simp only [List.length_cons] at this
    omega
  | normalOff t env x s hx hst hd src m rest hi =>
    refine ⟨hins ?_, htask (Counted.of_copies (hold hx hst : Counted s) (copies_normal ..))⟩
    have := h.inbox _ _ hi
    simp only [List.length_cons] at this
    omega
  | handOn => exact ⟨h.inbox, htask2 trivial trivial⟩
  | handOff t env x s hx hst hd b y q hq hy msgs inbox hm =>
    refine ⟨?_, htask2 trivial trivial⟩
    rcases hm with ⟨_, _, rfl⟩ | ⟨_, _, rfl⟩
    · exact hins (Nat.zero_le _)
    · exact h.inbox
  | deny => exact ⟨h.inbox, htask trivial⟩
  | ignored => exact ⟨h.inbox, h.count⟩
  | kicked t env x s hx hst q hq =>
    have hs : Counted s := hold hx hst
    exact ⟨h.inbox, htask hs⟩
  | expire t env x s hx hst hd time q hq hpr ht s' g m hw r route hrem =>
    exact ⟨h.inbox, htask (counted_will (hold hx hst) hw)⟩
  | lateWill t env x s hx hst hd time q hq hpr ht s' g m hw =>
    exact ⟨h.inbox, htask (counted_will (hold hx hst) hw)⟩
  | lose t x s hx hst =>
    have hs : Counted s := hold hx hst
    exact ⟨h.inbox, htask hs⟩
  | closeQuiet t env lost x s hx hst =>
    have hs : Counted s := hold hx hst
    exact ⟨h.inbox, htask hs⟩
  | closeWill t env lost x s hx hst hd hp s' g m hw =>
    exact ⟨h.inbox, htask (counted_will (hold hx hst) hw)⟩
  | closeDelayed t env lost x s hx hst =>
    have hs : Counted s := hold hx hst
    exact ⟨h.inbox, htask hs⟩
  | push t d x s hx hst m rest hq hk =>
    have hs := (counted_sending hst).1.1 (h.count _ _ hx)
    exact ⟨h.inbox, htask (((counted_sending hst).2 _).2 (counted_next hs hq))⟩
  | flush t d x hx m q hk hi hl =>
    have hs := h.count _ _ hx
    refine ⟨hins ?_, htask hs⟩
    simp only [List.length_append, List.length_cons, List.length_nil]
    omega
  | giveUp t d x s hx hst hi =>
    have hs := (counted_sending hst).1.1 (h.count _ _ hx)
    exact ⟨h.inbox, htask (((counted_sending hst).2 _).2 (counted_drop hs d))⟩
  | remove => exact ⟨hera, htask trivial⟩
  | rest t x s hx hst =>
    have hs : Counted s := hold hx hst
    exact ⟨h.inbox, htask hs⟩
  | fire i tm ht w' hw =>
    rcases hw with ⟨rfl, _⟩ | ⟨q, _, _, rfl⟩ <;> exact ⟨h.inbox, h.count⟩
  | kick => exact ⟨h.inbox, h.count⟩

theorem room_run {acts : List Act} {evs : List Event} (h : Reaches cfg ext acts w evs) :
    RoomInv w :=
  world_induction (P := fun w _ => RoomInv w) .init
    (fun _ _ _ _ _ hi hs => room_step hi (step_cases hs)) h

/-! ## Totals -/

theorem total_le (b : FMap ClientId (List NormalMsg)) (ds : List ClientId) (h : ds.Nodup) :
    totalFor ds (fun d => (b.get d).getD []) ≤ queuedCopies b := by
  induction b generalizing ds with
  | nil =>
    unfold totalFor
    clear h
    induction ds with
    | nil => simp [queuedCopies]
    | cons d ds ih => simpa using ih
  | cons e b ih =>
    obtain ⟨k, v⟩ := e
    have hval : ∀ (ds : List ClientId), k ∉ ds →
        totalFor ds (fun d => (FMap.get ((k, v) :: b) d).getD []) =
          totalFor ds (fun d => (FMap.get b d).getD []) := by
      intro ds hk
      unfold totalFor
      congr 1
      apply List.map_congr_left
      intro d hd
      simp only
      rw [FMap.get_cons, if_neg]
      rintro rfl
      exact hk hd
    have hsum : queuedCopies ((k, v) :: b) = v.length + queuedCopies b := by
      simp [queuedCopies]
    by_cases hk : k ∈ ds
    · have hperm := List.perm_cons_erase hk
      have h1 : totalFor ds (fun d => (FMap.get ((k, v) :: b) d).getD []) =
          totalFor (k :: ds.erase k) (fun d => (FMap.get ((k, v) :: b) d).getD []) := by
        unfold totalFor
        exact (hperm.map _).sum_nat
      have hnot : k ∉ ds.erase k := by
        intro hh
        exact ((List.Nodup.mem_erase_iff h).1 hh).1 rfl
      have h2 := ih (ds.erase k) (h.erase k)
      rw [← hval _ hnot] at h2
      rw [h1, hsum]
      unfold totalFor at h2 ⊢
      have h3 : FMap.get ((k, v) :: b) k = some v := by rw [FMap.get_cons, if_pos rfl]
      simp only [List.map_cons, List.sum_cons, h3, Option.getD_some] at h2 ⊢
      omega
    · rw [hval _ hk, hsum]
      have := ih ds h
      omega

theorem total_keys (b : FMap ClientId (List NormalMsg)) (h : FMap.WF b) :
    totalFor b.keys (fun d => (b.get d).getD []) = queuedCopies b := by
  unfold totalFor FMap.keys queuedCopies
  rw [List.map_map]
  congr 1
  apply List.map_congr_left
  rintro ⟨k, v⟩ hm
  simp only [Function.comp]
  rw [FMap.get_of_mem h hm]
  rfl

theorem fewer_iff {s : Session} (h : Counted s) (n : Nat) :
    FewerThan n s.queue ↔ s.bcastCnt < n := by
  rw [h.count]
  constructor
  · intro hf
    have := hf s.bcast.keys h.wf
    rw [show totalFor s.bcast.keys s.queue = queuedCopies s.bcast from total_keys _ h.wf] at this
    exact this
  · intro hn ds hd
    exact Nat.lt_of_le_of_lt (total_le s.bcast ds hd) hn

end Akasa
