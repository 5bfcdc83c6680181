import Verif.Proof.WatchInv
import Verif.Proof.Connect
import Verif.Props.Owner
import Verif.Props.Incoming
import Verif.Props.Timers
/-!
# C86: who is closed for lack of packets
# C42: silent clients, in the whole broker
-/
namespace Akasa

variable {cfg : Config} {ext : Ext} {c : Clocked} {log : List (Nat × Noted)}

theorem identifier_of {t : TaskId} {n : Str} (h : Tasks.name c.world.tasks t = some n) :
    c.identifier t = some n := by
  unfold Tasks.name at h
  unfold Clocked.identifier
  exact h

/-- **C86, who is to blame.**  A connection that is closed for lack of packets is closed by the timer
of a connection with the same client identifier, whose client was silent for more than one and a half
of the intervals of *that* connection when the timer decided so. -/
theorem C86_blame {xs : List Tick} (hrun : Clocked.Reaches cfg ext xs c log)
    {pre post : List (Nat × Noted)} {time : Nat} {t : TaskId}
    (hl : log = pre ++ (time, .closed t) :: post) :
    ∃ before after now t' id, pre = before ++ (now, .kick t' id) :: after ∧
      c.identifier t' = c.identifier t ∧ c.interval t' > 0 ∧
      SilentFor before t' (c.interval t') now := by
  have h := WatchInv.run hrun
  obtain ⟨p1, p2, time', t', id, n, h1, h2, h3⟩ := h.closed pre post time t hl
  obtain ⟨_, h4, _⟩ := h.kick time' t' id (by rw [hl, h1]; simp)
  refine ⟨p1, p2, time', t', id, h1, ?_, h4, ?_⟩
  · rw [identifier_of h2, identifier_of h3]
  · exact h.silent p1 (p2 ++ (time, .closed t) :: post) time' t' id (by rw [hl, h1]; simp)

/-- What is said here of intervals is about those of the CONNECT packets: connections are numbered in
the order of these. -/
theorem C86_interval {xs : List Tick} (hrun : Clocked.Reaches cfg ext xs c log) (t : TaskId) :
    c.interval t = (intervalsAsked xs)[t]?.getD 0 := by
  suffices h : c.world.nextTask = (intervalsAsked xs).length ∧
      ∀ t : TaskId, c.keep.get t = (intervalsAsked xs)[t]? by
    unfold Clocked.interval
    rw [h.2 t]
  unfold Clocked.Reaches at hrun
  induction xs using snoc_induction generalizing c log with
  | nil => cases hrun; exact ⟨rfl, fun _ => rfl⟩
  | snoc xs x ih =>
    obtain ⟨c1, l1, l2, h1, h2, rfl⟩ := run_snoc_clocked hrun
    obtain ⟨h3, h4⟩ := ih h1
    have happ : intervalsAsked (xs ++ [x]) = intervalsAsked xs ++ intervalsAsked [x] :=
      List.filterMap_append ..
    have hact : ∀ a k, c1.act cfg ext a k = some (c, l2) →
        ∃ evs, c1.world.step cfg ext a = some (c.world, evs) ∧ c.keep = c1.keepAfter k a := by
      intro a k h
      unfold Clocked.act at h
      cases hw : c1.world.step cfg ext a with
      | none => rw [hw] at h; cases h
      | some r =>
        obtain ⟨w, evs⟩ := r
        rw [hw] at h
        cases h
        exact ⟨evs, rfl, rfl⟩
    have hkeep : c.world.nextTask = c1.world.nextTask → c.keep = c1.keep → intervalsAsked [x] = [] →
        c.world.nextTask = (intervalsAsked (xs ++ [x])).length ∧
          ∀ t : TaskId, c.keep.get t = (intervalsAsked (xs ++ [x]))[t]? := by
      intro e1 e2 e3
      rw [happ, e1, e2, e3, List.append_nil]
      exact ⟨h3, h4⟩
    cases x with
    | pass ms => cases h2; exact hkeep rfl rfl rfl
    | wake i =>
      have h5 : c1.wake i = (c, l2) := Option.some.inj h2
      unfold Clocked.wake at h5
      split at h5
      · cases h5; exact hkeep rfl rfl rfl
      · split at h5
        · cases h5; exact hkeep rfl rfl rfl
        · split at h5
          · cases h5; exact hkeep rfl rfl rfl
          · have htell : ∀ (w : World) (id : ClientId), (w.tell id .kick).nextTask = w.nextTask := by
              intro w id
              unfold World.tell
              repeat' split
              all_goals rfl
            cases h5
            exact hkeep (htell _ _) rfl rfl
    | act a k =>
      cases a with
      | kick id => cases h2; exact hkeep rfl rfl rfl
      | connect req env wr =>
        simp only [Clocked.step] at h2
        obtain ⟨evs, h5, h6⟩ := hact _ _ h2
        obtain ⟨h7, _⟩ := request_connect h5
        have h8 : intervalsAsked [Tick.act (.connect req env wr) k] = [k] := rfl
        rw [happ, h8, h7, h3, h6]
        refine ⟨by simp, fun t => ?_⟩
        show (c1.keep.insert c1.world.nextTask k).get t = _
        rw [FMap.get_insert, h4, h3]
        by_cases ht : (intervalsAsked xs).length = t
        · subst ht; simp
        · rw [if_neg (by simpa using ht)]
          by_cases hlt : t < (intervalsAsked xs).length
          · rw [List.getElem?_append_left hlt]
          · rw [List.getElem?_eq_none (Nat.le_of_not_lt hlt), List.getElem?_eq_none]
            rw [List.length_append]
            exact Nat.lt_of_le_of_ne (Nat.le_of_not_lt hlt) ht
      | _ =>
        simp only [Clocked.step] at h2
        obtain ⟨evs, h5, h6⟩ := hact _ _ h2
        refine hkeep (request_other (step_cases h5) ?_).1 h6 rfl
        intro _ _ _ h
        cases h

/-- **C86, in part.**  If no other connection with the same client identifier has a keep-alive
interval, a connection is closed for lack of packets only if its own client was silent for more than
one and a half of its intervals. -/
theorem C86_partial {xs : List Tick} (hrun : Clocked.Reaches cfg ext xs c log)
    {pre post : List (Nat × Noted)} {time : Nat} {t : TaskId}
    (hl : log = pre ++ (time, .closed t) :: post) (hal : c.Alone t) : EndedInSilence c pre t := by
  obtain ⟨before, after, now, t', id, h1, h2, h3, h4⟩ := C86_blame hrun hl
  obtain rfl := hal t' h2 h3
  exact ⟨before, after, now, _, id, h1, h4⟩

/-- The client with this identifier connects. -/
def exWatchJoin (name : String) (k : Nat) : Tick :=
  .act (.connect { level := .v311, identifier := str name, clean := false } {} true) k

/-- A client connects (keep-alive 10 s), sends a PINGREQ after two seconds and nothing more; another
client is there for company. -/
def exWatchSilent : List Tick :=
  [exWatchJoin "c" 10, .pass 2000, .act (.packet 0 {} (Clock.const 0) 2 .pingreq) 0, exWatchJoin "d" 0,
   .wake 0, .pass 5000, .wake 0, .pass 5000, .wake 0, .pass 5000, .wake 0, .pass 5000, .wake 0,
   .act (.control 0 {}) 0]

def Noted.isKick : Noted → Bool
  | .kick .. => true
  | _ => false

def Noted.isClosed (t : TaskId) : Noted → Bool
  | .closed u => u == t
  | _ => false

def Noted.isHeard (t : TaskId) : Noted → Bool
  | .event (.received u _) => u == t
  | .event (.accepted u _) => u == t
  | _ => false

theorem heard_of {l : List (Nat × Noted)} {t : TaskId} {time : Nat}
    (h : l.any (fun x => x.1 == time && x.2.isHeard t) = true) : HeardAt l t time := by
  obtain ⟨⟨time', x⟩, hx, h1⟩ := List.any_eq_true.1 h
  simp only [Bool.and_eq_true, beq_iff_eq] at h1
  obtain ⟨rfl, h1⟩ := h1
  cases x with
  | event e =>
    cases e with
    | received u p =>
      obtain rfl : u = t := by simpa [Noted.isHeard] using h1
      exact .inr ⟨p, hx⟩
    | accepted u p =>
      obtain rfl : u = t := by simpa [Noted.isHeard] using h1
      exact .inl ⟨p, hx⟩
    | _ => cases h1
  | _ => cases h1

/-- The state and the log of a concrete run. -/
theorem clocked_of {xs : List Tick} {f : Clocked → List (Nat × Noted) → Bool}
    (h : (match Clocked.run {} exExt {} xs with | some r => f r.1 r.2 | none => false) = true) :
    ∃ c log, Clocked.Reaches {} exExt xs c log ∧ f c log = true := by
  split at h
  · rename_i r hr; exact ⟨r.1, r.2, hr, h⟩
  · cases h

theorem closed_split {l : List (Nat × Noted)} {t : TaskId}
    (h : l.any (fun x => x.2.isClosed t) = true) :
    ∃ pre post time, l = pre ++ (time, .closed t) :: post := by
  obtain ⟨⟨time, x⟩, hx, h1⟩ := List.any_eq_true.1 h
  cases x with
  | closed u =>
    obtain rfl : u = t := by simpa [Noted.isClosed] using h1
    obtain ⟨pre, post, h2⟩ := List.append_of_mem hx
    exact ⟨pre, post, time, h2⟩
  | _ => cases h1

theorem alone_of {t : TaskId} (h : c.keep.all (fun e => e.1 == t || e.2 == 0) = true) : c.Alone t := by
  intro u _ hu
  unfold Clocked.interval at hu
  cases hg : c.keep.get u with
  | none => rw [hg] at hu; cases hu
  | some k =>
    rw [hg] at hu
    have hm := List.all_eq_true.1 h (u, k) (FMap.mem_of_get hg)
    simp only [Bool.or_eq_true, beq_iff_eq] at hm
    rcases hm with rfl | rfl
    · rfl
    · cases hu

example : ∃ c log pre post time, Clocked.Reaches {} exExt exWatchSilent c log ∧
    log = pre ++ (time, .closed 0) :: post ∧ c.Alone 0 := by
  obtain ⟨c, log, h1, h2⟩ := clocked_of (xs := exWatchSilent) (f := fun c log =>
    log.any (fun x => x.2.isClosed 0) && c.keep.all (fun e => e.1 == 0 || e.2 == 0))
    (by decide +kernel)
  simp only [Bool.and_eq_true] at h2
  obtain ⟨pre, post, time, h3⟩ := closed_split h2.1
  exact ⟨c, log, pre, post, time, h1, h3, alone_of h2.2⟩

theorem takeWhile_split {α : Type} {p : α → Bool} {l pre post : List α} {x : α}
    (h : l = pre ++ x :: post) (hp : p x = false) : ∃ r, pre = l.takeWhile p ++ r := by
  subst h
  induction pre with
  | nil => exact ⟨[], by simp [hp]⟩
  | cons y ys ih =>
    obtain ⟨r, h⟩ := ih
    simp only [List.cons_append, List.takeWhile_cons]
    split
    · exact ⟨r, by rw [List.cons_append, ← h]⟩
    · exact ⟨_, rfl⟩

/-- A client (keep-alive 10 s) loses its connection at once and is back after five seconds.  From
then on it sends a PINGREQ every three seconds. -/
def exWatchBack : List Tick :=
  let ping : Tick := .act (.packet 1 {} (Clock.const 0) 2 .pingreq) 0
  [exWatchJoin "c" 10, .wake 0, .act (.lose 0) 0, .act (.close 0 {} []) 0, .act (.finish 0) 0,
   .pass 5000, .wake 0, exWatchJoin "c" 10, .act (.control 0 {}) 0, .act (.accept 1 {} true) 0, .wake 1,
   .pass 3000, ping, .pass 2000, .wake 0, .wake 1, .pass 1000, ping, .pass 3000, ping,
   .pass 1000, .wake 0, .wake 1, .pass 2000, ping, .pass 3000, ping, .wake 0, .act (.control 1 {}) 0]

/-- **C86 does not hold.**  A client that is back within two keep-alive intervals of its last packet
is closed for the silence of its former connection, however often it sends packets. -/
theorem C86_false : ¬ ∀ (xs : List Tick) (c : Clocked) (log pre post : List (Nat × Noted)) (time : Nat)
    (t : TaskId), Clocked.Reaches {} exExt xs c log → log = pre ++ (time, .closed t) :: post →
    EndedInSilence c pre t := by
  intro hall
  obtain ⟨c, log, h1, h2⟩ := clocked_of (xs := exWatchBack) (f := fun c log =>
    log.any (fun x => x.2.isClosed 1) && c.interval 1 == 10 && log.all (fun x => x.1 ≤ 20000) &&
    (log.takeWhile (fun x => !x.2.isKick)).any (fun x => x.1 == 20000 && x.2.isHeard 1))
    (by decide +kernel)
  simp only [Bool.and_eq_true, beq_iff_eq] at h2
  obtain ⟨⟨⟨h2, h3⟩, h4⟩, h5⟩ := h2
  obtain ⟨pre, post, time, rfl⟩ := closed_split h2
  obtain ⟨before, after, now, t', id, rfl, _, h6⟩ := hall _ _ _ _ _ _ _ h1 rfl
  have hsplit : (before ++ (now, Noted.kick t' id) :: after) ++ (time, Noted.closed 1) :: post =
      before ++ (now, Noted.kick t' id) :: (after ++ (time, Noted.closed 1) :: post) := by simp
  obtain ⟨r, hr⟩ := takeWhile_split (p := fun x : Nat × Noted => !x.2.isKick) hsplit rfl
  have hheard := heard_of h5
  have : HeardAt before 1 20000 := by rw [hr]; exact heard_append.2 (.inl hheard)
  have h7 := h6 _ this
  have h8 := List.all_eq_true.1 h4 (now, .kick t' id) (by simp)
  rw [h3] at h7
  have h8 : now ≤ 20000 := by simpa using h8
  omega

/-- **C42, silent, in the whole broker.**  If the timer tasks are woken no more than `δ` late, a
connection whose client has been silent for more than two intervals and `δ` has been closed, or the
message that closes it is in its control queue. -/
theorem C42_broker {xs : List Tick} (hrun : Clocked.Reaches cfg ext xs c log) {δ : Nat}
    (hp : c.Punctual δ) {t : TaskId} {s : Session} (hon : c.world.onlineSession t = some s)
    (hk : c.interval t > 0)
    (hsil : ∀ time, HeardAt log t time → time + 2000 * c.interval t + δ < c.now) :
    ∃ q, c.world.control.get s.clientId = some q ∧ .kick ∈ q := by
  have h := WatchInv.run hrun
  obtain ⟨x, hx, hst⟩ := online_stage hon
  have hid : Tasks.onlineId c.world.tasks t = some s.clientId := by
    rw [Tasks.onlineId_of hx, hst]; rfl
  rcases h.online t _ hid hk with ⟨v, hv, rfl, _⟩ | h1
  · obtain ⟨_, h2, _, ⟨time, h3, h4⟩, _⟩ := h.watch v hv
    have h5 := hsil time (h.heard _ _ h3).1
    have h6 := hp v hv
    have h7 : c.interval v.owner = v.keepAlive := by unfold Clocked.interval; rw [h2]; rfl
    rw [h7] at h5
    omega
  · exact h1

theorem of_heard {l : List (Nat × Noted)} {t : TaskId} {b : Nat}
    (h : l.all (fun x => !x.2.isHeard t || decide (x.1 ≤ b)) = true) {time : Nat}
    (ht : HeardAt l t time) : time ≤ b := by
  rcases ht with ⟨p, hp⟩ | ⟨p, hp⟩
  all_goals simpa [Noted.isHeard] using List.all_eq_true.1 h _ hp

/-- As `exWatchSilent`, but the other client has a keep-alive interval as well, and the message is not
handled yet. -/
def exWatchQuiet : List Tick :=
  [exWatchJoin "c" 10, .pass 2000, .act (.packet 0 {} (Clock.const 0) 2 .pingreq) 0, exWatchJoin "d" 60,
   .wake 0, .wake 1, .pass 5000, .wake 0, .pass 5000, .wake 0, .pass 5000, .wake 0, .pass 5000,
   .wake 0, .pass 1]

example : ∃ c log s, Clocked.Reaches {} exExt exWatchQuiet c log ∧ c.Punctual 0 ∧ c.watches ≠ [] ∧
    c.world.onlineSession 0 = some s ∧ c.interval 0 > 0 ∧
    ∀ time, HeardAt log 0 time → time + 2000 * c.interval 0 + 0 < c.now := by
  obtain ⟨c, log, h1, h2⟩ := clocked_of (xs := exWatchQuiet) (f := fun c log =>
    !c.watches.isEmpty && c.watches.all (fun v => decide (c.now ≤ v.due)) &&
    (c.world.onlineSession 0).isSome && c.interval 0 == 10 &&
    log.all (fun x => !x.2.isHeard 0 || decide (x.1 ≤ 2000)) && c.now == 22001)
    (by decide +kernel)
  simp only [Bool.and_eq_true, beq_iff_eq] at h2
  obtain ⟨⟨⟨⟨⟨h2, h3⟩, h4⟩, h5⟩, h6⟩, h7⟩ := h2
  obtain ⟨s, hs⟩ := Option.isSome_iff_exists.1 h4
  refine ⟨c, log, s, h1, ?_, ?_, hs, by omega, ?_⟩
  · intro v hv
    have := of_decide_eq_true (List.all_eq_true.1 h3 v hv)
    omega
  · intro he; rw [he] at h2; cases h2
  · intro time ht
    have := of_heard h6 ht
    omega

/-- **C42, no interval, in the whole broker.**  A connection with keep-alive interval 0 never closes
anybody. -/
theorem C42_zero_broker {xs : List Tick} (hrun : Clocked.Reaches cfg ext xs c log) {t : TaskId}
    (hk : c.interval t = 0) (time : Nat) (id : ClientId) : (time, .kick t id) ∉ log := by
  intro h
  have := ((WatchInv.run hrun).kick time t id h).2.1
  omega

end Akasa
