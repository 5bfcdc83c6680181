import Verif.Proof.Metrics
import Verif.Model.Metrics
import Verif.Props.Panic
/-!
# C107: the metrics page

The page of the HTTP interface for Prometheus, as it is while the broker runs; the acts of the
connections come in any order.
-/
namespace Akasa

variable {cfg : Config} {ext : Ext} {w w' : World} {evs e : List Event}

/-- The page that reports `n` online clients. -/
def Reports (page : Str) (n : Nat) : Prop :=
  page = ("# HELP ONLINE_CLIENTS Count of online clients\n# TYPE ONLINE_CLIENTS gauge\n" ++
    "ONLINE_CLIENTS " ++ toString n ++ "\n").toList

theorem reports_online (r : Registry) : Reports (metricsPage r) r.online := by
  unfold Reports metricsPage showNat
  simp [String.toList_append, Nat.repr, toString]

/-- **C107, partial: the metrics page is right.**  If no client has connected while it still had a
connection, and every client that was accepted got its CONNACK, the page reports the number of
connections that are not over, when none waits for the session of an earlier one.  Missing: what
happens otherwise, where the claim is false (`C107_takeover_false`, `C107_drift_false`). -/
theorem C107_partial {acts : List Act} (hrun : Reaches cfg ext acts w evs)
    (hu : Undisturbed cfg ext acts) (hw : ∀ t, ¬ w.waits t) {ts : List TaskId} (hnd : ts.Nodup)
    (hts : ∀ t, t ∈ ts ↔ w.isOpen t) : Reports (metricsPage w.registry) ts.length := by
  obtain ⟨toks, h⟩ := exact_run hrun hu
  have hmem : ∀ t, t ∈ toks.map (·.2) ↔ t ∈ ts := by
    intro t
    rw [hts, isOpen_iff, List.mem_map]
    constructor
    · rintro ⟨⟨id, u⟩, hm, rfl⟩; exact ⟨id, ((h.mem id u).mp hm).1⟩
    · rintro ⟨id, ha⟩
      exact ⟨(id, t), (h.mem id t).mpr ⟨ha, open_registered (BrokerInv.run hrun).own ha (hw t)⟩, rfl⟩
  have hlen : ts.length = w.registry.online := by
    rw [h.len, ← List.length_map (f := (·.2)) (as := toks)]
    exact Nat.le_antisymm (nodup_le hnd fun a ha => (hmem a).mpr ha)
      (nodup_le (tasks_nodup h) fun a ha => (hmem a).mp ha)
  rw [hlen]
  exact reports_online _

/-- The client `c` connects, loses its connection, and comes back after its session was put aside; a
client `d` connects, too. -/
def exComings (level : Level) : List Act :=
  [.connect (exReq level false 100 5) {} true,
   .connect { exReq level false 100 5 with identifier := str "d" } {} true,
   .lose 0, .close 0 {} [], .finish 0,
   .connect (exReq level false 100 5) {} true,
   .control 0 {}, .accept 2 {} true]

/-- Nobody waits, and the connections of the list are those that are not over; by computation. -/
def World.openAre (w : World) (ts : List TaskId) : Bool :=
  w.tasks.all (fun p =>
    (match p.2.stage with
      | .waiting _ => false
      | _ => true) &&
    (((w.tasks.get p.1).map fun x => x.stage.openNow) == some true) == ts.contains p.1) &&
  ts.all fun t => (w.tasks.map (·.1)).contains t

theorem no_waits {ts : List TaskId} (h : w.openAre ts = true) : ∀ t, ¬ w.waits t := by
  rintro t ⟨x, id, hx, hst⟩
  unfold World.openAre at h
  simp only [Bool.and_eq_true, List.all_eq_true] at h
  have := (h.1 (t, x) (FMap.mem_of_get hx)).1
  simp [hst] at this

theorem open_list {ts : List TaskId} (h : w.openAre ts = true) : ∀ t, t ∈ ts ↔ w.isOpen t := by
  unfold World.openAre at h
  simp only [Bool.and_eq_true, List.all_eq_true] at h
  have key : ∀ t x, w.tasks.get t = some x →
      (t ∈ ts ↔ ((w.tasks.get t).map fun x => x.stage.openNow) = some true) := by
    intro t x hx
    have := (h.1 (t, x) (FMap.mem_of_get hx)).2
    rw [beq_iff_eq] at this
    rw [← List.contains_iff_mem, ← this, beq_iff_eq]
  have iff : ∀ t, ((w.tasks.get t).map fun x => x.stage.openNow) = some true ↔ w.isOpen t := by
    intro t
    unfold World.isOpen
    cases hg : FMap.get w.tasks t with
    | none => simp
    | some x => cases hst : x.stage <;> simp [Stage.openNow, hst]
  intro t
  constructor
  · intro ht
    have hk := h.2 t ht
    rw [List.contains_iff_mem] at hk
    cases hg : FMap.get w.tasks t with
    | none => exact absurd hk ((FMap.get_eq_none_iff _ _).mp hg)
    | some x => exact (iff t).mp ((key t x hg).mp ht)
  · intro ho
    obtain ⟨x, hx, -⟩ := id ho
    exact (key t x hx).mpr ((iff t).mpr ho)

/-- What a run leaves, by computation. -/
theorem leaves_of {acts : List Act} {ts : List TaskId} {n : Nat}
    (h : (World.run cfg ext {} acts).map (fun p => p.1.openAre ts && p.1.registry.online == n) =
      some true) : ∃ w evs, Reaches cfg ext acts w evs ∧ (∀ t, ¬ w.waits t) ∧
      (∀ t, t ∈ ts ↔ w.isOpen t) ∧ Reports (metricsPage w.registry) n := by
  cases hr : World.run cfg ext {} acts with
  | none => rw [hr] at h; cases h
  | some p =>
    rw [hr] at h
    simp only [Option.map_some, Option.some.injEq, Bool.and_eq_true, beq_iff_eq] at h
    exact ⟨p.1, p.2, hr, no_waits h.1, open_list h.1, by rw [← h.2]; exact reports_online _⟩

/-- The hypotheses are met by `exComings`: two connections are open (the ones with the numbers 1 and
2; the first one was lost). -/
example (level : Level) : ∃ w evs, Reaches {} exExt (exComings level) w evs ∧
    Undisturbed {} exExt (exComings level) ∧ (∀ t, ¬ w.waits t) ∧ (∀ t, t ∈ [1, 2] ↔ w.isOpen t) ∧
    Reports (metricsPage w.registry) 2 := by
  have hu : Undisturbed {} exExt (exComings level) :=
    undisturbed_of (by cases level <;> decide +kernel)
  obtain ⟨w, evs, h1, h2, h3, h4⟩ := leaves_of (cfg := {}) (ext := exExt) (acts := exComings level)
    (ts := [1, 2]) (n := 2) (by cases level <;> decide +kernel)
  exact ⟨w, evs, h1, hu, h2, h3, h4⟩

/-- **C107, the half that always holds**: whatever happens, the page does not report less than the
number of the connections that are not over and wait for nothing. -/
theorem C107_least {acts : List Act} (hrun : Reaches cfg ext acts w evs) {ts : List TaskId}
    (hnd : ts.Nodup) (hts : ∀ t ∈ ts, w.isOpen t ∧ ¬ w.waits t) :
    ∃ n, Reports (metricsPage w.registry) n ∧ ts.length ≤ n := by
  obtain ⟨toks, h⟩ := tokens_run hrun
  refine ⟨_, reports_online _, ?_⟩
  have hle : ts.length ≤ (toks.map (·.2)).length := by
    refine nodup_le hnd fun t ht => ?_
    obtain ⟨ho, hw⟩ := hts t ht
    obtain ⟨id, ha⟩ := isOpen_iff.mp ho
    exact List.mem_map.mpr
      ⟨(id, t), h.task t id ha (open_registered (BrokerInv.run hrun).own ha hw), rfl⟩
  rw [List.length_map] at hle
  exact Nat.le_trans hle h.few

/-- The client connects again while its connection is there, and then loses the new one, too. -/
def exSteal (level : Level) : List Act :=
  [.connect (exReq level false 100 5) {} true, .connect (exReq level false 100 5) {} true,
   .control 0 {}, .accept 1 {} true, .lose 1, .close 1 {} [], .finish 1]

/-- It is met by `exSteal` before the connection is lost: one connection, and two are reported. -/
example (level : Level) : ∃ w evs, Reaches {} exExt ((exSteal level).take 4) w evs ∧
    w.isOpen 1 ∧ ¬ w.waits 1 ∧ Reports (metricsPage w.registry) 2 := by
  obtain ⟨w, evs, h1, h2, h3, h4⟩ := leaves_of (cfg := {}) (ext := exExt)
    (acts := (exSteal level).take 4) (ts := [1]) (n := 2) (by cases level <;> decide +kernel)
  exact ⟨w, evs, h1, (h3 1).mp (by simp), h2 1, h4⟩

/-- The full claim: the page reports the number of the connections that are not over, when none
waits. -/
def MetricsRight (cfg : Config) (ext : Ext) (acts : List Act) : Prop :=
  ∀ w evs, Reaches cfg ext acts w evs → (∀ t, ¬ w.waits t) → ∀ ts : List TaskId, ts.Nodup →
    (∀ t, t ∈ ts ↔ w.isOpen t) → Reports (metricsPage w.registry) ts.length

theorem reports_inj {page : Str} {m n : Nat} (h : Reports page m) (h' : Reports page n) : m = n := by
  unfold Reports at h h'
  rw [h] at h'
  simp only [String.toList_append, List.append_assoc, List.append_cancel_left_eq] at h'
  have h'' := List.append_inj_left' h' rfl
  have : Nat.toDigits 10 m = Nat.toDigits 10 n := by simpa [toString, Nat.repr] using h''
  rw [← Nat.ofDigitChars_ten_toDigits (n := m), this, Nat.ofDigitChars_ten_toDigits]

/-- **C107** is false of the code: a client that takes its own session over is counted twice and
subtracted once, so that it is still reported when it is gone. -/
theorem C107_takeover_false (level : Level) : ¬ MetricsRight {} exExt (exSteal level) := by
  intro h
  obtain ⟨w, evs, h1, h2, h3, h4⟩ := leaves_of (cfg := {}) (ext := exExt) (acts := exSteal level)
    (ts := []) (n := 1) (by cases level <;> decide +kernel)
  cases reports_inj (h w evs h1 h2 [] List.nodup_nil h3) h4

/-- After `n + 1` connections of a client that are lost before CONNACK. -/
structure Lost (w : World) (name : Str) (n : Nat) : Prop where
  ident : w.registry.identMap.get name = some 0
  clients : w.registry.clients.contains 0 = true
  control : w.control.get 0 = none
  online : w.registry.online = n + 1
  gone : ∀ t x, w.tasks.get t = some x → x.stage = .gone

theorem lost_run (cfg : Config) (ext : Ext) (req : Request) (n : Nat) :
    ∃ w evs, Reaches cfg ext (List.replicate (n + 1) (.connect req {} false)) w evs ∧
      Lost w req.identifier n := by
  induction n with
  | zero =>
    refine ⟨_, _, rfl, ?_, rfl, ?_, rfl, ?_⟩
    · exact FMap.get_insert_self ..
    · show FMap.get (FMap.erase (FMap.insert [] 0 [])
        (Session.start cfg req.level.proto req.identifier 0 req.params).clientId) 0 = none
      rw [(start_ids cfg req.level.proto req.identifier 0 req.params).1]
      rfl
    · intro t x hx
      have hx : FMap.get (FMap.insert ([] : Tasks) 0 { req, stage := .gone }) t = some x := hx
      rw [FMap.get_insert] at hx
      split at hx
      · cases hx; rfl
      · cases hx
  | succ n ih =>
    obtain ⟨w, evs, hr, h⟩ := ih
    have hstep : w.step cfg ext (.connect req {} false) = some
        ({ w with registry := { w.registry with online := w.registry.online + 1
                                                idMap := w.registry.mark 0 true }
                  nextTask := w.nextTask + 1
                  tasks := w.tasks.insert w.nextTask { req, stage := .gone } }, []) := by
      show w.connect cfg req {} false = _
      unfold World.connect Registry.add
      simp only [h.ident, h.clients, if_true, h.control]
      rfl
    have hrun := run_snoc_world.mpr ⟨_, _, _, hr, hstep, rfl⟩
    rw [← List.replicate_succ'] at hrun
    refine ⟨_, _, hrun, h.ident, h.clients, h.control, ?_, ?_⟩
    · show w.registry.online + 1 = _
      rw [h.online]
    · intro t x hx
      simp only [FMap.get_insert] at hx
      split at hx
      · cases hx; rfl
      · exact h.gone t x hx

/-- **C107** is false of the code, by any number: a single client whose first connection fails before
CONNACK can never connect (its name stays taken), and every further attempt is counted as one more
online client although no connection is open.  (The client may use any settings.) -/
theorem C107_drift_false (cfg : Config) (ext : Ext) (req : Request) (n : Nat) :
    ∃ w evs, Reaches cfg ext (List.replicate n (.connect req {} false)) w evs ∧
      (∀ t, ¬ w.isOpen t) ∧ Reports (metricsPage w.registry) n := by
  cases n with
  | zero => exact ⟨_, _, rfl, (fun t ⟨x, hx, _⟩ => by cases hx), reports_online _⟩
  | succ n =>
    obtain ⟨w, evs, hr, h⟩ := lost_run cfg ext req n
    refine ⟨w, evs, hr, ?_, by rw [← h.online]; exact reports_online _⟩
    rintro t ⟨x, hx, ho⟩
    rw [h.gone t x hx] at ho
    exact ho

end Akasa
