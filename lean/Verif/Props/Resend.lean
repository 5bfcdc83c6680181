import Verif.Spec.Resend
import Verif.Proof.PendingResend
import Verif.Proof.Rest
import Verif.Props.Resume
/-!
# C15 in the whole broker

The acts of the connections come in any order.
-/
namespace Akasa

variable {cfg : Config} {ext : Ext} {w w' : World} {evs e : List Event}

theorem queue_params {acts : List Act} (hrun : Reaches cfg ext acts w evs) {t : TaskId}
    {s : Session} {req : Request} (ho : w.owned t = some s) (hreq : w.request t = some req) :
    s.sender.pending.timeout = cfg.inflightTimeout ∧
    (req.level.proto = .v3 → s.sender.pending.maxInflight = cfg.maxInflightClient) := by
  obtain ⟨p, ⟨i, id, c, sevs, recs, h1, _, rfl⟩, h3, _⟩ := C68_alone hrun ho hreq
  have hsend : s.sender =
      (endOf { session := Session.start cfg req.level.proto i id c } recs).session.sender := by
    rw [← h3]
  rw [hsend]
  have hr := isRun_of_run h1
  refine ⟨?_, fun hv => ?_⟩
  · obtain ⟨ops, _, he⟩ := log_of_isRun hr
    rw [he, (exec_params _ _ _).2.2, start_sender]
    rfl
  · rw [window_end hr, hv]
    rfl

theorem carries_pendings (pr : Proto) (clk : Clock) (s : Session) :
    CarriesAll pr (s.sender.step (expiryOf pr) (.pass clk)).2 (handlePendingsOf pr clk s).2 := by
  cases pr with
  | v3 =>
    have : (handlePendingsOf .v3 clk s).2 =
        (s.sender.step (expiryOf .v3) (.pass clk)).2.map fun x => OutPkt.ofWire (toWireV3 x) := by
      simp [handlePendingsOf, handlePendingsV3, Sender.step, expiryOf]
    rw [this]
    exact carriesAll_v3 _
  | v5 => exact carriesAll_v5 _ _ _

theorem resent_of {pr : Proto} {clk : Clock} (l : List (PStatus PubPacket))
    (hx : ∀ a l0 pid p d, PStatus.new a l0 pid p d ∈ l → ∀ v, expiryOf pr p = some v →
      ∀ k, clk.sent k - a < v) (i : Nat) {out : List OutPkt}
    (h : CarriesAll pr (((l.map PStatus.reset).zipIdx i).filterMap
      fun x => (x.1.attempt (expiryOf pr) (clk.sent x.2)).2.1) out) : Resent pr l out := by
  induction l generalizing i out with
  | nil => cases h; exact .nil
  | cons y l ih =>
    have ih := fun i out => ih (fun a l0 pid p d hm => hx a l0 pid p d (List.mem_cons_of_mem _ hm)) i
      (out := out)
    rw [List.map_cons, List.zipIdx_cons, List.filterMap_cons] at h
    cases y with
    | complete => exact .done (ih _ _ h)
    | pubrec l0 pid =>
      change CarriesAll pr (Sent.pubrel pid :: _) out at h
      cases h with
      | @cons _ o _ os h1 h2 =>
        cases o with
        | pubrel pid' r =>
          have h1 : pid' = pid := h1
          subst h1
          exact .release (ih _ _ h2)
        | _ => exact h1.elim
    | new a l0 pid p d =>
      simp only [PStatus.reset, PStatus.attempt] at h
      cases hv : expiryOf pr p with
      | none =>
        rw [hv] at h
        cases h with
        | cons h1 h2 => exact .message h1 (ih _ _ h2)
      | some v =>
        have := hx a l0 pid p d List.mem_cons_self v hv i
        rw [hv] at h
        simp only at h
        rw [if_neg (by omega)] at h
        cases h with
        | cons h1 h2 => exact .message h1 (ih _ _ h2)

/-- **C15, in the broker.**  When a client comes back to its session, the first thing it gets after
CONNACK is everything in its window, in the order of the queue: the messages that it has not answered,
and the PUBRELs for those of which it has sent PUBREC.  The conditions: the clock of the broker shows
at least the time after which messages are sent again, as it does from a few seconds after its zero
on, and no message of the queue has passed its expiry interval. -/
theorem C15_broker {acts : List Act} (hrun : Reaches cfg ext acts w evs) {a : Act}
    (hs : w.step cfg ext a = some (w', e)) {t : TaskId} (hacc : .accepted t true ∈ e) :
    ∃ env req old out, a = .accept t env true ∧ w.request t = some req ∧ w.owned t = some old ∧
      e = [.accepted t true, .sent t out] ∧
      ((∀ j, cfg.inflightTimeout ≤ (env.clk 0).ready j) →
        old.noneExpired req.level.proto (env.clk 0) →
        Resent req.level.proto (old.window (windowOf cfg req.level.proto req.params)) out) := by
  have hb := BrokerInv.run hrun
  cases accept_cases hb.own (step_cases hs) hacc with
  | next env x old s0 s level p out ha hx hst h0 hs' ht he =>
    have h0' : s0 = old.resume cfg x.req.level.proto x.req.params := by
      unfold Request.session at h0
      split at h0 <;> cases h0
      rfl
    subst h0'
    have ho : w.owned t = some old := by rw [owned_of hx, hst]; rfl
    have hreq : w.request t = some x.req := by unfold World.request; rw [hx]; rfl
    refine ⟨env, x.req, old, out, ha, hreq, ho, he, fun hclk hex => ?_⟩
    obtain ⟨h1, h2⟩ := queue_params hrun ho hreq
    have hw := carries_pendings x.req.level.proto (env.clk 0)
      (old.resume cfg x.req.level.proto x.req.params)
    rw [hs'] at hw
    have hsend : ∃ m', (old.resume cfg x.req.level.proto x.req.params).sender =
        (old.sender.step (expiryOf x.req.level.proto) (.reconnect m')).1 ∧
        m'.getD old.sender.pending.maxInflight = windowOf cfg x.req.level.proto x.req.params := by
      cases hpr : x.req.level.proto with
      | v3 => exact ⟨none, rfl, h2 hpr⟩
      | v5 => exact ⟨some x.req.params.receiveMax, rfl, rfl⟩
    obtain ⟨m', hm1, hm2⟩ := hsend
    have hr := resume_sent (expiryOf x.req.level.proto) old.sender m' (env.clk 0)
      (fun j => by rw [h1]; exact hclk j)
    have h4 : old.sender.outs (expiryOf x.req.level.proto) [.reconnect m', .pass (env.clk 0)] =
        ((old.resume cfg x.req.level.proto x.req.params).sender.step
          (expiryOf x.req.level.proto) (.pass (env.clk 0))).2 := by
      rw [outs_cons, outs_cons, outs_nil, hm1]
      simp [Sender.step]
    rw [h4] at hr
    rw [hr, hm2] at hw
    refine resent_of _ (fun a l0 pid p d hm => ?_) 0 hw
    exact hex a l0 pid p d ((List.dropWhile_sublist _).mem (List.mem_of_mem_take hm))

/-- A client gets a message, its connection is lost before it answers, and it comes back. -/
def exResend : List Act :=
  [.connect (exReq .v311 false 100 5) {} true,
   .packet 0 {} (Clock.const 50) 10 (.subscribe 1 [(str "a", { maxQos := 1 })] none),
   .connect { level := .v500, identifier := str "d", clean := true } {} true,
   .packet 1 {} (Clock.const 50) 10 (.publish
    { dup := false, retain := false, qosPid := .level2 7, topic := str "a", payload := [1] }),
   .push 1 0, .flush 1 0, .normal 0 { clk := fun _ => Clock.const 50 },
   .lose 0, .close 0 {} [], .finish 0,
   .connect (exReq .v311 false 100 5) {} true, .control 0 {}]

/-- It gets the message again, marked as a retransmission. -/
example : ∃ w evs w' e, Reaches {} exExt exResend w evs ∧
    w.step {} exExt (.accept 2 { clk := fun _ => Clock.const 100 } true) = some (w', e) ∧
    (∀ j, ({} : Config).inflightTimeout ≤ (Clock.const 100).ready j) ∧
    e = [.accepted 2 true, .sent 2 [.publish
      { dup := true, retain := false, qosPid := .level1 1, topic := str "a", payload := [1] }]] :=
  ⟨_, _, _, _, rfl, rfl, fun _ => (by decide : 15 ≤ 100), rfl⟩

end Akasa
