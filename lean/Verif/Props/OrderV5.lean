import Verif.Proof.OrderV5
import Verif.Props.Announced
/-!
# The order of messages to MQTT 5 clients (C13, C57, C68)
-/
namespace Akasa

/-- **C57** with C13, MQTT 5: if the clock does not go back during the life of a session, the
PUBLISH packets with QoS 1 and 2 and DUP 0 that it sends carry messages that were due to it, in the
order in which they became due. -/
theorem C57_fifo_v5 {i : Str} {id : ClientId} {c : ConnParams}
    {sevs : List (Env × Global × SessEv)} {recs : List Rec} {hi : Nat}
    (hrun : ({ session := Session.start cfg .v5 i id c } : Peer).run cfg ext .v5 sevs = some recs)
    (ht : EvsUpTo 0 sevs hi) :
    ∃ xs, CarriesAll .v5 xs ((recs.flatMap (·.res.out)).filter OutPkt.isFirst) ∧
      (firstSent xs).Sublist
        ((recs.flatMap (Rec.messages cfg .v5)).filter fun p => decide (p.qos ≠ 0)) :=
  fifo_of_times hrun ht

/-- The events of `exDeliverEvs` for an MQTT 5 session: the clock shows 100 all the time, and four
messages are sent. -/
example : EvsUpTo 0 exDeliverEvs 100 ∧
    ((({ session := Session.start exDeliverCfg .v5 (str "me") 7 {} } : Peer).run exDeliverCfg exExt
      .v5 exDeliverEvs).any fun recs =>
        ((recs.flatMap (·.res.out)).filter OutPkt.isFirst).length == 4) = true := by
  refine ⟨?_, by decide +kernel⟩
  have hb : ∀ {l : Nat}, l ≤ 100 → Between l 100 (Clock.const 100) := fun h _ => ⟨h, Nat.le_refl _⟩
  refine ⟨100, by decide, ⟨fun _ => 100, 100, by decide, fun _ => ⟨hb (Nat.le_refl 100), Nat.le_refl 100⟩,
    hb (by decide)⟩, ?_⟩
  refine ⟨100, by decide, hb (by decide), 100, by decide, hb (by decide), 100, by decide,
    hb (by decide), 100, by decide, hb (by decide), 100, by decide, ?_, 100, by decide, trivial,
    100, by decide, trivial, 100, by decide, trivial, 100, by decide, hb (by decide),
    Nat.le_refl _⟩
  exact ⟨fun _ => 100, 100, by decide, fun _ => ⟨hb (Nat.le_refl 100), Nat.le_refl 100⟩, hb (by decide)⟩

/-- **C68** with C13, C56 and C57, MQTT 5, end to end, for runs during which the clock does not go
back: the PUBLISH packets with QoS 1 and 2 and DUP 0 that a client gets during the life of its
session, over all its connections, are retained messages and messages of other tasks.  The latter
have topic (or an alias), payload and properties of a copy that was queued for this client when the
message was published, and the smaller of the published and the granted QoS.  The messages of one
sender come in the order in which they were queued, and each copy at most once. -/
theorem C68_order_v5 {acts : List Act} (hrun : Reaches cfg ext acts w evs) (hf : Forward acts)
    {t : TaskId} {s : Session} {req : Request} (ho : w.owned t = some s)
    (hreq : w.request t = some req) (hl : req.level.proto = .v5) :
    ∃ src, Along (ComesFromV5 evs) src
        ((sentIn (lifeOf w req.identifier evs)).filter OutPkt.isFirst) ∧
      ∀ u, (copiesOf u src).Sublist (queuedFor u s.clientId evs) := by
  obtain ⟨hi, hf⟩ := hf
  obtain ⟨x, hx, hs⟩ := owned_stage ho
  unfold World.request at hreq
  rw [hx] at hreq
  cases hreq
  obtain ⟨chain, p, h1, h2, h3, h4, h8⟩ := (timed_life hrun).life t x s hx hs
  have hl' : x.req.level.proto = .v5 := hl
  have hlv := h1.lives
  rw [hl'] at h1
  obtain ⟨src, h5, h6⟩ := lives_orderV5 h1 hf h4
  have hlife : lifeOf w x.req.identifier evs = obsOf chain evs := lifeOf_chain hlv h8
  refine ⟨src, by rw [hlife]; exact h5, fun u => ?_⟩
  have h7 := C56_order hrun u s.clientId
  rw [List.append_assoc] at h7
  exact (h6 u).trans ((List.sublist_append_left _ _).trans h7)

/-- The clock shows 100 all the time. -/
def exClk100 : Env := { now := fun _ _ => 100, clk := fun _ => Clock.const 100 }

/-- An MQTT 5 client gets a message with an expiry interval and one without. -/
def exOrderV5 : List Act :=
  [.connect (exReq .v500 false 100 5) {} true,
   .packet 0 exClk100 (Clock.const 100) 10 (.subscribe 1 [(str "a", { maxQos := 2 })] none),
   .connect { level := .v500, identifier := str "d", clean := true } {} true,
   .packet 1 exClk100 (Clock.const 100) 10 (.publish
    { dup := false, retain := false, qosPid := .level2 7, topic := str "a", payload := [1],
      props := { messageExpiry := some 50 } }),
   .push 1 0, .flush 1 0, .normal 0 exClk100,
   .packet 1 exClk100 (Clock.const 100) 10 (.publish
    { dup := false, retain := false, qosPid := .level2 8, topic := str "a", payload := [2] }),
   .push 1 0, .flush 1 0, .normal 0 exClk100]

theorem exForward {lo : Nat} (h : lo ≤ 100) {acts : List Act}
    (ha : ∀ a ∈ acts, match a with
      | .packet _ e after _ _ => e.clk = (fun _ => Clock.const 100) ∧ after = Clock.const 100
      | .normal _ e => e.clk = (fun _ => Clock.const 100)
      | .accept _ e _ => e.clk = (fun _ => Clock.const 100)
      | _ => True) : TimesUpTo lo acts 100 := by
  induction acts generalizing lo with
  | nil => exact h
  | cons a acts ih =>
    refine ⟨100, h, ?_, ih (Nat.le_refl _) fun b hb => ha b (List.mem_cons_of_mem _ hb)⟩
    have h0 := ha a (List.mem_cons_self ..)
    have hb : ∀ {l : Nat} {c : Clock}, l ≤ 100 → c = Clock.const 100 → Between l 100 c := by
      intro l c hl hc k
      rw [hc]
      exact ⟨hl, Nat.le_refl 100⟩
    cases a with
    | packet _ e after _ _ =>
      exact ⟨fun _ => 100, 100, h, fun i => ⟨hb (Nat.le_refl 100) (by rw [h0.1]), Nat.le_refl 100⟩,
        hb (Nat.le_refl 100) h0.2⟩
    | normal _ e => exact hb h (congrFun h0 0)
    | accept _ e _ => exact hb h (congrFun h0 0)
    | _ => trivial

example : Forward exOrderV5 :=
  ⟨100, exForward (by decide) (by
    intro a ha
    simp only [exOrderV5, List.mem_cons, List.not_mem_nil, or_false] at ha
    rcases ha with rfl | rfl | rfl | rfl | rfl | rfl | rfl | rfl | rfl | rfl | rfl <;>
      first | trivial | exact ⟨rfl, rfl⟩ | rfl)⟩

example : ∃ w evs, Reaches {} exExt exOrderV5 w evs ∧
    ((w.owned 0).any fun s => (queuedFor 1 s.clientId evs).length == 2) = true ∧
    ((w.request 0).any fun req => req.level.proto == .v5 &&
      ((sentIn (lifeOf w req.identifier evs)).filter OutPkt.isFirst).length == 2) = true := by
  obtain ⟨w, evs, h1, h2⟩ := reaches_of (cfg := {}) (acts := exOrderV5) (P := fun r =>
    ((r.1.owned 0).any fun s => (queuedFor 1 s.clientId r.2).length == 2) &&
    ((r.1.request 0).any fun req => req.level.proto == .v5 &&
      ((sentIn (lifeOf r.1 req.identifier r.2)).filter OutPkt.isFirst).length == 2))
    (by decide +kernel)
  simp only [Bool.and_eq_true] at h2
  exact ⟨w, evs, h1, h2.1, by simpa using h2.2⟩

end Akasa
