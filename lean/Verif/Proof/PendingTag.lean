import Verif.Proof.PendingInv
/-!
# The queue does not look at the messages

Running the queue on tagged messages and forgetting the tags is the same as running it on the
messages.  This is used to tell equal messages apart.
-/
namespace Akasa

variable {P Q : Type}

def PStatus.map (f : P → Q) : PStatus P → PStatus Q
  | .new a l pid p d => .new a l pid (f p) d
  | .pubrec l pid => .pubrec l pid
  | .complete => .complete

def Pending.map (f : P → Q) (q : Pending P) : Pending Q :=
  { maxInflight := q.maxInflight, maxPackets := q.maxPackets, timeout := q.timeout
    packets := q.packets.map (PStatus.map f) }

def Sender.map (f : P → Q) (s : Sender P) : Sender Q :=
  { pending := s.pending.map f, nextPid := s.nextPid }

/-- Apply a function to the message of an operation. -/
def SendOp.map (f : P → Q) : SendOp P → SendOp Q
  | .deliver now p => .deliver now (f p)
  | .pass clk => .pass clk
  | .puback pid => .puback pid
  | .pubrec now pid => .pubrec now pid
  | .pubcomp pid => .pubcomp pid
  | .reconnect m => .reconnect m

theorem Pending.map_ext {q q' : Pending Q} (h1 : q.maxInflight = q'.maxInflight)
    (h2 : q.maxPackets = q'.maxPackets) (h3 : q.timeout = q'.timeout)
    (h4 : q.packets = q'.packets) : q = q' := by
  cases q; cases q'; simp_all

theorem isComplete_map (f : P → Q) (e : PStatus P) : (e.map f).isComplete = e.isComplete := by
  cases e <;> rfl

theorem cleanComplete_map (f : P → Q) (q : Pending P) :
    (q.map f).cleanComplete = q.cleanComplete.map f := by
  apply Pending.map_ext <;> try rfl
  show (q.packets.map (PStatus.map f)).dropWhile _ = (q.packets.dropWhile _).map _
  rw [List.dropWhile_map]
  have : (PStatus.isComplete ∘ PStatus.map f : PStatus P → Bool) = PStatus.isComplete :=
    funext (isComplete_map f)
  rw [this]

theorem pushBack_map (f : P → Q) (q : Pending P) (now : Nat) (pid : Pid) (p : P) :
    ((q.map f).pushBack now pid (f p)).1 = (q.pushBack now pid p).1.map f := by
  unfold Pending.pushBack
  have : (q.map f).packets.length = q.packets.length := by simp [Pending.map]
  rw [this]
  have h2 : (q.map f).maxPackets = q.maxPackets := rfl
  rw [h2]
  split
  · rfl
  · apply Pending.map_ext <;> try rfl
    simp [Pending.map, PStatus.map]

theorem updFirst_mapF (f : P → Q) (g : PStatus P → Option (PStatus P))
    (g' : PStatus Q → Option (PStatus Q)) (h : ∀ e, g' (e.map f) = (g e).map (PStatus.map f))
    (n : Nat) (ps : List (PStatus P)) :
    updFirst g' n (ps.map (PStatus.map f)) = (updFirst g n ps).map (List.map (PStatus.map f)) := by
  induction ps generalizing n with
  | nil => cases n <;> rfl
  | cons e ps ih =>
    cases n with
    | zero => rfl
    | succ n =>
      rw [List.map_cons, updFirst, updFirst, h]
      cases g e with
      | none => simp only [Option.map_none]; rw [ih]; simp [Function.comp_def]
      | some e' => simp

theorem window_map (f : P → Q) (q : Pending P) : (q.map f).window = q.window := by
  simp [Pending.window, Pending.map]

theorem complete_map (f : P → Q) (q : Pending P) (pid : Pid) (qos : QoS) :
    ((q.map f).complete pid qos).1 = (q.complete pid qos).1.map f := by
  have h := updFirst_mapF f (completeStatus pid qos) (completeStatus pid qos)
    (by intro e; cases e <;> simp [PStatus.map, completeStatus] <;> split <;> rfl)
    q.window q.packets
  unfold Pending.complete
  rw [window_map]
  have h' : updFirst (completeStatus pid qos) q.window (q.map f).packets = _ := h
  rw [h']
  cases updFirst (completeStatus pid qos) q.window q.packets <;> rfl

theorem pubrec_map (f : P → Q) (q : Pending P) (now : Nat) (pid : Pid) :
    ((q.map f).pubrec now pid).1 = (q.pubrec now pid).1.map f := by
  have h := updFirst_mapF f (pubrecStatus now pid) (pubrecStatus now pid)
    (by intro e; cases e <;> simp [PStatus.map, pubrecStatus])
    q.window q.packets
  unfold Pending.pubrec
  rw [window_map]
  have h' : updFirst (pubrecStatus now pid) q.window (q.map f).packets = _ := h
  rw [h']
  cases updFirst (pubrecStatus now pid) q.window q.packets <;> rfl

theorem completeAll_map (f : P → Q) (pids : List Pid) (q : Pending P) :
    (q.map f).completeAll pids = (q.completeAll pids).map f := by
  induction pids generalizing q with
  | nil => rfl
  | cons pid pids ih =>
    show ((q.map f).complete pid 1).1.completeAll pids = _
    rw [complete_map, ih]; rfl

theorem ready_map (f : P → Q) (t now : Nat) (e : PStatus P) :
    (e.map f).ready t now = e.ready t now := by
  cases e <;> rfl

theorem attempt_map (f : P → Q) (exp : Q → Option Nat) (now : Nat) (e : PStatus P) :
    (e.map f).attempt exp now =
      ((e.attempt (exp ∘ f) now).1.map f, (e.attempt (exp ∘ f) now).2.1.map (Sent.map f),
        (e.attempt (exp ∘ f) now).2.2) := by
  cases e with
  | new a l pid p d =>
    simp only [PStatus.map, PStatus.attempt, Function.comp]
    cases exp (f p) with
    | none => rfl
    | some v => simp only; split <;> rfl
  | _ => rfl

theorem sweep_map (f : P → Q) (exp : Q → Option Nat) (t : Nat) (clk : Clock) (n cur i : Nat)
    (ps : List (PStatus P)) :
    sweep exp t clk n cur i (ps.map (PStatus.map f)) =
      ((sweep (exp ∘ f) t clk n cur i ps).1.map (PStatus.map f),
        (sweep (exp ∘ f) t clk n cur i ps).2.1.map (Sent.map f),
        (sweep (exp ∘ f) t clk n cur i ps).2.2) := by
  induction ps generalizing n cur i with
  | nil => cases n <;> rfl
  | cons e ps ih =>
    cases n with
    | zero => rfl
    | succ n =>
      rw [List.map_cons, sweep, sweep, ready_map]
      split
      · simp only [ih, attempt_map, List.map_append, List.map_cons]
        congr 2
        cases (e.attempt (exp ∘ f) (clk.sent i)).2.1 <;> rfl
      · simp only [ih, List.map_cons]

theorem handlePendings_map (f : P → Q) (exp : Q → Option Nat) (clk : Clock) (q : Pending P) :
    (q.map f).handlePendings exp clk =
      ((q.handlePendings (exp ∘ f) clk).1.map f,
        (q.handlePendings (exp ∘ f) clk).2.map (Sent.map f)) := by
  have hs : (q.map f).swept exp clk =
      ((q.swept (exp ∘ f) clk).1.map (PStatus.map f), (q.swept (exp ∘ f) clk).2.1.map (Sent.map f),
        (q.swept (exp ∘ f) clk).2.2) := by
    unfold Pending.swept
    rw [cleanComplete_map, window_map]
    exact sweep_map f exp _ clk _ 0 0 _
  have ha : (q.map f).afterSweep exp clk = (q.afterSweep (exp ∘ f) clk).map f := by
    unfold Pending.afterSweep
    rw [hs, ← completeAll_map]
    rfl
  rw [Pending.handlePendings_eq, Pending.handlePendings_eq, ha, hs]
  simp only
  split
  · rfl
  · rw [cleanComplete_map]

theorem resetLastSent_map (f : P → Q) (q : Pending P) :
    (q.map f).resetLastSent = q.resetLastSent.map f := by
  apply Pending.map_ext <;> try rfl
  simp only [Pending.resetLastSent, Pending.map, List.map_map]
  apply List.map_congr_left
  intro e _
  cases e <;> rfl

theorem step_map (f : P → Q) (exp : Q → Option Nat) (s : Sender P) (op : SendOp P) :
    (s.map f).step exp (op.map f) =
      ((s.step (exp ∘ f) op).1.map f, (s.step (exp ∘ f) op).2.map (Sent.map f)) := by
  cases op with
  | deliver now p =>
    simp only [SendOp.map, Sender.step, Sender.map, cleanComplete_map, pushBack_map, List.map_nil]
  | pass clk => simp only [SendOp.map, Sender.step, Sender.map, handlePendings_map]
  | puback pid => simp only [SendOp.map, Sender.step, Sender.map, complete_map, List.map_nil]
  | pubrec now pid =>
    simp only [SendOp.map, Sender.step, Sender.map, pubrec_map, List.map_cons, List.map_nil, Sent.map]
  | pubcomp pid => simp only [SendOp.map, Sender.step, Sender.map, complete_map, List.map_nil]
  | reconnect m =>
    cases m <;> simp only [SendOp.map, Sender.step, Sender.map, resetLastSent_map, List.map_nil,
      Option.elim] <;> rfl

theorem outs_map (f : P → Q) (exp : Q → Option Nat) (s : Sender P) (ops : List (SendOp P)) :
    (s.map f).outs exp (ops.map (SendOp.map f)) = (s.outs (exp ∘ f) ops).map (Sent.map f) := by
  induction ops generalizing s with
  | nil => rfl
  | cons op ops ih =>
    rw [List.map_cons, outs_cons_eq, outs_cons_eq, step_map, ih, List.map_append]
where outs_cons_eq {R : Type} {exp : R → Option Nat} {s : Sender R} {op : SendOp R}
    {ops : List (SendOp R)} : s.outs exp (op :: ops) =
      (s.step exp op).2 ++ (s.step exp op).1.outs exp ops := outs_cons _ _ _ _

/-- Number the messages handed to the session. -/
def tagOps : Nat → List (SendOp P) → List (SendOp (P × Nat))
  | _, [] => []
  | i, .deliver now p :: ops => .deliver now (p, i) :: tagOps (i + 1) ops
  | i, .pass clk :: ops => .pass clk :: tagOps i ops
  | i, .puback pid :: ops => .puback pid :: tagOps i ops
  | i, .pubrec now pid :: ops => .pubrec now pid :: tagOps i ops
  | i, .pubcomp pid :: ops => .pubcomp pid :: tagOps i ops
  | i, .reconnect m :: ops => .reconnect m :: tagOps i ops

theorem tagOps_erase (i : Nat) (ops : List (SendOp P)) :
    (tagOps i ops).map (SendOp.map Prod.fst) = ops := by
  induction ops generalizing i with
  | nil => rfl
  | cons op ops ih => cases op <;> simp [tagOps, SendOp.map, ih]

theorem delivered_tagOps (i : Nat) (ops : List (SendOp P)) :
    delivered (tagOps i ops) = (delivered ops).zipIdx i := by
  induction ops generalizing i with
  | nil => rfl
  | cons op ops ih => cases op <;> simp [tagOps, delivered, ih]

theorem zipIdx_nodup (l : List α) (i : Nat) : (l.zipIdx i).Nodup := by
  have h : ((l.zipIdx i).map Prod.snd).Nodup := by
    rw [List.zipIdx_map_snd]; exact List.nodup_range'
  exact List.Pairwise.of_map Prod.snd (fun a b hab hc => hab (by rw [hc])) h

/-- Every run is the image of a run on messages that are numbered. -/
theorem outs_tagged (exp : P → Option Nat) (m n t : Nat) (ops : List (SendOp P)) :
    (Sender.new m n t).outs exp ops =
      ((Sender.new m n t).outs (exp ∘ Prod.fst) (tagOps 0 ops)).map (Sent.map Prod.fst) := by
  have h := outs_map Prod.fst exp (Sender.new m n t : Sender (P × Nat)) (tagOps 0 ops)
  rw [tagOps_erase] at h
  exact h

end Akasa
