import Verif.Model.DefaultHook
import Verif.Props.ConnHook
import Verif.Props.Hook
import Verif.Props.HookConnect
/-!
# C69, C90, C108 for the hook of the program

The program always runs with one hook.  Whatever hooks are switched on, it makes no difference.
-/
namespace Akasa

/-- **C69, as shipped.**  With the hook of the program every packet has the effect and the replies it
has with hooks switched off, whatever other sessions do while the hook is asked. -/
theorem C69_shipped (cfg : Config) (hooks : HookConfig) (ext : HookExt) (pr : Proto) (env : Env)
    (meanwhile : Global → Global) (henv : Nat → Env) (after : Clock) (g : Global) (s : Session)
    (size : Nat) (pkt : InPkt) :
    onPacketHook cfg hooks ext pr env (defaultAnswers meanwhile henv) after g s size pkt =
      onPacket cfg ext.toExt pr env after g s size pkt := by
  rw [← C69_invisible (hooks := hooks)]
  have hh : handlePacketHook cfg hooks ext.toExt pr env (defaultAnswers meanwhile henv) g s size pkt =
      handlePacketHook cfg hooks ext.toExt pr env {} g s size pkt := rfl
  have key : handlePacketHook cfg hooks ext.toExt pr env {} g s size pkt =
      (handlePacket cfg ext.toExt pr env g s size pkt).map fun r => (r, []) := invisible_handled pr pkt
  unfold onPacketHook
  rw [hh, key]
  cases handlePacket cfg ext.toExt pr env g s size pkt with
  | none => rfl
  | some r => rfl

/-- A message that is passed on while the tables change. -/
example : ∃ r, onPacketHook {} {} exHookExt .v5 {}
      (defaultAnswers (fun g => { g with registered := fun _ => false }) fun _ => {}) (Clock.const 0) exGlobal (exPeer .v5).session 10 (exPub2 "a" 3 false [1]) = some r ∧
      r.session.qos2.keys = [3] ∧ r.routed.length = 1 :=
  ⟨_, rfl, rfl, rfl⟩

/-- **C90, as shipped.**  With the hook of the program the broker reaches the same states, and does the
same things in the same order, as without hooks. -/
theorem C90_shipped (flags : HookFlags) (c : ServerConfig) (x : ConnExt) (ext : Ext)
    (acts : List FrontAct) :
    (Front.hookRun flags c x ext {} (acts.map defaultTick)).map (fun r => (r.1, frontEvents r.2)) =
      Front.run c x ext {} acts := by
  rw [C90_transparent (fun a ha => ?_), List.map_map]
  · congr 1
    exact List.map_id acts
  · obtain ⟨b, -, rfl⟩ := List.mem_map.1 ha
    exact ⟨rfl, rfl, rfl, rfl⟩

/-- A client takes over the session of another connection. -/
example : ∃ f log, HookReaches {} {} exConnExt exExt ((exTakeover.map (·.act)).map defaultTick) f log ∧
    acceptedAs 1 log = [true] :=
  hooked_of (fun _ log => acceptedAs 1 log) (by decide +kernel)

/-- **C108, as shipped.**  After a connection the hook of the program leaves the session, what the client
is sent and the state of the broker, but for what others do meanwhile, as they are without hooks. -/
theorem C108_shipped (cfg : Config) (ext : HookExt) (pr : Proto) (called : Bool) (env : Nat → Env)
    (clk : Clock) (g : Global) (s : Session) (meanwhile : Global → Global) :
    afterConnectHook cfg ext pr called env defaultAfterConnect meanwhile clk g s =
      some { session := (afterPacket pr clk s).1, global := if called then meanwhile g else g,
             out := (afterPacket pr clk s).2 } := by
  cases called <;> rfl

end Akasa
