import Verif.Spec.Deliver
/-!
# What is sent again when a session is taken up again
-/
namespace Akasa

/-- The queued messages that are in the window of a connection with this receive maximum.  Entries
that are acknowledged take their place in it until everything before them is acknowledged. -/
def Session.window (s : Session) (m : Nat) : List (PStatus PubPacket) :=
  (s.sender.pending.packets.dropWhile PStatus.isComplete).take m

/-- The packets are, in the order of the queue: for a message not yet answered the PUBLISH with its
packet identifier, marked as a retransmission if it has been sent before; for a message of which
PUBREC has come the PUBREL; for acknowledged messages nothing. -/
inductive Resent (pr : Proto) : List (PStatus PubPacket) → List OutPkt → Prop
  | nil : Resent pr [] []
  | message {added last : Nat} {pid : Pid} {p : PubPacket} {dup : Bool} {expiry : Option Nat}
      {o : OutPkt} {l : List (PStatus PubPacket)} {os : List OutPkt} :
      Carries pr (.publish pid p dup expiry) o → Resent pr l os →
      Resent pr (.new added last pid p dup :: l) (o :: os)
  | release {last : Nat} {pid : Pid} {reason : Reason} {l : List (PStatus PubPacket)}
      {os : List OutPkt} : Resent pr l os →
      Resent pr (.pubrec last pid :: l) (.pubrel pid reason :: os)
  | done {l : List (PStatus PubPacket)} {os : List OutPkt} : Resent pr l os →
      Resent pr (.complete :: l) os

end Akasa
