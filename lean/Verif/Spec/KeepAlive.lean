/-!
# Vocabulary of C42
-/
namespace Akasa

/-- `last t` is the time of the latest packet up to time `t`; `packets` are the times at which the
client sent a packet (the CONNECT packet counts). -/
structure LatestPacket (packets : Nat → Prop) (last : Nat → Nat) (start : Nat) : Prop where
  isPacket : ∀ t, start ≤ t → packets (last t)
  before : ∀ t, start ≤ t → last t ≤ t
  latest : ∀ t p, start ≤ t → packets p → p ≤ t → p ≤ last t

end Akasa
