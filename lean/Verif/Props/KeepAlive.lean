import Verif.Model.KeepAlive
import Verif.Spec.KeepAlive
/-!
# C42: keep-alive

`start` is the moment of CONNECT, `packets` the moments of all packets of the client (times in
milliseconds, the keep-alive interval `K` in seconds).
-/
namespace Akasa

section
variable {packets : Nat → Prop} {last : Nat → Nat} {start : Nat}

theorem keepAliveOk_iff {K now l : Nat} : keepAliveOk K now l = true ↔ now - l ≤ K * 1500 := by
  unfold keepAliveOk
  rw [decide_eq_true_iff]
  simp only [halfInterval]
  omega

theorem loop_silent {K : Nat} :
    ∀ {lates : List Nat} {now t : Nat}, start ≤ now → keepAliveLoop K last now lates = some t →
      now ≤ t ∧ t - last t > K * 1500 := by
  intro lates
  induction lates with
  | nil =>
    intro now t hs h
    simp only [keepAliveLoop] at h
    split at h
    · cases h
    · rename_i hk
      cases h
      rw [keepAliveOk_iff] at hk
      exact ⟨Nat.le_refl _, by omega⟩
  | cons d ds ih =>
    intro now t hs h
    simp only [keepAliveLoop] at h
    split at h
    · have := ih (by omega) h
      exact ⟨by omega, this.2⟩
    · rename_i hk
      cases h
      rw [keepAliveOk_iff] at hk
      exact ⟨Nat.le_refl _, by omega⟩

/-- **C42**: the timer closes the connection only if the client has been silent for more than one
and a half keep-alive intervals, however late the timer task is woken. -/
theorem C42_only_silent {K : Nat} (hlast : LatestPacket packets last start) {lates : List Nat}
    {t : Nat} (h : keepAliveTimer K last start lates = some t) :
    ∀ p, packets p → p ≤ t → p + K * 1500 < t := by
  unfold keepAliveTimer at h
  split at h
  · obtain ⟨h1, h2⟩ := loop_silent (Nat.le_refl _) h
    intro p hp hpt
    have := hlast.latest t p h1 hp hpt
    omega
  · cases h

/-- **C42**: a client that sends at least one packet in every period of one and a half keep-alive
intervals is never closed by the timer. -/
theorem C42_live {K : Nat} (hlast : LatestPacket packets last start)
    (hlive : ∀ t, start ≤ t → ∃ p, packets p ∧ p ≤ t ∧ t ≤ p + K * 1500) (lates : List Nat) :
    keepAliveTimer K last start lates = none := by
  cases h : keepAliveTimer K last start lates with
  | none => rfl
  | some t =>
    exfalso
    have hst : start ≤ t := by
      unfold keepAliveTimer at h
      split at h
      · exact (loop_silent (Nat.le_refl _) h).1
      · cases h
    obtain ⟨p, h1, h2, h3⟩ := hlive t hst
    have := C42_only_silent hlast h p h1 h2
    omega

/-- **C42**: keep-alive 0 disables the check. -/
theorem C42_zero (last : Nat → Nat) (start : Nat) (lates : List Nat) :
    keepAliveTimer 0 last start lates = none := rfl

theorem loop_closes {K L δ : Nat} (hlast : LatestPacket packets last start)
    (hL : ∀ p, packets p → p ≤ L) :
    ∀ {lates : List Nat} {now : Nat}, start ≤ now → (∀ d ∈ lates, d ≤ δ) → now ≤ L + K * 2000 + δ →
      L + K * 2000 + δ < now + lates.sum + lates.length * halfInterval K →
      ∃ t, keepAliveLoop K last now lates = some t ∧ t ≤ L + K * 2000 + δ := by
  intro lates
  induction lates with
  | nil =>
    intro now hs hd hn hend
    simp only [List.sum_nil, List.length_nil] at hend
    omega
  | cons d ds ih =>
    intro now hs hd hn hend
    simp only [keepAliveLoop]
    split
    · rename_i hok
      rw [keepAliveOk_iff] at hok
      have hdd := hd d (by simp)
      have hl := hL _ (hlast.isPacket now hs)
      refine ih (by omega) (fun x hx => hd x (by simp [hx])) (by simp only [halfInterval]; omega) ?_
      simp only [List.sum_cons, List.length_cons, Nat.add_mul] at hend
      omega
    · exact ⟨now, rfl, hn⟩

/-- **C42**: a client that sends nothing after time `L` is closed no later than two keep-alive
intervals after `L` (or at once when the timer starts, if that is later), plus the lateness of one
wake-up (`δ`), provided the timer task runs that long. -/
theorem C42_silent {K L δ : Nat} (hK : K > 0) (hlast : LatestPacket packets last start)
    (hL : ∀ p, packets p → p ≤ L) {lates : List Nat} (hd : ∀ d ∈ lates, d ≤ δ)
    (hlong : L + K * 2000 + δ < start + lates.sum + lates.length * (K * 500)) :
    ∃ t, keepAliveTimer K last start lates = some t ∧ t ≤ max start (L + K * 2000 + δ) := by
  unfold keepAliveTimer
  rw [if_pos hK]
  by_cases hs : start ≤ L + K * 2000 + δ
  · obtain ⟨t, h1, h2⟩ := loop_closes hlast hL (Nat.le_refl _) hd hs hlong
    exact ⟨t, h1, by omega⟩
  · have h1 := hL _ (hlast.isPacket start (Nat.le_refl _))
    refine ⟨start, ?_, by omega⟩
    cases lates with
    | nil => simp only [keepAliveLoop]; rw [if_neg (by rw [keepAliveOk_iff]; omega)]
    | cons d ds => simp only [keepAliveLoop]; rw [if_neg (by rw [keepAliveOk_iff]; omega)]

/-- A client that sends a packet every 10 s: its packets and the latest one. -/
def exTicks (p : Nat) : Prop := p % 10000 = 0

theorem exTicks_latest : LatestPacket exTicks (fun t => t - t % 10000) 0 where
  isPacket t _ := by simp only [exTicks]; omega
  before t _ := by omega
  latest t p _ hp hpt := by simp only [exTicks] at hp; omega

/-- With a keep-alive of 7 s it is never closed, as 10 s < 1.5 · 7 s. -/
example (lates : List Nat) : keepAliveTimer 7 (fun t => t - t % 10000) 0 lates = none :=
  C42_live exTicks_latest (fun t _ => ⟨t - t % 10000, by simp only [exTicks]; omega, by omega,
    by omega⟩) lates

/-- A client that sends only CONNECT, at time 0, with a keep-alive of 10 s: it is closed at 20 s. -/
example : LatestPacket (· = 0) (fun _ => 0) 0 ∧
    keepAliveTimer 10 (fun _ => 0) 0 [0, 0, 0, 0, 0] = some 20000 :=
  ⟨⟨fun _ _ => rfl, fun _ _ => Nat.zero_le _, fun _ p _ hp _ => by simp [hp]⟩, by decide⟩

end
end Akasa
