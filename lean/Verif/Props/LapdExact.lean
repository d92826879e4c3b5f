import Verif.Props.LapdHist
/-!
# Exact extent of the defects of LAPD reception (C50, C78, C80, C81)
-/
namespace Verif.Lapd
open Verif.Spec.Lapd

/-- **C50** (exact) The buffer of a received frame is consumed (exactly once) if and only if the header of the frame is
complete. -/
theorem C50_consumed_iff (li : Li) (hk : li.profile.k.length = 64) (d : List Byte) (rc : Int) :
    ∃ r, receive li d rc = .ok r ∧ (consumed r.acts = 1 ↔ Complete d) ∧ (consumed r.acts = 0 ↔ ¬ Complete d) := by
  by_cases h : Complete d
  · obtain ⟨r, hr⟩ := C49_no_fault li hk d rc
    have h1 := C50_consumed_once_partial li hk d h rc r hr
    exact ⟨r, hr, ⟨fun _ => h, fun _ => h1⟩, ⟨fun h0 => absurd (h0.symm.trans h1) (by decide), fun hn => absurd h hn⟩⟩
  · obtain ⟨r, hr, h0⟩ := C50_violated li d h rc
    exact ⟨r, hr, ⟨fun h1 => absurd (h0.symm.trans h1) (by decide), fun hc => absurd hc h⟩, ⟨fun _ => h, fun _ => h0⟩⟩

/-- **C78** (exact) An identity request is answered with its own reference number exactly if that number is zero. -/
theorem C78_reference_iff (li : Li) (r1 r2 : Byte) (tei : Nat) (ht : tei < 128) (rc : Int) :
    ∃ r, receive li (identityRequest r1 r2 tei) rc = .ok r ∧
      ((∃ cb data, Act.transmit cb data (identityAssigned r1 r2 tei) ∈ r.acts) ↔ (r1, r2) = (0, 0)) := by
  by_cases h : (r1, r2) = (0, 0)
  · obtain ⟨rfl, rfl⟩ := Prod.mk.inj h
    obtain ⟨r, hr, hm⟩ := C78_reference_zero_partial li tei ht rc
    exact ⟨r, hr, fun _ => rfl, fun _ => ⟨_, _, hm⟩⟩
  · obtain ⟨r, hr, hm⟩ := C78_reference_not_echoed li r1 r2 h tei ht rc
    exact ⟨r, hr, fun ⟨cb, data, hx⟩ => absurd hx (hm cb data), fun hx => absurd hx h⟩

/-- **C81** (exact) The wrapper reads behind the end of exactly those frames that are empty or consist of one octet
without the address extension bit. -/
theorem C81_safe_iff (li : Li) (hk : li.profile.k.length = 64) (d : List Byte) (rc : Int) :
    (∃ r, rxTsLapd li d rc = .ok r) ↔ d ≠ [] ∧ ∀ a, d = [a] → a.toNat % 2 = 1 := by
  match d with
  | [] =>
    constructor
    · rintro ⟨r, h⟩
      rw [(C81_violated li rc).1] at h; cases h
    · intro h; exact absurd rfl h.1
  | [a] =>
    constructor
    · rintro ⟨r, h⟩
      refine ⟨by simp, ?_⟩
      intro a' ha
      obtain rfl : a = a' := by simpa using ha
      rcases Nat.mod_two_eq_zero_or_one a.toNat with h0 | h1
      · rw [(C81_violated li rc).2 a h0] at h; cases h
      · exact h1
    · intro h
      have ha := h.2 a rfl
      obtain ⟨r, hr⟩ := C49_no_fault li hk [a] rc
      have he : ((a &&& 1) != 0) = true := by
        have := (by decide +kernel : ∀ a : Byte, ((a &&& 1) != 0) = (a.toNat % 2 == 1)) a
        rw [this, ha]; rfl
      have ht : rxTei [a] a = .ok 0 := by unfold rxTei; rw [he]; rfl
      have hx : rxTsLapd li [a] rc = rxTsTail li [a] rc 0 (a >>> 2) := by
        show (rxTei [a] a >>= fun tei => rxTsTail li [a] rc tei (a >>> 2)) = _
        rw [ht]; rfl
      rw [hx]
      unfold rxTsTail
      rw [hr, bind_ok]
      split
      · exact ⟨_, rfl⟩
      · exact ⟨_, rfl⟩
  | a :: b :: rest =>
    constructor
    · intro _; exact ⟨by simp, by intro a' h; simp at h⟩
    · intro _
      obtain ⟨r, hr, -⟩ := C81_event_partial li hk (a :: b :: rest) (by simp) rc
      exact ⟨r, hr⟩

end Verif.Lapd
