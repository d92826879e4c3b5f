import Verif.OrtpStat
/-!
# C170: statistics of RTP sockets, and conversions of time
-/
namespace Verif.Ortp.Stat

/-- what happens in an RTP session: packets with their number of octets -/
inductive Ev where
  | tx (octets : Nat)
  | rx (octets : Nat)
  | lost (packets : Nat)

def txs (h : List Ev) : List Nat := h.filterMap fun e => match e with | .tx n => some n | _ => none
def rxs (h : List Ev) : List Nat := h.filterMap fun e => match e with | .rx n => some n | _ => none
def losts (h : List Ev) : List Nat := h.filterMap fun e => match e with | .lost n => some n | _ => none

/-- the counters of oRTP after `h` -/
def counts (h : List Ev) : Counters :=
  ⟨BitVec.ofNat 64 (txs h).length, BitVec.ofNat 64 (txs h).sum, BitVec.ofNat 64 (rxs h).length, BitVec.ofNat 64 (rxs h).sum, BitVec.ofNat 64 (losts h).sum⟩

theorem trunc (n : Nat) : (BitVec.ofNat 64 n).truncate 32 = BitVec.ofNat 32 n := by
  apply BitVec.eq_of_toNat_eq
  simp only [BitVec.truncate, BitVec.toNat_setWidth, BitVec.toNat_ofNat]
  exact Nat.mod_mod_of_dvd n ⟨2 ^ 32, by decide⟩

theorem stats_some (c : Counters) (j : Option (BitVec 32)) :
    stats (some c) j = ⟨c.packetSent.truncate 32, c.sent.truncate 32, c.packetRecv.truncate 32, c.recv.truncate 32, c.cumPacketLoss.truncate 32, j.getD 0⟩ := by
  cases j <;> rfl

theorem stats_none (j : Option (BitVec 32)) : stats none j = ⟨0, 0, 0, 0, 0, j.getD 0⟩ := by
  cases j <;> rfl

/-- **C170**: after every history of packets each number reported is the real one modulo 2^32 -/
theorem C170_stats (h : List Ev) (j : BitVec 32) :
    (stats (some (counts h)) (some j)).sentPackets.toNat = (txs h).length % 2 ^ 32 ∧
    (stats (some (counts h)) (some j)).sentOctets.toNat = (txs h).sum % 2 ^ 32 ∧
    (stats (some (counts h)) (some j)).recvPackets.toNat = (rxs h).length % 2 ^ 32 ∧
    (stats (some (counts h)) (some j)).recvOctets.toNat = (rxs h).sum % 2 ^ 32 ∧
    (stats (some (counts h)) (some j)).recvLost.toNat = (losts h).sum % 2 ^ 32 ∧
    (stats (some (counts h)) (some j)).lastJitter = j := by
  rw [stats_some]
  simp only [counts, trunc, BitVec.toNat_ofNat, Option.getD_some, and_self]

/-- **C170**: without statistics all numbers are zero -/
theorem C170_none : stats none none = ⟨0, 0, 0, 0, 0, 0⟩ := rfl

theorem sub_mod {a b : Nat} (h : b < 2 ^ 32) : (BitVec.ofNat 32 (a + b) - BitVec.ofNat 32 a).toNat = b := by
  have : BitVec.ofNat 32 (a + b) - BitVec.ofNat 32 a = BitVec.ofNat 32 b := by
    rw [show BitVec.ofNat 32 (a + b) = BitVec.ofNat 32 b + BitVec.ofNat 32 a from by rw [Nat.add_comm, BitVec.ofNat_add]]
    exact BitVec.add_sub_cancel _ _
  rw [this, BitVec.toNat_ofNat, Nat.mod_eq_of_lt h]

/-- **C170**: the unsigned differences of two reports are the numbers of what happened in between, whatever happened before, however many wraps there
were, as long as less than 2^32 packets and octets were counted in between -/
theorem C170_delta (h g : List Ev) (j k : Option (BitVec 32)) (h1 : (txs g).sum < 2 ^ 32) (h2 : (rxs g).sum < 2 ^ 32) (h3 : (txs g).length < 2 ^ 32)
    (h4 : (rxs g).length < 2 ^ 32) (h5 : (losts g).sum < 2 ^ 32) :
    ((stats (some (counts (h ++ g))) k).sentPackets - (stats (some (counts h)) j).sentPackets).toNat = (txs g).length ∧
    ((stats (some (counts (h ++ g))) k).sentOctets - (stats (some (counts h)) j).sentOctets).toNat = (txs g).sum ∧
    ((stats (some (counts (h ++ g))) k).recvPackets - (stats (some (counts h)) j).recvPackets).toNat = (rxs g).length ∧
    ((stats (some (counts (h ++ g))) k).recvOctets - (stats (some (counts h)) j).recvOctets).toNat = (rxs g).sum ∧
    ((stats (some (counts (h ++ g))) k).recvLost - (stats (some (counts h)) j).recvLost).toNat = (losts g).sum := by
  simp only [stats_some, counts, trunc, txs, rxs, losts, List.filterMap_append, List.length_append, List.sum_append]
  exact ⟨sub_mod h3, sub_mod h1, sub_mod h4, sub_mod h2, sub_mod h5⟩

example : ((stats (some (counts [.tx 33, .rx 31, .lost 2, .tx 33, .rx 15])) (some 7))) = ⟨2, 66, 2, 46, 2, 7⟩ := by decide +kernel

/-- **C170**: 8 samples per millisecond; a frame of 20 ms has the duration by which the time stamps advance -/
theorem C170_samples : (∀ ms : BitVec 32, ms.toNat < 2 ^ 29 → (msToSamples ms).toNat = 8 * ms.toNat) ∧ (msToSamples 20).toNat = RTP_DURATION ∧
    SAMPLES_PER_RTP_FRAME = RTP_DURATION := by
  refine ⟨?_, by decide, by decide⟩
  intro ms h
  have : (BitVec.ofNat 32 SAMPLES_PER_MS).toNat = 8 := by decide
  rw [msToSamples, BitVec.toNat_mul, this, Nat.mod_eq_of_lt (by omega)]
  omega

/-- **C170** (the code violates it): the duration of a TDMA frame, 120/26 ms, is taken as 4 ms; the conversion of frame numbers is right, rounded down, for
the first two only -/
theorem C170_fn_violated : ∀ fn : BitVec 32, fn.toNat < 2715648 → ((fnToMs fn).toNat = fn.toNat * 120 / 26 ↔ fn.toNat ≤ 1) := by
  intro fn h
  have : (BitVec.ofNat 32 TDMA_FRAME_MS).toNat = 4 := by decide
  rw [fnToMs, BitVec.toNat_mul, this, Nat.mod_eq_of_lt (by omega)]
  omega

/-- 26 frames, which take 120 ms, are taken as 104 ms -/
theorem C170_fn_error : ∀ n : Nat, n < 104448 → (fnToMs (BitVec.ofNat 32 (26 * n))).toNat = 104 * n := by
  intro n h
  have h4 : (BitVec.ofNat 32 TDMA_FRAME_MS).toNat = 4 := by decide
  rw [fnToMs, BitVec.toNat_mul, h4, BitVec.toNat_ofNat, Nat.mod_eq_of_lt (a := 26 * n) (by omega), Nat.mod_eq_of_lt (by omega)]
  omega

end Verif.Ortp.Stat
