import Verif.Base
/-!
# Model of the statistics of `src/trau/osmo_ortp.c` and of the conversions of `include/osmocom/trau/osmo_ortp.h`

The counters belong to the external library oRTP.

Not modelled: `osmo_rtp_socket_log_stats`, which prints the same counters.
-/
namespace Verif.Ortp.Stat

/-- oRTP's `rtp_stats_t`, the fields that are used, of 64 bits each -/
structure Counters where
  packetSent : BitVec 64
  sent : BitVec 64
  packetRecv : BitVec 64
  recv : BitVec 64
  cumPacketLoss : BitVec 64
  deriving DecidableEq, Repr

/-- the values stored through the pointers of `osmo_rtp_socket_stats` -/
structure Report where
  sentPackets : BitVec 32
  sentOctets : BitVec 32
  recvPackets : BitVec 32
  recvOctets : BitVec 32
  recvLost : BitVec 32
  lastJitter : BitVec 32
  deriving DecidableEq, Repr

/-- osmo_ortp.c:726-751 `osmo_rtp_socket_stats`; `c`, `jitter`: what oRTP's `rtp_session_get_stats` and `rtp_session_get_jitter_stats` return -/
def stats (c : Option Counters) (jitter : Option (BitVec 32)) : Report :=
  let r : Report :=
    match c with
    | some c => ⟨c.packetSent.truncate 32, c.sent.truncate 32, c.packetRecv.truncate 32, c.recv.truncate 32, c.cumPacketLoss.truncate 32, 0⟩
    | none => ⟨0, 0, 0, 0, 0, 0⟩
  match jitter with
  | some j => { r with lastJitter := j }
  | none => r

/-- osmo_ortp.h:27-28 `GSM_VOICE_SAMPLES_PER_MS` -/
def SAMPLES_PER_MS : Nat := 8000 / 1000
/-- osmo_ortp.h:29 `GSM_VOICE_MULTIFRAME` -/
def MULTIFRAME : Nat := 26
/-- osmo_ortp.h:32 `GSM_TDMA_FRAME_MS` -/
def TDMA_FRAME_MS : Nat := 120 / MULTIFRAME
/-- osmo_ortp.h:30-31 `GSM_SAMPLES_PER_RTP_FRAME` -/
def SAMPLES_PER_RTP_FRAME : Nat := 20 * SAMPLES_PER_MS
/-- osmo_ortp.h:17 `GSM_RTP_DURATION` -/
def RTP_DURATION : Nat := 160

/-- osmo_ortp.h:33 `GSM_MS_TO_SAMPLES`, for an argument of type `uint32_t` -/
def msToSamples (ms : BitVec 32) : BitVec 32 := ms * BitVec.ofNat 32 SAMPLES_PER_MS

/-- osmo_ortp.h:34 `GSM_FN_TO_MS`, for an argument of type `uint32_t` -/
def fnToMs (fn : BitVec 32) : BitVec 32 := fn * BitVec.ofNat 32 TDMA_FRAME_MS

end Verif.Ortp.Stat
