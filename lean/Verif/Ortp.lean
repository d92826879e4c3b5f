import Verif.Base
/-!
# Model of `src/trau/osmo_ortp.c`

The `RtpSession` belongs to the external library oRTP: what its functions return is part of the operation, and the packets
passed to it are recorded.  `osmo_fd_register()` and `osmo_fd_unregister()` belong to libosmocore; registering a descriptor
that is already in the list of the select loop, or unregistering one that is not, corrupts that list: `.error .relist`.

Not modelled: logging (`my_ortp_logfn`, `level_map`, the signal callbacks of osmo_ortp.c:136-173), the payload type profile
(osmo_ortp.c:268-312), the RTCP callback (osmo_ortp.c:238-246, calls oRTP only), addresses and statistics, which are those of
oRTP, and the failure of allocations in `osmo_rtp_socket_create()`.
-/
namespace Verif.Ortp

inductive Err where
  /-- the list of the select loop is corrupted -/
  | relist
  /-- the socket was freed -/
  | uaf
  deriving DecidableEq, Repr

/-- what oRTP returns from `rtp_session_recvm_with_ts()` -/
structure Pkt where
  seq : BitVec 16
  ts : BitVec 32
  marker : Bool
  payload : List Byte
  deriving DecidableEq, Repr

inductive Act where
  /-- a packet is given to `rtp_session_sendm_with_ts()` -/
  | send (ts : BitVec 32) (marker : Bool) (payload : List Byte)
  /-- `rtp_session_recvm_with_ts()` is called -/
  | query (userTs : BitVec 32)
  /-- the application's `rx_cb` is called -/
  | rx (payload : List Byte) (seq : BitVec 16) (ts : BitVec 32) (marker : Bool)
  /-- the sockets of the session are closed and the session is destroyed -/
  | closed
  deriving DecidableEq, Repr

/-- osmo_ortp.h:49-78 `struct osmo_rtp_socket`: the bits of `flags`, the time stamps, whether the two descriptors are in
the list of the select loop (`list.next` neither null nor poisoned), whether read events of the RTP socket are enabled,
and the properties of the session set by this file: jitter buffer, adaptive jitter buffer and its size in ms.
`freed`: after `osmo_rtp_socket_free()`. -/
structure Rs where
  poll : Bool
  disabled : Bool
  txTs : BitVec 32
  rxTs : BitVec 32
  rtpReg : Bool
  rtcpReg : Bool
  readEn : Bool
  hasCb : Bool
  jit : Bool
  adap : Bool
  comp : Int
  freed : Bool
  deriving DecidableEq, Repr

/-- osmo_ortp.c:371-423 `osmo_rtp_socket_create`; `poll`: `OSMO_RTP_F_POLL` in `flags`, `r`: the result of `random()`;
`cb`: the application has set `rx_cb`.  oRTP's default is to use the jitter buffer, not adaptively. -/
def create (poll cb : Bool) (r : BitVec 32) : Rs :=
  ⟨poll, true, r, 0, false, false, false, cb, true, false, 100, false⟩

/-- libosmocore `osmo_fd_register` for the RTP descriptor; `ok`: the result of its system calls -/
def regRtp (s : Rs) (ok : Bool) : Except Err (Rs × Bool) :=
  if !ok then .ok (s, false) else if s.rtpReg then .error .relist else .ok ({ s with rtpReg := true }, true)

/-- libosmocore `osmo_fd_register` for the RTCP descriptor -/
def regRtcp (s : Rs) (ok : Bool) : Except Err (Rs × Bool) :=
  if !ok then .ok (s, false) else if s.rtcpReg then .error .relist else .ok ({ s with rtcpReg := true }, true)

/-- libosmocore `osmo_fd_unregister` -/
def unregRtp (s : Rs) : Except Err Rs := if s.rtpReg then .ok { s with rtpReg := false } else .error .relist
/-- libosmocore `osmo_fd_unregister` -/
def unregRtcp (s : Rs) : Except Err Rs := if s.rtcpReg then .ok { s with rtcpReg := false } else .error .relist

/-- osmo_ortp.c:248-266 `osmo_rtp_socket_fdreg`; `false`: a negative result -/
def fdreg (s : Rs) (ok1 ok2 : Bool) : Except Err (Rs × Bool) := do
  let s := { s with readEn := true }
  let (s, r) ← regRtp s ok1
  if !r then return (s, false)
  let (s, r) ← regRtcp s ok2
  if !r then
    let s ← unregRtp s
    return (s, false)
  return (s, true)

/-- osmo_ortp.c:455-486 `osmo_rtp_socket_connect`; `remote`: `rtp_session_set_remote_addr()` succeeds -/
def connect (s : Rs) (port : Nat) (remote ok1 ok2 : Bool) : Except Err (Rs × Bool) :=
  if port = 0 then .ok (s, true)
  else if !remote then .ok (s, false)
  else
    let s := { s with disabled := false }
    if s.poll then .ok (s, true) else fdreg s ok1 ok2

/-- osmo_ortp.c:498-508 `osmo_rtp_socket_autoconnect` -/
def autoconnect (s : Rs) (ok1 ok2 : Bool) : Except Err (Rs × Bool) :=
  let s := { s with disabled := false }
  if s.poll then .ok (s, true) else fdreg s ok1 ok2

/-- osmo_ortp.c:523-530 `osmo_rtp_skipped_frame` -/
def skipped (s : Rs) (dur : Nat) : Rs :=
  if s.disabled then s else { s with txTs := s.txTs + BitVec.ofNat 32 dur }

/-- osmo_ortp.c:554-582 `osmo_rtp_send_frame_ext`; `alloc`: `rtp_session_create_packet()` succeeds; `rc`: the result of
`rtp_session_sendm_with_ts()` -/
def sendFrame (s : Rs) (payload : List Byte) (dur : Nat) (marker alloc : Bool) (rc : Int) : Rs × List Act × Int :=
  if s.disabled then (s, [], 0)
  else if !alloc then (s, [], -12)
  else ({ s with txTs := s.txTs + BitVec.ofNat 32 dur }, [.send s.txTs marker payload], rc)

/-- osmo_ortp.c:175-191 `recv_with_cb`; the message is freed in every case -/
def recvWithCb (s : Rs) (p : Option Pkt) : List Act × Bool :=
  match p with
  | none => ([.query s.rxTs], false)
  | some p =>
    ((.query s.rxTs) :: (if s.hasCb && decide (0 < p.payload.length) then [.rx p.payload p.seq p.ts p.marker] else []),
     decide (0 < p.payload.length))

/-- osmo_ortp.c:197-210 `osmo_rtp_socket_poll` -/
def pollSock (s : Rs) (p : Option Pkt) : List Act × Int :=
  if s.disabled then ([], 0) else
    let (a, r) := recvWithCb s p
    if r then (a, 1) else (a, 0)

/-- osmo_ortp.c:214-232 `osmo_rtp_fd_cb`, for a read event -/
def fdCb (s : Rs) (p : Option Pkt) : Rs × List Act :=
  if s.poll then ({ s with readEn := false }, [])
  else
    let (a, _) := recvWithCb s p
    ({ s with rxTs := s.rxTs + 160 }, a)

/-- osmo_ortp.c:343-364 `osmo_rtp_socket_set_param`; the result is `none` for `-EINVAL` -/
def setParam (s : Rs) (param : Nat) (val : Int) : Rs × Option Bool :=
  if param = 1 ∨ param = 2 then
    let s := if param = 2 then { s with adap := decide (val ≠ 0) } else s
    let s := { s with jit := decide (val ≠ 0) }
    let s := if val ≠ 0 then { s with comp := val } else s
    (s, some (if param = 2 then s.adap else s.jit))
  else (s, none)

/-- osmo_ortp.c:627-644 `osmo_rtp_socket_free` -/
def free (s : Rs) : Except Err (Rs × List Act) := do
  let s ← if s.rtpReg then unregRtp s else pure s
  let s ← if s.rtcpReg then unregRtcp s else pure s
  return ({ s with freed := true }, [.closed])

inductive Op where
  | connect (port : Nat) (remote ok1 ok2 : Bool)
  | autoconnect (ok1 ok2 : Bool)
  | skipped (dur : Nat)
  | send (payload : List Byte) (dur : Nat) (marker alloc : Bool) (rc : Int)
  | poll (p : Option Pkt)
  /-- the select loop finds the RTP socket readable -/
  | readable (p : Option Pkt)
  | setParam (param : Nat) (val : Int)
  /-- the application advances `rx_user_ts`, see osmo_ortp.h:67 -/
  | userTs (d : Nat)
  | free
  deriving DecidableEq, Repr

/-- one call of the API, or one event of the select loop, which calls `osmo_rtp_fd_cb` only while the descriptor is
registered and its read events are enabled -/
def step (s : Rs) (op : Op) : Except Err (Rs × List Act) :=
  match op with
  | .readable p => if s.rtpReg && s.readEn then .ok (fdCb s p) else .ok (s, [])
  | op =>
    if s.freed then .error .uaf else
    match op with
    | .connect port remote ok1 ok2 => do let (s, _) ← connect s port remote ok1 ok2; return (s, [])
    | .autoconnect ok1 ok2 => do let (s, _) ← autoconnect s ok1 ok2; return (s, [])
    | .skipped dur => .ok (skipped s dur, [])
    | .send payload dur marker alloc rc => let (s, a, _) := sendFrame s payload dur marker alloc rc; .ok (s, a)
    | .poll p => .ok (s, (pollSock s p).1)
    | .setParam param val => .ok ((setParam s param val).1, [])
    | .userTs d => .ok ({ s with rxTs := s.rxTs + BitVec.ofNat 32 d }, [])
    | .free => free s
    | .readable _ => .ok (s, [])

def run (s : Rs) : List Op → Except Err (Rs × List Act)
  | [] => .ok (s, [])
  | op :: ops => do
    let (s, a) ← step s op
    let (s, b) ← run s ops
    return (s, a ++ b)

end Verif.Ortp
