import Verif.Base
/-!
# Model of the client side of `src/input/ipa.c`

One `struct ipa_client_conn`.  Callbacks of the application may call back into the API: a call of a
callback pushes a `Frame` with what the library does after the callback returned; `Op.cbReturn` is
the return of the innermost running callback.  In between any API call can happen.

Not modelled: `pending_msg` (the partial message of libosmocore's `ipa_msg_recv_buffered`, freed by every
close), addresses, DSCP and priority.  What the sockets do is part of the operation.  The write callback is
the default one.
-/
namespace Verif.Ipa

/-- `struct msgb`: identity and octets -/
structure Msg where
  id : Nat
  data : List Byte
  deriving DecidableEq, Repr

def EBADF : Int := 9

namespace Cli

/-- include/osmocom/abis/ipa.h:63-68 `enum ipa_client_conn_state` (0 is never used) -/
inductive CState where
  | connecting | connected
  deriving DecidableEq, Repr

/-- what `ipa_msg_recv_buffered` returns: -EAGAIN, another value <= 0, or a message -/
inductive Rcv where
  | again | err | msg (m : Msg)
  deriving DecidableEq, Repr

/-- what `send()` returns: a count (possibly short), EPIPE/ENOTCONN, or another error -/
inductive Snd where
  | count (n : Nat) | pipe | other
  deriving DecidableEq, Repr

/-- what is left to do when a callback returns -/
inductive Frame where
  /-- nothing -/
  | done
  /-- ipa.c:79-80, 154-159: the read callback returned; then the write part of `ipa_client_fd_cb` -/
  | afterRead (gen : Nat) (wr : Bool) (snd : Snd)
  /-- ipa.c:112-117: the down callback of a failed `send()` returned -/
  | afterDownWrite (m : Msg)
  deriving DecidableEq, Repr

/-- include/osmocom/abis/ipa.h:70-88 `struct ipa_client_conn`.  `fd` is `ofd->fd` (`none` = -1), `reg`
whether `ofd` is registered in the select loop, `wr` its interest in write events, `timer` whether the
connect timer runs, `gone` whether the object was freed; `gen` counts the successful opens (it is no part
of the program, it tells a connection from a later one). -/
structure Conn where
  fd : Option Nat
  reg : Bool
  wr : Bool
  timer : Bool
  state : CState
  queue : List Msg
  updown : Bool
  readCb : Bool
  frames : List Frame
  gone : Bool
  gen : Nat
  deriving DecidableEq, Repr

inductive Act where
  /-- the socket `fd` was created -/
  | opened (fd : Nat)
  /-- `close(fd)` -/
  | closeFd (fd : Nat)
  /-- `updown_cb(link, 1)` -/
  | up
  /-- `updown_cb(link, 0)` -/
  | down
  /-- `read_cb(link, msg)` -/
  | deliver (m : Msg)
  /-- `send(fd, msg->data, msg->len, 0)` -/
  | sendTo (fd : Option Nat) (m : Msg)
  /-- `msgb_free(msg)` -/
  | free (m : Msg)
  deriving DecidableEq, Repr

/-- use of the object -/
def use (c : Conn) : M Unit := if c.gone then .error .badptr else .ok ()

/-- ipa.c:42-54 `ipa_client_conn_close`.  Unregistering a descriptor that is not registered corrupts the
list of the select loop. -/
def close (c : Conn) : M (Conn × List Act) := do
  use c
  match c.fd with
  | none => .ok ({ c with timer := false }, [])
  | some f =>
    if c.reg then .ok ({ c with timer := false, reg := false, fd := none }, [.closeFd f])
    else .error .badptr

/-- `if (link->updown_cb) link->updown_cb(link, 0)`, then continue with `k` -/
def callDown (c : Conn) (k : Frame) : Conn × List Act :=
  if c.updown then ({ c with frames := k :: c.frames }, [.down]) else (c, [])

/-- ipa.c:120-125 `ipa_connect_failure` (and ipa.c:167-174 `ipa_connect_timeout_cb`) -/
def connectFailure (c : Conn) : M (Conn × List Act) := do
  let (c, a) ← close c
  let (c, b) := callDown c .done
  .ok (c, a ++ b)

/-- ipa.c:90-118 `ipa_client_write_default_cb` after a failed `send()` with EPIPE or ENOTCONN -/
def writePipe (c : Conn) (m : Msg) : M (Conn × List Act) := do
  let (c, a) ← close c
  if c.updown then .ok ({ c with frames := .afterDownWrite m :: c.frames }, a ++ [.down])
  else .ok (c, a ++ [.free m])

/-- ipa.c:84-118 `ipa_client_write`, `ipa_client_write_default_cb`; `send()` on the descriptor -1 fails
with EBADF -/
def write (c : Conn) (snd : Snd) : M (Conn × List Act) := do
  use c
  match c.queue with
  | [] => .ok ({ c with wr := false }, [])
  | m :: q => do
    let c := { c with queue := q }
    match snd, c.fd with
    | .pipe, some f => do
      let (c, a) ← writePipe c m
      .ok (c, .sendTo (some f) m :: a)
    | _, fd => .ok (c, [.sendTo fd m, .free m])

/-- ipa.c:156-159: the write part of `ipa_client_fd_cb` -/
def writePart (c : Conn) (rc : Int) (wr : Bool) (snd : Snd) : M (Conn × List Act) :=
  if rc ≠ -EBADF ∧ wr = true then write c snd else .ok (c, [])

/-- ipa.c:151-160: an event in the connected state; ipa.c:56-82 `ipa_client_read` -/
def fdConnected (c : Conn) (rd wr : Bool) (rcv : Rcv) (snd : Snd) : M (Conn × List Act) := do
  use c
  if rd then
    match rcv with
    | .again => writePart c 0 wr snd
    | .err => do
      let (c, a) ← close c
      let (c, b) := callDown c .done
      .ok (c, a ++ b)
    | .msg m =>
      if c.readCb then .ok ({ c with frames := .afterRead c.gen wr snd :: c.frames }, [.deliver m])
      else writePart c 0 wr snd
  else writePart c 0 wr snd

/-- ipa.c:134-150: an event in the connecting state; `err` is whether SO_ERROR is set -/
def fdConnecting (c : Conn) (err : Bool) : M (Conn × List Act) := do
  use c
  if err then connectFailure c
  else
    let c := { c with timer := false, wr := false, state := .connected }
    if c.updown then .ok ({ c with frames := .done :: c.frames }, [.up]) else .ok (c, [])

/-- ipa.c:127-165 `ipa_client_fd_cb` -/
def fdCb (c : Conn) (rd wr err : Bool) (rcv : Rcv) (snd : Snd) : M (Conn × List Act) :=
  match c.state with
  | .connecting => fdConnecting c err
  | .connected => fdConnected c rd wr rcv snd

/-- ipa.c:189-241 `ipa_client_conn_create2` -/
def create (updown readCb : Bool) : Conn :=
  { fd := none, reg := false, wr := true, timer := false, state := .connecting, queue := [], updown := updown,
    readCb := readCb, frames := [], gone := false, gen := 0 }

/-- ipa.c:243-246 `ipa_client_conn_destroy` -/
def destroy (c : Conn) : M (Conn × List Act) := do
  use c
  .ok ({ c with gone := true }, [])

/-- ipa.c:253-280 `ipa_client_conn_open2`: `sock` is the socket or the error of `osmo_sock_init2`, `regOk`
whether it could be registered -/
def open2 (c : Conn) (timeout : Nat) (sock : Except Int Nat) (regOk : Bool) : M (Conn × Int × List Act) := do
  use c
  match c.fd with
  | some _ => .ok (c, -EINVAL, [])
  | none =>
    let c := { c with state := .connecting }
    match sock with
    | .error e => .ok (c, e, [])
    | .ok f =>
      if regOk then
        .ok ({ c with fd := some f, reg := true, wr := true, timer := decide (timeout > 0) || c.timer, gen := c.gen + 1 },
          0, [.opened f])
      else .ok ({ c with wr := true }, -EIO, [.opened f, .closeFd f])

/-- ipa.c:248-251 `ipa_client_conn_open` -/
def open1 (c : Conn) (sock : Except Int Nat) (regOk : Bool) : M (Conn × Int × List Act) := open2 c 30 sock regOk

/-- ipa.c:282-286 `ipa_client_conn_send` -/
def send (c : Conn) (m : Msg) : M (Conn × List Act) := do
  use c
  .ok ({ c with queue := c.queue ++ [m], wr := true }, [])

/-- ipa.c:288-300 `ipa_client_conn_clear_queue` -/
def clearQueue (c : Conn) : M (Conn × Nat × List Act) := do
  use c
  .ok ({ c with queue := [], wr := false }, c.queue.length, c.queue.map .free)

/-- the innermost callback returns -/
def cbReturn (c : Conn) (rc : Int) : M (Conn × List Act) :=
  match c.frames with
  | [] => .error .ub
  | .done :: fs => .ok ({ c with frames := fs }, [])
  | .afterRead _ wr snd :: fs => writePart { c with frames := fs } rc wr snd
  | .afterDownWrite m :: fs => do
    -- ipa.c:114 LOGIPA() prints link->addr and link->port
    use c
    .ok ({ c with frames := fs }, [.free m])

inductive Op where
  | open2 (timeout : Nat) (sock : Except Int Nat) (regOk : Bool)
  | close
  | send (m : Msg)
  | clear
  | destroy
  /-- the select loop reports events -/
  | fd (rd wr err : Bool) (rcv : Rcv) (snd : Snd)
  /-- the connect timer expires -/
  | timeout
  | cbReturn (rc : Int)
  deriving DecidableEq

def step (c : Conn) : Op → M (Conn × List Act)
  | .open2 t s r => (open2 c t s r).map fun p => (p.1, p.2.2)
  | .close => close c
  | .send m => send c m
  | .clear => (clearQueue c).map fun p => (p.1, p.2.2)
  | .destroy => destroy c
  | .fd rd wr err rcv snd => fdCb c rd wr err rcv snd
  | .timeout => connectFailure { c with timer := false }
  | .cbReturn rc => cbReturn c rc

/-- a history, with the actions of each operation -/
def run (c : Conn) : List Op → M (Conn × List (List Act))
  | [] => .ok (c, [])
  | op :: ops => do
    let (c, a) ← step c op
    let (c, b) ← run c ops
    .ok (c, a :: b)

end Cli
end Verif.Ipa
