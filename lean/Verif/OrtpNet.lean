import Verif.Ortp
/-!
# Model of `src/trau/osmo_ortp.c`: the descriptors of an RTP socket

The sockets belong to the `RtpSession` of oRTP; `struct osmo_rtp_socket` keeps copies of their numbers in `rtp_bfd.fd` and
`rtcp_bfd.fd`.  Assumed of oRTP: `rtp_session_set_local_addr()` first closes the sockets the session has, then opens two new ones
and stores them, or fails and leaves none (a socket left by a bind that failed half way is not modelled);
`rtp_session_set_remote_addr()` opens sockets in the same way if the session has none, and may fail before or after that;
`rtp_session_release_sockets()` closes the sockets; `rtp_session_get_rtp_socket()` returns -1 if there is none.
Assumed of libosmocore: `osmo_fd_register()` fails for a descriptor below 0, and the select loop watches the number stored in
each registered `struct osmo_fd` at the time it runs.

What oRTP and the kernel answer is part of the operation.
-/
namespace Verif.Ortp.Net
open Verif.Ortp (Err)

/-- osmo_ortp.h:49-78 `struct osmo_rtp_socket`: `sess`: the sockets of the session; `bfd`: `rtp_bfd.fd` and `rtcp_bfd.fd`; `reg1`,
`reg2`: these are in the list of the select loop -/
structure N where
  poll : Bool
  sess : Option (Nat × Nat)
  bfd : Int × Int
  reg1 : Bool
  reg2 : Bool
  freed : Bool
  deriving DecidableEq, Repr

inductive Act where
  /-- a socket is closed -/
  | closed (fd : Nat)
  /-- the priority of a descriptor is set -/
  | prio (fd : Int)
  /-- the address of a descriptor is asked for -/
  | name (fd : Int)
  /-- the session is told to bind to these ports -/
  | bind (rtp rtcp : Int)
  deriving DecidableEq, Repr

/-- osmo_ortp.c:371-423 `osmo_rtp_socket_create`: `talloc_zero()` -/
def create (poll : Bool) : N := ⟨poll, none, (0, 0), false, false, false⟩

/-- `rtp_session_get_rtp_socket()`, `rtp_session_get_rtcp_socket()` -/
def sessFds (n : N) : Int × Int :=
  match n.sess with | none => (-1, -1) | some (a, b) => (a, b)

/-- `rtp_session_release_sockets()` -/
def release (n : N) : N × List Act :=
  match n.sess with | none => (n, []) | some (a, b) => ({ n with sess := none }, [.closed a, .closed b])

/-- `rtp_session_set_local_addr()`, see above -/
def setLocal (n : N) (r : Option (Nat × Nat)) : N × List Act :=
  let (n, a) := release n
  ({ n with sess := r }, a)

/-- osmo_ortp.c:431-443 `osmo_rtp_socket_bind`; `r`: the new sockets, if the session can be bound -/
def bind (n : N) (port : Int) (r : Option (Nat × Nat)) : N × List Act × Bool :=
  let rtcp := if port ≠ -1 then port + 1 else -1
  let (n, a) := setLocal n r
  match r with
  | none => (n, a ++ [.bind port rtcp], false)
  | some _ => ({ n with bfd := sessFds n }, a ++ [.bind port rtcp], true)

/-- osmo_ortp.c:248-266 `osmo_rtp_socket_fdreg`; `false`: a negative result -/
def fdreg (n : N) (ok1 ok2 : Bool) : Except Err (N × Bool) :=
  let n := { n with bfd := sessFds n }
  if ok1 = false ∨ n.bfd.1 < 0 then .ok (n, false)
  else if n.reg1 then .error .relist
  else if ok2 = false ∨ n.bfd.2 < 0 then .ok (n, false)
  else if n.reg2 then .error .relist
  else .ok ({ n with reg1 := true, reg2 := true }, true)

/-- osmo_ortp.c:455-486 `osmo_rtp_socket_connect`; `auto`: the sockets opened if the session has none; `remote`: setting the remote
address succeeds -/
def connect (n : N) (port : Nat) (auto : Option (Nat × Nat)) (remote ok1 ok2 : Bool) : Except Err (N × Bool) :=
  if port = 0 then .ok (n, true) else
  let n := if n.sess = none then { n with sess := auto } else n
  if remote = false ∨ n.sess = none then .ok (n, false)
  else if n.poll then .ok (n, true) else fdreg n ok1 ok2

/-- osmo_ortp.c:498-508 `osmo_rtp_socket_autoconnect` -/
def autoconnect (n : N) (ok1 ok2 : Bool) : Except Err (N × Bool) :=
  if n.poll then .ok (n, true) else fdreg n ok1 ok2

/-- osmo_ortp.c:615-623 `osmo_rtp_socket_set_priority`; `ok`: the first call succeeds -/
def setPriority (n : N) (ok : Bool) : List Act :=
  if ok then [.prio n.bfd.1, .prio n.bfd.2] else [.prio n.bfd.1]

/-- osmo_ortp.c:652-673 `osmo_rtp_get_bound_ip_port`, 684-710 `osmo_rtp_get_bound_addr`: the descriptor used -/
def bound (n : N) : List Act := [.name n.bfd.1]

/-- osmo_ortp.c:627-644 `osmo_rtp_socket_free` -/
def free (n : N) : N × List Act :=
  let (n, a) := release { n with reg1 := false, reg2 := false }
  ({ n with freed := true }, a)

inductive Op where
  | bind (port : Int) (r : Option (Nat × Nat))
  | connect (port : Nat) (auto : Option (Nat × Nat)) (remote ok1 ok2 : Bool)
  | autoconnect (ok1 ok2 : Bool)
  | setPriority (ok : Bool)
  | bound
  | free
  deriving DecidableEq, Repr

/-- one call of the API -/
def step (n : N) (op : Op) : Except Err (N × List Act) :=
  if n.freed then .error .uaf else
  match op with
  | .bind port r => .ok ((bind n port r).1, (bind n port r).2.1)
  | .connect port auto remote ok1 ok2 =>
    match connect n port auto remote ok1 ok2 with | .error e => .error e | .ok r => .ok (r.1, [])
  | .autoconnect ok1 ok2 =>
    match autoconnect n ok1 ok2 with | .error e => .error e | .ok r => .ok (r.1, [])
  | .setPriority ok => .ok (n, setPriority n ok)
  | .bound => .ok (n, bound n)
  | .free => .ok (free n)

def run (n : N) : List Op → Except Err (N × List Act)
  | [] => .ok (n, [])
  | op :: ops =>
    match step n op with
    | .error e => .error e
    | .ok r => match run r.1 ops with
      | .error e => .error e
      | .ok q => .ok (q.1, r.2 ++ q.2)

/-- the descriptors the select loop watches -/
def watched (n : N) : List Int := (if n.reg1 then [n.bfd.1] else []) ++ (if n.reg2 then [n.bfd.2] else [])

end Verif.Ortp.Net
