import Verif.IpaClient
/-!
# Model of the server side of `src/input/ipa.c`

One `struct ipa_server_conn`, and one `struct ipa_server_link`.  As in `Verif.IpaClient` a callback of the
application pushes a `Frame` and `Op.cbReturn` is its return.

Not modelled: `pending_msg`, addresses, logging of errors, DSCP and priority.  What the sockets and the CCM parser
of libosmocore do is part of the operation.
-/
namespace Verif.Ipa.Srv

/-- what `ipa_msg_recv_buffered` returns: -EAGAIN, another value <= 0, or a message -/
inductive Rcv where
  | again | err | msg (m : Msg)
  deriving DecidableEq, Repr

/-- what is left to do when a callback returns -/
inductive Frame where
  /-- ipa.c:423-424, 457-458: the read callback returned; then the write part of `ipa_server_conn_cb` -/
  | afterRead (wr ok : Bool)
  /-- ipa.c:575-577: `closed_cb` returned; then the object is freed -/
  | afterClosed
  /-- ipa.c:550-552: `ccm_cb` returned -/
  | afterCcm
  deriving DecidableEq, Repr

/-- include/osmocom/abis/ipa.h:37-51 `struct ipa_server_conn`; `fd` is `ofd.fd` (`none` = -1), `reg` whether `ofd`
is registered, `wr` its interest in write events, `gone` whether the object was freed. -/
structure Conn where
  fd : Option Nat
  reg : Bool
  wr : Bool
  queue : List Msg
  cb : Bool
  closedCb : Bool
  ccmCb : Bool
  frames : List Frame
  gone : Bool
  deriving DecidableEq, Repr

inductive Act where
  /-- `close(fd)` -/
  | closeFd (fd : Nat)
  /-- `closed_cb(conn)` -/
  | closed
  /-- `cb(conn, msg)` -/
  | deliver (m : Msg)
  /-- `ccm_cb(conn, ...)` -/
  | ccm
  /-- `send(fd, msg->data, msg->len, 0)`; `ok` whether it succeeded -/
  | sendTo (fd : Option Nat) (m : Msg) (ok : Bool)
  /-- `msgb_free(msg)` -/
  | free (m : Msg)
  /-- `talloc_free(conn)` -/
  | freeConn
  deriving DecidableEq, Repr

def use (c : Conn) : M Unit := if c.gone then .error .badptr else .ok ()

/-- ipa.c:463-497 `ipa_server_conn_create`: `none` if the descriptor cannot be registered (then it is not closed);
the application sets `ccm_cb` afterwards -/
def create (fd : Nat) (cb closedCb ccmCb regOk : Bool) : Option Conn :=
  if regOk then
    some { fd := some fd, reg := true, wr := false, queue := [], cb := cb, closedCb := closedCb, ccmCb := ccmCb, frames := [],
           gone := false }
  else none

/-- ipa.c:565-578 `ipa_server_conn_destroy` -/
def destroy (c : Conn) : M (Conn × List Act) := do
  use c
  match c.fd with
  | none => .ok (c, [])
  | some f =>
    if c.reg then
      if c.closedCb then
        .ok ({ c with fd := none, reg := false, frames := .afterClosed :: c.frames }, [.closeFd f, .closed])
      else .ok ({ c with fd := none, reg := false, gone := true }, [.closeFd f, .freeConn])
    else .error .badptr

/-- ipa.c:580-584 `ipa_server_conn_send` -/
def send (c : Conn) (m : Msg) : M (Conn × List Act) := do
  use c
  .ok ({ c with queue := c.queue ++ [m], wr := true }, [])

/-- ipa.c:429-447 `ipa_server_conn_write` -/
def write (c : Conn) (ok : Bool) : M (Conn × List Act) := do
  use c
  match c.queue with
  | [] => .ok ({ c with wr := false }, [])
  | m :: q => .ok ({ c with queue := q }, [.sendTo c.fd m (ok && c.fd.isSome), .free m])

/-- ipa.c:457-458 -/
def writePart (c : Conn) (rc : Int) (wr ok : Bool) : M (Conn × List Act) :=
  if rc ≠ -EBADF ∧ wr = true then write c ok else .ok (c, [])

/-- ipa.c:449-461 `ipa_server_conn_cb`, ipa.c:402-427 `ipa_server_conn_read` -/
def fdCb (c : Conn) (rd wr : Bool) (rcv : Rcv) (ok : Bool) : M (Conn × List Act) := do
  use c
  if rd then
    match rcv with
    | .again => writePart c 0 wr ok
    | .err => destroy c
    | .msg m =>
      if c.cb then .ok ({ c with frames := .afterRead wr ok :: c.frames }, [.deliver m])
      else writePart c 0 wr ok
  else writePart c 0 wr ok

/-- IPAC_MSGT_ID_RESP of libosmocore's `osmocom/gsm/protocol/ipaccess.h` -/
def MSGT_ID_RESP : Byte := 0x05

/-- what libosmocore finds in a CCM message: the result of `ipa_ccm_rcvmsg_base` (-1 error, 1 handled, 0 not
handled), the message type, and, of an ID RESP, `none` if it is malformed, else the length of the unit id -/
structure Ccm where
  base : Int
  msgType : Byte
  tlv : Option (Option Nat)
  deriving DecidableEq, Repr

/-- ipa.c:499-563 `ipa_server_conn_ccm`, up to the call of `ccm_cb`; the result is the value returned to the
application, or none if `ccm_cb` is called -/
def ccm (c : Conn) (x : Ccm) : M (Conn × Option Int × List Act) := do
  use c
  let err := do
    let (c, a) ← destroy c
    .ok (c, some (-1), a)
  if x.base = 1 then .ok (c, some 0, [])
  else if x.base = 0 then
    if x.msgType = MSGT_ID_RESP then
      match x.tlv with
      | none => err
      | some none => err
      | some (some len) =>
        if len < 1 then err
        else if c.ccmCb then .ok ({ c with frames := .afterCcm :: c.frames }, none, [.ccm])
        else .error .badptr
    else .ok (c, some 0, [])
  else err

/-- the innermost callback returns -/
def cbReturn (c : Conn) (rc : Int) : M (Conn × List Act) :=
  match c.frames with
  | [] => .error .ub
  | .afterRead wr ok :: fs => writePart { c with frames := fs } rc wr ok
  | .afterClosed :: fs => do
    use c
    .ok ({ c with frames := fs, gone := true }, [.freeConn])
  | .afterCcm :: fs => if rc < 0 then destroy { c with frames := fs } else .ok ({ c with frames := fs }, [])

inductive Op where
  | send (m : Msg)
  | destroy
  | ccm (x : Ccm)
  /-- the select loop reports events -/
  | fd (rd wr : Bool) (rcv : Rcv) (ok : Bool)
  | cbReturn (rc : Int)
  deriving DecidableEq

def step (c : Conn) : Op → M (Conn × List Act)
  | .send m => send c m
  | .destroy => destroy c
  | .ccm x => (ccm c x).map fun p => (p.1, p.2.2)
  | .fd rd wr rcv ok => fdCb c rd wr rcv ok
  | .cbReturn rc => cbReturn c rc

/-- a history, with the actions of each operation -/
def run (c : Conn) : List Op → M (Conn × List (List Act))
  | [] => .ok (c, [])
  | op :: ops => do
    let (c, a) ← step c op
    let (c, b) ← run c ops
    .ok (c, a :: b)

/-! ## listening sockets -/

/-- include/osmocom/abis/ipa.h:16-25 `struct ipa_server_link`; `pending`: descriptors passed to running calls of
`accept_cb` -/
structure Link where
  fd : Option Nat
  reg : Bool
  pending : List Nat
  deriving DecidableEq, Repr

inductive LAct where
  | opened (fd : Nat)
  | closeFd (fd : Nat)
  /-- `accept_cb(link, fd)` -/
  | accept (fd : Nat)
  deriving DecidableEq, Repr

/-- ipa.c:342-366 `ipa_server_link_create` -/
def Link.create : Link := { fd := none, reg := false, pending := [] }

/-- ipa.c:373-390 `ipa_server_link_open`.  Registering a registered descriptor corrupts the list of the select
loop. -/
def Link.open (l : Link) (sock : Except Int Nat) (regOk : Bool) : M (Link × Int × List LAct) :=
  match sock with
  | .error e => .ok (l, e, [])
  | .ok f =>
    if l.reg then .error .badptr
    else if regOk then .ok ({ l with fd := some f, reg := true }, 0, [.opened f])
    else .ok ({ l with fd := none }, -EIO, [.opened f, .closeFd f])

/-- ipa.c:392-400 `ipa_server_link_close` -/
def Link.close (l : Link) : M (Link × List LAct) :=
  match l.fd with
  | none => .ok (l, [])
  | some f => if l.reg then .ok ({ l with fd := none, reg := false }, [.closeFd f]) else .error .badptr

/-- ipa.c:302-330 `ipa_server_fd_cb` up to the callback -/
def Link.event (l : Link) (acc : Except Int Nat) : M (Link × List LAct) :=
  match acc with
  | .error _ => .ok (l, [])
  | .ok f => .ok ({ l with pending := f :: l.pending }, [.accept f])

/-- ipa.c:330-339: `accept_cb` returned `rc` -/
def Link.acceptReturn (l : Link) (rc : Int) : M (Link × List LAct) :=
  match l.pending with
  | [] => .error .ub
  | f :: fs => .ok ({ l with pending := fs }, if rc < 0 then [.closeFd f] else [])

inductive LOp where
  | open (sock : Except Int Nat) (regOk : Bool)
  | close
  | event (acc : Except Int Nat)
  | acceptReturn (rc : Int)
  deriving DecidableEq

def Link.step (l : Link) : LOp → M (Link × List LAct)
  | .open s r => (l.open s r).map fun p => (p.1, p.2.2)
  | .close => l.close
  | .event a => l.event a
  | .acceptReturn rc => l.acceptReturn rc

def Link.run (l : Link) : List LOp → M (Link × List LAct)
  | [] => .ok (l, [])
  | op :: ops => do
    let (l, a) ← l.step op
    let (l, b) ← l.run ops
    .ok (l, a ++ b)

end Verif.Ipa.Srv
