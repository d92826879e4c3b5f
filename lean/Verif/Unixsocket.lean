import Verif.Base
/-!
# Model of `src/input/unixsocket.c`

Not modelled: logging, the path of the socket (unixsocket.c:225-241), allocation failures, the LAPD instances
(unixsocket.c:265-275; a LAPD frame to be sent is an operation of its own), and what `e1inp_rx_ts_lapd()` does with the
message it gets.  What the system calls return is part of the operation.  `osmo_fd` holds a file descriptor *number*: after
`close()` the number is kept, and may meanwhile belong to another part of the process.
-/
namespace Verif.Us

/-- unixsocket.c:80 and include/osmocom/abis/unixsocket_proto.h -/
def READ_MAX : Nat := 1600 - 16
/-- unixsocket_proto.h -/
def VERSION : Byte := 0x01
/-- unixsocket_proto.h -/
def DATA : Byte := 0x00
/-- unixsocket_proto.h -/
def CONTROL : Byte := 0x01

/-- unixsocket.c:45-47 `struct unixsocket_line`, i.e. its `struct osmo_fd`; `line`: is `bfd->data` set; `reg`: is it in
the list of the select loop; `wr`: write events enabled -/
structure Cfg where
  fd : Nat
  line : Bool
  reg : Bool
  wr : Bool
  deriving DecidableEq, Repr

/-- `cfg`: `line->driver_data` -/
structure St where
  cfg : Option Cfg
  deriving DecidableEq, Repr

inductive Act where
  /-- a socket is connected -/
  | opened (fd : Nat)
  | registered (fd : Nat)
  | unregistered (fd : Nat)
  | write (fd : Nat) (d : List Byte)
  | close (fd : Nat)
  /-- the message is passed to `e1inp_rx_ts_lapd` -/
  | rx (d : List Byte)
  deriving DecidableEq, Repr

/-- one answer of the environment to a call of `unixsocket_line_update`: the result of connecting, of registering, and of
writing the first packet -/
structure Env where
  conn : Option Nat
  regOk : Bool
  wret : Int
  deriving DecidableEq, Repr

/-- unixsocket.c:299-329 `e1inp_ericsson_set_altc`: the packet -/
def altc (sc : Int) : List Byte := [VERSION, CONTROL, 0x23, 0x00, 0x42, 0x00, if sc ≠ 0 then 1 else 0]

/-- unixsocket.c:197-207 `unixsocket_write_msg_lapd_cb` -/
def frame (d : List Byte) : List Byte := VERSION :: DATA :: d

/-- unixsocket.c:209-281 `unixsocket_line_update`, with unixsocket.c:52-73 `unixsocket_exception_cb` and 175-190
`unixsocket_write_msg` for the packet that is written at its end.  The answers of the environment are used up one by one;
when there are none left, connecting fails.  Registering a descriptor that is still in the list of the select loop
corrupts that list. -/
def lineUpdate : List Env → St → M (St × Int × List Act)
  | [], st => .ok ({ cfg := some (st.cfg.getD ⟨0, false, false, false⟩) }, -EIO, [])
  | e :: es, st =>
    let c := st.cfg.getD ⟨0, false, false, false⟩
    match e.conn with
    | none => .ok ({ cfg := some c }, -EIO, [])
    | some n =>
      if !e.regOk then
        .ok ({ cfg := some ⟨n, true, c.reg, false⟩ }, -EIO, [.opened n, .close n])
      else if c.reg then .error .badptr
      else
        let st1 : St := { cfg := some ⟨n, true, true, false⟩ }
        let a : List Act := [.opened n, .registered n, .write n (altc 0)]
        if e.wret = -1 then do
          -- unixsocket_exception_cb
          let st2 : St := { cfg := some ⟨n, true, false, false⟩ }
          let (st3, _, b) ← lineUpdate es st2
          .ok (st3, n, a ++ [.unregistered n, .close n] ++ b)
        else .ok (st1, n, a)

/-- unixsocket.c:52-73 `unixsocket_exception_cb`.  `bfd->data` is not set before the first connection: then
`unixsocket_line_update(NULL)` dereferences a null pointer -/
def exception (env : List Env) (c : Cfg) : M (St × List Act) :=
  if !c.line then .error .badptr
  else do
    let a : List Act := if c.reg then [.unregistered c.fd, .close c.fd] else [.close c.fd]
    let (st', _, b) ← lineUpdate env { cfg := some { c with reg := false } }
    .ok (st', a ++ b)

/-- unixsocket.c:175-190 `unixsocket_write_msg`; the message is freed in any case -/
def writeMsg (st : St) (c : Cfg) (d : List Byte) (ret : Int) (env : List Env) : M (St × List Act) :=
  if ret = -1 then do
    let (st', a) ← exception env c
    .ok (st', .write c.fd d :: a)
  else .ok (st, [.write c.fd d])

/-- unixsocket.c:299-329 `e1inp_ericsson_set_altc` on a line of this driver -/
def setAltc (st : St) (sc : Int) (ret : Int) (env : List Env) : M (St × List Act) :=
  match st.cfg with
  | none => .ok (st, [])
  | some c => writeMsg st c (altc sc) ret env

/-- unixsocket.c:197-207, called by the LAPD instance with a frame.  It exists only after a connection -/
def lapdTx (st : St) (d : List Byte) (ret : Int) (env : List Env) : M (St × List Act) :=
  match st.cfg with
  | none => .error .badptr
  | some c => writeMsg st c (frame d) ret env

/-- unixsocket.c:165-172 `ts_want_write` -/
def wantWrite (st : St) : M (St × List Act) :=
  match st.cfg with
  | none => .error .badptr
  | some c => .ok ({ cfg := some { c with wr := true } }, [])

/-- unixsocket.c:75-131 `unixsocket_read_cb`: `p` is the packet in the socket (`none`: `read()` fails; an empty one: the peer
has closed the connection), `rc` what `e1inp_rx_ts_lapd` returns -/
def readCb (st : St) (c : Cfg) (p : Option (List Byte)) (rc : Int) (env : List Env) : M (St × Int × List Act) :=
  match p with
  | none => .ok (st, -1, [])
  | some p =>
    match p.take READ_MAX with
    | [] => do
      let (st', a) ← exception env c
      .ok (st', 0, a)
    | [_] => .ok (st, -1, [])
    | v :: t :: d =>
      if v ≠ VERSION then .ok (st, -1, [])
      else if t = DATA then .ok (st, rc, [.rx d])
      else .ok (st, -1, [])

/-- the operations -/
inductive Op where
  /-- `unixsocket_line_update()` called by `e1inp_line_update()` -/
  | update (env : List Env)
  | altc (sc : Int) (ret : Int) (env : List Env)
  /-- a LAPD frame to be sent, and what `write()` returns -/
  | tx (d : List Byte) (ret : Int) (env : List Env)
  /-- a read event -/
  | read (p : Option (List Byte)) (rc : Int) (env : List Env)
  | want
  /-- a write event; `msg`: `e1inp_tx_ts()` has a message (which is then passed to LAPD, see `tx`) -/
  | writable (msg : Bool)
  deriving DecidableEq, Repr

/-- unixsocket.c:133-163 `unixsocket_write_cb`, `unixsocket_cb`.  Events are only reported for registered descriptors -/
def step (st : St) (op : Op) : M (St × List Act) :=
  match op with
  | .update env => do
    let (st', _, a) ← lineUpdate env st
    .ok (st', a)
  | .altc sc ret env => setAltc st sc ret env
  | .tx d ret env => lapdTx st d ret env
  | .read p rc env =>
    match st.cfg with
    | none => .ok (st, [])
    | some c =>
      if c.reg then do
        let (st', _, a) ← readCb st c p rc env
        .ok (st', a)
      else .ok (st, [])
  | .want => wantWrite st
  | .writable msg =>
    match st.cfg with
    | none => .ok (st, [])
    | some c => if c.reg && c.wr && !msg then .ok ({ cfg := some { c with wr := false } }, []) else .ok (st, [])

/-- a history -/
def run (st : St) : List Op → M (St × List Act)
  | [] => .ok (st, [])
  | op :: ops => do
    let (st, a) ← step st op
    let (st, b) ← run st ops
    .ok (st, a ++ b)

/-- no driver data yet -/
def init : St := { cfg := none }

end Verif.Us
