import Verif.Rs232
/-!
# Model of the driver part of `src/input/rs232.c`: setting up the line, the callback of the select loop, transmission

The signalling links of timeslot 0 are the lists of their pending messages, in the order of the list of links.  The
timer `sign.tx_timer` is never started by this driver, so `abis_sendmsg()` always asks the driver to write.  What the
system calls return is part of the operation.  Not modelled: the settings of the serial port (rs232.c:235-241), the pause
behind a written message, and tracing.
-/
namespace Verif.Rs232.Drv

/-- what the calls of `rs232_setup` return: `open()` (a descriptor), and whether `tcgetattr()`, `tcsetattr()`, `talloc_zero()` and
`osmo_fd_register()` succeed -/
structure Sys where
  fd : Option Nat
  getOk : Bool
  setOk : Bool
  memOk : Bool
  regOk : Bool
  deriving DecidableEq, Repr

/-- `links`: the `tx_list` of the links of timeslot 0; `sh`: `bfd->data`; `cb`: `ops->sign_link` is set; `wr`: `OSMO_FD_WRITE` is set in
`bfd->when`; `reg`: `bfd` is in the list of the select loop; `cur`: `bfd->fd`; `fds`: the descriptors opened by the driver and not closed -/
structure W where
  links : List (List (List Byte))
  sh : Option Sh
  cb : Bool
  wr : Bool
  reg : Bool
  cur : Option Nat
  fds : List Nat
  deriving DecidableEq, Repr

inductive Act where
  /-- reception, see `Rs232.Act` -/
  | rx (a : Rs232.Act)
  /-- a message of link `k` is written -/
  | tx (k : Nat) (msg : List Byte) (a : Rs232.Act)
  deriving DecidableEq, Repr

/-- a line with the driver and no links (zeroed memory) -/
def init (cb : Bool) : W := ⟨[], none, cb, false, false, none, []⟩

/-- rs232.c:247-268: the end of `rs232_setup`; registering a descriptor that is in the list corrupts it -/
def register (w : W) (fd : Nat) (regOk : Bool) : M (W × Int) :=
  let w := { w with sh := some (Rs232.init w.cb), wr := false }
  if regOk then (if w.reg then .error .ub else .ok ({ w with reg := true, fds := w.fds ++ [fd] }, 0))
  else .ok (w, -1)

/-- rs232.c:214-272 `rs232_setup` and rs232.c:282-289 `rs232_line_update` of a line with this driver -/
def setup (w : W) (y : Sys) : M (W × Int) :=
  match y.fd with
  | none => .ok (w, -1)
  | some fd =>
    let w := { w with cur := some fd }
    if !y.getOk then .ok ({ w with fds := w.fds ++ [fd] }, -1)
    else if !y.setOk then .ok ({ w with fds := w.fds ++ [fd] }, -1)
    else if !y.memOk then .ok (w, -12) -- ENOMEM
    else register w fd y.regOk

/-- src/e1_input.c:988-995 (in `e1inp_tx_ts`): the first link with a pending message -/
def takeMsg : List (List (List Byte)) → Option (Nat × List Byte × List (List (List Byte)))
  | [] => none
  | [] :: r => (takeMsg r).map (fun x => (x.1 + 1, x.2.1, [] :: x.2.2))
  | (m :: q) :: r => some (0, m, q :: r)

/-- rs232.c:206-211 `rs232_want_write` -/
def wantWrite (w : W) : W := { w with wr := true }

/-- src/e1_input.c:293-327 `abis_sendmsg` to link `k` -/
def send (w : W) (k : Nat) (m : List Byte) : M W :=
  match w.links[k]? with
  | none => .error .badptr
  | some q => .ok (wantWrite { w with links := w.links.set k (q ++ [m]) })

/-- rs232.c:81-113 `handle_ser_write`; `n`: what `write()` returns -/
def serWriteEv (w : W) (n : Int) : W × List Act :=
  match takeMsg w.links with
  | none => ({ w with wr := false }, [])
  | some (k, m, ls) => ({ w with wr := false, links := ls }, (serWrite (some m) n).2.map (.tx k m))

/-- rs232.c:195-196: reception, if there is something to read -/
def serReadEv (sh : Sh) : Option (Except Unit (List Byte)) → M (Sh × Int × List Rs232.Act)
  | none => .ok (sh, 0, [])
  | some r => serRead sh r

/-- rs232.c:201-202: transmission, if the descriptor is writable -/
def writable (w : W) : Option Int → W × List Act
  | none => (w, [])
  | some n => serWriteEv w n

/-- rs232.c:191-204 `serial_fd_cb`, called by the select loop: `rd`: readable, with the result of `read()`; `wn`: writable, with
the result of `write()`; the latter is reported only if asked for -/
def event (w : W) (rd : Option (Except Unit (List Byte))) (wn : Option Int) : M (W × List Act) :=
  if !w.reg then .ok (w, [])
  else match w.sh with
    | none => .error .badptr
    | some sh => do
      let (sh', rc, a) ← serReadEv sh rd
      let w := { w with sh := some sh' }
      if rc < 0 then .ok (w, a.map .rx)
      else .ok ((writable w (if w.wr then wn else none)).1, a.map .rx ++ (writable w (if w.wr then wn else none)).2)

inductive Op where
  /-- `e1inp_sign_link_create()` on timeslot 0: at the end of the list -/
  | link
  | send (k : Nat) (m : List Byte)
  | update (y : Sys)
  | event (rd : Option (Except Unit (List Byte))) (wn : Option Int)

def step (w : W) : Op → M (W × List Act)
  | .link => .ok ({ w with links := w.links ++ [[]] }, [])
  | .send k m => do let w ← send w k m; .ok (w, [])
  | .update y => do let (w, _) ← setup w y; .ok (w, [])
  | .event rd wn => event w rd wn

def run (w : W) : List Op → M (W × List Act)
  | [] => .ok (w, [])
  | op :: ops => do
    let (w, a) ← step w op
    let (w, b) ← run w ops
    .ok (w, a ++ b)

end Verif.Rs232.Drv
