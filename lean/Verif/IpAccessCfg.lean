import Verif.Base
/-!
# Model of the sockets that the ip.access driver opens, `src/input/ipaccess.c:1018-1212`

What is modelled here is with which settings, and how often, sockets are opened; what happens on them afterwards is in
`Verif.IpAccess` (BSC role) and `Verif.IpAccessBts` (BTS role).  Addresses are numbers, 0 is 0.0.0.0.  Opening a listening
socket fails if the environment makes it fail (`ok = false`), or if the process itself already listens on the port at the same or at
any address.
-/
namespace Verif.IpAccess.Cfg

/-- internal.h:13-22 `struct ipa_pars` and the bind address -/
structure Pars where
  omlDscp : Nat
  omlPrio : Nat
  rslDscp : Nat
  rslPrio : Nat
  bind : Nat
  deriving DecidableEq, Repr

/-- a socket and its settings -/
structure Sock where
  line : Nat
  addr : Nat
  port : Nat
  prio : Nat
  dscp : Nat
  deriving DecidableEq, Repr

/-- gsm/protocol/ipaccess.h -/
def OML_PORT : Nat := 3002
def RSL_PORT : Nat := 3003

/-- `il->line_already_initialized` of each line, the sockets listening -/
structure W where
  init : Nat → Bool
  lst : List Sock

def start : W := ⟨fun _ => false, []⟩

/-- two addresses cannot both be listened at -/
def clash (a b : Sock) : Bool := decide (a.port = b.port) && (decide (a.addr = b.addr) || decide (a.addr = 0) || decide (b.addr = 0))

/-- `osmo_stream_srv_link_open` -/
def canOpen (w : W) (ok : Bool) (s : Sock) : Bool := ok && !w.lst.any (clash s)

/-- ipaccess.c:1035-1045: the OML listener -/
def omlSock (p : Pars) (line : Nat) : Sock := ⟨line, p.bind, OML_PORT, p.omlDscp, p.omlPrio⟩

/-- ipaccess.c:1053-1062: the RSL listener -/
def rslSock (p : Pars) (line : Nat) : Sock := ⟨line, p.bind, RSL_PORT, p.rslDscp, p.rslPrio⟩

/-- ipaccess.c:1018-1071, 1131-1132 `ipaccess_line_update`, role BSC -/
def update (w : W) (p : Pars) (line : Nat) (omlOk rslOk : Bool) : W × Int :=
  if w.init line = true then (w, 0)
  else if canOpen w omlOk (omlSock p line) = false then (w, -5)
  else
    let w1 : W := { w with lst := w.lst ++ [omlSock p line] }
    if canOpen w1 rslOk (rslSock p line) = false then (w1, -5)
    else ({ init := fun l => if l = line then true else w1.init l, lst := w1.lst ++ [rslSock p line] }, 0)

/-- the line is updated with the parameters that are configured then -/
structure Op where
  p : Pars
  line : Nat
  omlOk : Bool
  rslOk : Bool

def step (w : W) (o : Op) : W × Int := update w o.p o.line o.omlOk o.rslOk

def run (w : W) : List Op → W
  | [] => w
  | o :: os => run (step w o).1 os

/-- ipaccess.c:1094-1102: the OML client of a BTS -/
def omlCli (p : Pars) (line addr : Nat) : Sock := ⟨line, addr, OML_PORT, p.omlDscp, p.omlPrio⟩

/-- ipaccess.c:1172-1180: the RSL client of a BTS -/
def rslCli (p : Pars) (line addr port : Nat) : Sock := ⟨line, addr, port, p.rslDscp, p.rslPrio⟩

end Verif.IpAccess.Cfg
