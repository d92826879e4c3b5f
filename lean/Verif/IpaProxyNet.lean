import Verif.IpaProxyCfg
/-!
# Model of `src/ipa_proxy.c`: addresses and ports

`Verif.IpaProxy` leaves out the addresses and ports of the instances, and the sockets; here they are added to its state.
Addresses are strings, kept as they are given.  Not modelled: failures of the client (ipa_proxy.c:198-202).
-/
namespace Verif.IpaProxy.Net

/-- the address and the port of a socket, or of an instance (ipa_proxy.c:42-46) -/
structure Sock where
  addr : List Byte
  port : Nat
  deriving DecidableEq, Repr

/-- `net`: ipa_proxy.c:42-46 `net.addr`, `net.port` of the instances, by identity; `lst`: the listening sockets with the route they were
created for; `cli`: the clients with the identity of their connection -/
structure NW where
  w : W
  net : Nat → Sock
  lst : List (Nat × Sock)
  cli : List (Nat × Sock)

/-- ipa_proxy.c:420: `"0.0.0.0"` -/
def anyAddr : List Byte := [0x30, 0x2e, 0x30, 0x2e, 0x30, 0x2e, 0x30]

/-- the result of `inet_aton()`: 1 for an address, 0 for any other string -/
def inetAton (valid : Bool) : Int := if valid then 1 else 0

/-- ipa_proxy.c:211-255 `__ipa_instance_add`: `valid`: `addr` is an address; `port`: the result of `atoi()`, stored as `uint16_t` -/
def instAdd (nw : NW) (name : List Byte) (bind : Bool) (addr : List Byte) (valid : Bool) (port : Int) : NW × Rc :=
  if nw.w.insts.any (fun i => nameEq i.name name) then (nw, .warning)
  else if inetAton valid < 0 then (nw, .warning)
  else ({ nw with w := (IpaProxy.instAdd nw.w name bind).1,
                  net := fun i => if i = nw.w.next then ⟨addr, (port % 65536).toNat⟩ else nw.net i }, .success)

/-- ipa_proxy.c:307-456 `__ipa_route_add`: a socket is created with the first route between two instances (419-422) -/
def routeAdd (nw : NW) (sn : List Byte) (s : Nat) (dn : List Byte) (d : Nat) (openOk : Bool) : NW × Rc :=
  let r := IpaProxy.routeAdd nw.w sn s dn d openOk
  match args nw.w sn s dn d with
  | none => ({ nw with w := r.1 }, r.2)
  | some (a, b) =>
    match firstRoute nw.w a.id b.id with
    | some _ => ({ nw with w := r.1 }, r.2)
    | none =>
      if openOk then ({ nw with w := r.1, lst := nw.lst ++ [(nw.w.next, ⟨anyAddr, (nw.net a.id).port⟩)] }, r.2)
      else ({ nw with w := r.1 }, r.2)

/-- ipa_proxy.c:161-206 `ipa_sock_src_accept_cb`: a client for address and port of `route->shared->dst.inst` -/
def accept (nw : NW) (rid : Nat) : M NW := do
  let x ← routeSh nw.w rid
  let w' ← IpaProxy.accept nw.w rid
  .ok { nw with w := w', cli := nw.cli ++ [(nw.w.next, nw.net x.dst)] }

/-- the operations -/
inductive NOp where
  | instAdd (name : List Byte) (bind : Bool) (addr : List Byte) (valid : Bool) (port : Int)
  | instDel (name : List Byte)
  | routeAdd (sn : List Byte) (s : Nat) (dn : List Byte) (d : Nat) (openOk : Bool)
  | routeDel (sn : List Byte) (s : Nat) (dn : List Byte) (d : Nat)
  | accept (rid : Nat)
  | srcClosed (cid : Nat)
  deriving DecidableEq, Repr

def step (nw : NW) : NOp → M NW
  | .instAdd n b a v p => .ok (instAdd nw n b a v p).1
  | .instDel n => do let (w, _) ← instDel nw.w n; .ok { nw with w := w }
  | .routeAdd sn s dn d o => .ok (routeAdd nw sn s dn d o).1
  | .routeDel sn s dn d => do let (w, _) ← routeDel nw.w sn s dn d; .ok { nw with w := w }
  | .accept r => accept nw r
  | .srcClosed c => .ok { nw with w := srcClosed nw.w c }

def run (nw : NW) : List NOp → M NW
  | [] => .ok nw
  | op :: ops => do let nw ← step nw op; run nw ops

def init : NW := ⟨IpaProxy.init, fun _ => ⟨[], 0⟩, [], []⟩

/-- ipa_proxy.c:594-598: the command of a line with a route -/
def routeOp : Line → Option NOp
  | .inst _ _ => none
  | .route sn s dn d => some (.routeAdd sn s.toNat dn d.toNat true)

/-- ipa_proxy.c:614-640 `ipa_cfg_write`, and 594-606, 211-255: the lines written, as the commands that they are when the configuration is
read (`Line.op` in `Verif.IpaProxyCfg`), with the addresses and ports; `valid`: which strings are addresses -/
def lineOps (valid : List Byte → Bool) (nw : NW) (ls : List Line) : List NOp :=
  nw.w.insts.map (fun i => .instAdd i.name i.bind (nw.net i.id).addr (valid (nw.net i.id).addr) (nw.net i.id).port) ++
  ls.filterMap routeOp

end Verif.IpaProxy.Net
