import Verif.Base
/-!
# Model of `src/ipa_proxy.c`

Not modelled: the syntax of the VTY commands (the arguments are given as parsed values; `strtoul` and `atoi` are not
modelled), show commands, writing the configuration, allocation failures.  Objects are identified by numbers; a number that
is not in the list any more is a dangling pointer.
-/
namespace Verif.IpaProxy

/-- ipa_proxy.c:48-54 `struct ipa_proxy_instance` (address and port are left out) -/
structure Inst where
  id : Nat
  name : List Byte
  bind : Bool
  refcnt : Int
  deriving DecidableEq, Repr

/-- ipa_proxy.c:58-79 `struct ipa_proxy_route_shared`: `smap`, `sid`: `src.streamid_map`, `src.streamid`; `link`: the route that the
listening socket was created with (ipa_proxy.c:419-422) -/
structure Sh where
  id : Nat
  src : Nat
  dst : Nat
  refcnt : Int
  smap : Byte → Bool
  sid : Byte → Byte
  dmap : Byte → Bool
  did : Byte → Byte
  link : Nat

/-- ipa_proxy.c:81-93 `struct ipa_proxy_route` -/
structure Route where
  id : Nat
  s : Byte
  d : Byte
  sh : Nat
  deriving DecidableEq, Repr

/-- ipa_proxy.c:102-109 `struct ipa_proxy_conn`; `src`: the server connection still exists -/
structure Conn where
  id : Nat
  route : Nat
  src : Bool
  deriving DecidableEq, Repr

/-- the lists of instances and routes, the objects they point to, the connections, and the next unused identity -/
structure W where
  insts : List Inst
  routes : List Route
  shs : List Sh
  conns : List Conn
  next : Nat

/-- ipa_proxy.c: results of the commands -/
inductive Rc where
  | success | warning
  deriving DecidableEq, Repr

/-- ipa_proxy.c:50: `IPA_INSTANCE_NAME` -/
def NAME : Nat := 16

/-- `strncmp(a, b, IPA_INSTANCE_NAME) == 0` for strings without NUL -/
def nameEq (a b : List Byte) : Bool := a.take NAME == b.take NAME

def upd {β : Type} (f : Byte → β) (i : Byte) (v : β) : Byte → β := fun j => if j = i then v else f j

/-- ipa_proxy.c:211-255 `__ipa_instance_add` (the result of `inet_aton` is never negative) -/
def instAdd (w : W) (name : List Byte) (bind : Bool) : W × Rc :=
  if w.insts.any (fun i => nameEq i.name name) then (w, .warning)
  else ({ w with insts := w.insts ++ [⟨w.next, name.take (NAME - 1), bind, 0⟩], next := w.next + 1 }, .success)

/-- ipa_proxy.c:264-290 `ipa_instance_del`.  Without a match the message contains `ipi->name` of the list head, which is not
an instance (ipa_proxy.c:286-287) -/
def instDel (w : W) (name : List Byte) : M (W × Rc) :=
  match w.insts.find? (fun i => nameEq i.name name) with
  | none => .error .oob
  | some i =>
    if 0 < i.refcnt then .ok (w, .warning)
    else .ok ({ w with insts := w.insts.filter (fun j => j.id ≠ i.id) }, .success)

/-- ipa_proxy.c:319-328 and 478-487: the last instances with the names -/
def lookup (w : W) (sn dn : List Byte) : Option Inst × Option Inst :=
  w.insts.foldl (fun r i => if nameEq i.name sn then (some i, r.2) else if nameEq i.name dn then (r.1, some i) else r) (none, none)

/-- ipa_proxy.c:319-360, 478-519: the instances of a route, if the arguments are valid -/
def args (w : W) (sn : List Byte) (s : Nat) (dn : List Byte) (d : Nat) : Option (Inst × Inst) :=
  match lookup w sn dn with
  | (some a, some b) => if a.bind && !b.bind && decide (s ≤ 255) && decide (d ≤ 255) then some (a, b) else none
  | _ => none

def sh? (w : W) (i : Nat) : Option Sh := w.shs.find? (fun x => x.id = i)

/-- `route->shared->...` -/
def shGet (w : W) (i : Nat) : M Sh :=
  match sh? w i with
  | some x => .ok x
  | none => .error .badptr

def setSh (w : W) (x : Sh) : W := { w with shs := w.shs.map (fun y => if y.id = x.id then x else y) }

/-- `inst->refcnt += k` -/
def refInst (w : W) (i : Nat) (k : Int) : W :=
  { w with insts := w.insts.map (fun j => if j.id = i then { j with refcnt := j.refcnt + k } else j) }

/-- the first route between two instances (ipa_proxy.c:361-374) -/
def firstRoute (w : W) (a b : Nat) : Option (Route × Sh) :=
  w.routes.findSome? (fun r => match sh? w r.sh with | some x => if x.src = a ∧ x.dst = b then some (r, x) else none | none => none)

/-- ipa_proxy.c:433-455: the end of `__ipa_route_add` -/
def addFinish (w : W) (a b : Nat) (s d : Byte) (x : Sh) (rid : Nat) : W :=
  let x' := { x with src := a, dst := b, sid := upd x.sid s d, did := upd x.did d s,
                     smap := upd x.smap s true, dmap := upd x.dmap d true, refcnt := x.refcnt + 1 }
  let w := refInst (refInst (setSh w x') a 1) b 1
  { w with routes := w.routes ++ [⟨rid, s, d, x.id⟩] }

/-- ipa_proxy.c:307-456 `__ipa_route_add`; `openOk`: `ipa_server_link_open()` succeeds.  Not modelled: the memory lost on errors. -/
def routeAdd (w : W) (sn : List Byte) (s : Nat) (dn : List Byte) (d : Nat) (openOk : Bool) : W × Rc :=
  match args w sn s dn d with
  | none => (w, .warning)
  | some (a, b) =>
    let sB := BitVec.ofNat 8 s
    let dB := BitVec.ofNat 8 d
    match firstRoute w a.id b.id with
    | some (r, x) =>
      if r.s = sB ∧ r.d = dB then (w, .warning)
      else (addFinish { w with next := w.next + 1 } a.id b.id sB dB x w.next, .success)
    | none =>
      if openOk then
        let x : Sh := ⟨w.next + 1, a.id, b.id, 0, fun _ => false, fun _ => 0, fun _ => false, fun _ => 0, w.next⟩
        (addFinish { w with shs := w.shs ++ [x], next := w.next + 2 } a.id b.id sB dB x w.next, .success)
      else (w, .warning)

/-- the first route between two instances with these streams (ipa_proxy.c:520-528) -/
def theRoute (w : W) (a b : Nat) (s d : Byte) : Option (Route × Sh) :=
  w.routes.findSome? (fun r => match sh? w r.sh with
    | some x => if x.src = a ∧ x.dst = b ∧ r.s = s ∧ r.d = d then some (r, x) else none
    | none => none)

/-- ipa_proxy.c:465-564 `ipa_route_del`.  `route->shared->bfd` was never set up: `osmo_fd_unregister()` of it follows null
pointers (ipa_proxy.c:545) -/
def routeDel (w : W) (sn : List Byte) (s : Nat) (dn : List Byte) (d : Nat) : M (W × Rc) :=
  match args w sn s dn d with
  | none => .ok (w, .warning)
  | some (a, b) =>
    let sB := BitVec.ofNat 8 s
    let dB := BitVec.ofNat 8 d
    match theRoute w a.id b.id sB dB with
    | none => .ok (w, .warning)
    | some (r, x) =>
      if x.refcnt - 1 = 0 then .error .badptr
      else
        let x' := { x with refcnt := x.refcnt - 1, smap := upd x.smap sB false, dmap := upd x.dmap dB false,
                           sid := upd x.sid sB 0, did := upd x.did dB 0 }
        let w := refInst (refInst (setSh { w with routes := w.routes.filter (fun q => q.id ≠ r.id) } x') x.src (-1)) x.dst (-1)
        .ok (w, .success)

/-- `conn->route->shared` -/
def routeSh (w : W) (rid : Nat) : M Sh :=
  match w.routes.find? (fun r => r.id = rid) with
  | some r => shGet w r.sh
  | none => .error .badptr

/-- ipa_proxy.c:161-206 `ipa_sock_src_accept_cb`: a connection to the listening socket created with route `rid`;
`route->shared->dst.inst` is used -/
def accept (w : W) (rid : Nat) : M W := do
  let _ ← routeSh w rid
  .ok { w with conns := w.conns ++ [⟨w.next, rid, true⟩], next := w.next + 1 }

/-- what happens with a message -/
inductive Out where
  | dropped
  /-- `ipa_server_conn_send(conn->src, msg)` with this protocol octet -/
  | toSrc (proto : Byte)
  /-- `ipa_client_conn_send(conn->dst, msg)` -/
  | toDst (proto : Byte)
  deriving DecidableEq, Repr

/-- ipa_proxy.c:138-159 `ipa_sock_src_cb` -/
def srcCb (w : W) (c : Conn) (proto : Byte) : M Out := do
  let x ← routeSh w c.route
  if x.smap proto then .ok (.toDst (x.did proto)) else .ok .dropped

/-- ipa_proxy.c:114-136 `ipa_sock_dst_cb`; the server connection may have been freed -/
def dstCb (w : W) (c : Conn) (proto : Byte) : M Out := do
  let x ← routeSh w c.route
  if x.dmap proto then (if c.src then .ok (.toSrc (x.sid proto)) else .error .badptr) else .ok .dropped

/-- ipa_proxy.c:177-178: there is no callback for a closed server connection; it is freed and nothing else happens -/
def srcClosed (w : W) (cid : Nat) : W :=
  { w with conns := w.conns.map (fun c => if c.id = cid then { c with src := false } else c) }

/-- the operations -/
inductive Op where
  | instAdd (name : List Byte) (bind : Bool)
  | instDel (name : List Byte)
  | routeAdd (sn : List Byte) (s : Nat) (dn : List Byte) (d : Nat) (openOk : Bool)
  | routeDel (sn : List Byte) (s : Nat) (dn : List Byte) (d : Nat)
  | accept (rid : Nat)
  | srcClosed (cid : Nat)
  deriving DecidableEq, Repr

def step (w : W) : Op → M W
  | .instAdd n b => .ok (instAdd w n b).1
  | .instDel n => do let (w, _) ← instDel w n; .ok w
  | .routeAdd sn s dn d o => .ok (routeAdd w sn s dn d o).1
  | .routeDel sn s dn d => do let (w, _) ← routeDel w sn s dn d; .ok w
  | .accept r => accept w r
  | .srcClosed c => .ok (srcClosed w c)

def run (w : W) : List Op → M W
  | [] => .ok w
  | op :: ops => do let w ← step w op; run w ops

/-- ipa_proxy.c:33, 56: empty lists -/
def init : W := ⟨[], [], [], [], 0⟩

end Verif.IpaProxy
