import Verif.IpaServer
/-!
# Model of `src/ipa_proxy.c`: a connection to the proxy together with its connection to the destination

`struct ipa_proxy_conn`: the server connection `src` (`Verif.IpaServer`), the client connection `dst` (`Verif.IpaClient`), and the tables of
`route->shared`.  The callbacks of the proxy are part of the events.

Not modelled: changes of the routes while the connection exists (see `Verif.IpaProxy`), allocation failures.
-/
namespace Verif.IpaProxy.Pair
open Verif.Ipa (Msg)

/-- ipa_proxy.c:58-79: the tables of `struct ipa_proxy_route_shared` -/
structure Tab where
  smap : Byte → Bool
  sid : Byte → Byte
  dmap : Byte → Bool
  did : Byte → Byte

/-- ipa_proxy.c:102-109 `struct ipa_proxy_conn` -/
structure Pair where
  src : Ipa.Srv.Conn
  dst : Ipa.Cli.Conn
  tab : Tab

inductive Act where
  | src (a : Ipa.Srv.Act)
  | dst (a : Ipa.Cli.Act)
  /-- `msgb_free(msg)` of a message without route -/
  | drop (m : Msg)
  /-- ipa.c:336: `close(fd)` of the accepted descriptor -/
  | closeFd (fd : Nat)
  deriving DecidableEq, Repr

/-- `hh->proto`: the third octet; shorter messages are not passed on by `ipa_msg_recv_buffered` -/
def proto (m : Msg) : M Byte :=
  match m.data[2]? with
  | some b => .ok b
  | none => .error .oob

/-- errno.h -/
def ENOMEM : Int := 12

def setProto (m : Msg) (b : Byte) : Msg := { m with data := m.data.set 2 b }

/-- ipa_proxy.c:138-159 `ipa_sock_src_cb` -/
def srcCb (p : Pair) (m : Msg) : M (Pair × List Act) := do
  let b ← proto m
  if p.tab.smap b then do
    let (d, a) ← Ipa.Cli.send p.dst (setProto m (p.tab.did b))
    .ok ({ p with dst := d }, a.map .dst)
  else .ok (p, [.drop m])

/-- ipa_proxy.c:114-136 `ipa_sock_dst_cb`; `conn->src` may have been freed -/
def dstCb (p : Pair) (m : Msg) : M (Pair × List Act) := do
  let b ← proto m
  if p.tab.dmap b then do
    let (s, a) ← Ipa.Srv.send p.src (setProto m (p.tab.sid b))
    .ok ({ p with src := s }, a.map .src)
  else .ok (p, [.drop m])

/-- the message an event of the server connection delivers -/
def srcMsg : List Ipa.Srv.Act → Option Msg
  | [.deliver m] => some m
  | _ => none

def dstMsg : List Ipa.Cli.Act → Option Msg
  | [.deliver m] => some m
  | _ => none

/-- the callback of the proxy, which returns 0, and what follows in the event handler (ipa.c:457-458) -/
def srcDeliver (p : Pair) (m : Msg) : M (Pair × List Act) := do
  let (p, a) ← srcCb p m
  let (c, b) ← Ipa.Srv.cbReturn p.src 0
  .ok ({ p with src := c }, a ++ b.map .src)

/-- an event of the server connection -/
def srcEv (p : Pair) (rd wr : Bool) (rcv : Ipa.Srv.Rcv) (ok : Bool) : M (Pair × List Act) := do
  let (c, a) ← Ipa.Srv.fdCb p.src rd wr rcv ok
  match srcMsg a with
  | none => .ok ({ p with src := c }, a.map .src)
  | some m => do
    let (p, b) ← srcDeliver { p with src := c } m
    .ok (p, a.map .src ++ b)

/-- the callback of the proxy, which returns 0, and what follows in the event handler (ipa.c:156-159) -/
def dstDeliver (p : Pair) (m : Msg) : M (Pair × List Act) := do
  let (p, a) ← dstCb p m
  let (c, b) ← Ipa.Cli.cbReturn p.dst 0
  .ok ({ p with dst := c }, a ++ b.map .dst)

/-- an event of the client connection -/
def dstEv (p : Pair) (rd wr err : Bool) (rcv : Ipa.Cli.Rcv) (snd : Ipa.Cli.Snd) : M (Pair × List Act) := do
  let (c, a) ← Ipa.Cli.fdCb p.dst rd wr err rcv snd
  match dstMsg a with
  | none => .ok ({ p with dst := c }, a.map .dst)
  | some m => do
    let (p, b) ← dstDeliver { p with dst := c } m
    .ok (p, a.map .dst ++ b)

/-- the connect timer of the client connection -/
def timeout (p : Pair) : M (Pair × List Act) := do
  let (c, a) ← Ipa.Cli.step p.dst .timeout
  .ok ({ p with dst := c }, a.map .dst)

inductive Op where
  | src (rd wr : Bool) (rcv : Ipa.Srv.Rcv) (ok : Bool)
  | dst (rd wr err : Bool) (rcv : Ipa.Cli.Rcv) (snd : Ipa.Cli.Snd)
  | timeout
  deriving DecidableEq

def step (p : Pair) : Op → M (Pair × List Act)
  | .src rd wr rcv ok => srcEv p rd wr rcv ok
  | .dst rd wr err rcv snd => dstEv p rd wr err rcv snd
  | .timeout => timeout p

/-- a history, with all actions in their order -/
def run (p : Pair) : List Op → M (Pair × List Act)
  | [] => .ok (p, [])
  | op :: ops => do
    let (p, a) ← step p op
    let (p, b) ← run p ops
    .ok (p, a ++ b)

/-- ipa_proxy.c:161-206 `ipa_sock_src_accept_cb` and ipa.c:330-337: descriptor `fd` was accepted; `none`: the server connection could not be
registered and is freed; `sock`, `regOk`: the socket of the client connection and whether it can be registered.  The result is the
value returned by the callback. -/
def accept (tab : Tab) (fd : Nat) (srcOk : Bool) (sock : Except Int Nat) (regOk : Bool) : M (Option Pair × Int × List Act) :=
  match Ipa.Srv.create fd true false false srcOk with
  | none => .ok (none, -ENOMEM, [.closeFd fd])
  | some s => do
    let (d, rc, a) ← Ipa.Cli.open1 (Ipa.Cli.create false true) sock regOk
    if rc < 0 then .ok (some ⟨s, d, tab⟩, -ENOMEM, a.map .dst ++ [.closeFd fd])
    else .ok (some ⟨s, d, tab⟩, 0, a.map .dst)

end Verif.IpaProxy.Pair
