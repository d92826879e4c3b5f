import Verif.IpaProxy
/-!
# Model of `ipa_cfg_write()` of `src/ipa_proxy.c`

A line is given by its fields: the strings printed are those read by the commands `instance` and `route` of the node `ipa`
(ipa_proxy.c:594-606), whose arguments are modelled as parsed values.  As in `Verif.IpaProxy`, the address and the port of an
instance are left out.
-/
namespace Verif.IpaProxy

/-- a line of the configuration below `ipa` -/
inductive Line where
  /-- `instance NAME (bind|connect) IP tcp port PORT` -/
  | inst (name : List Byte) (bind : Bool)
  /-- `route instance NAME streamid HEXNUM instance NAME streamid HEXNUM` -/
  | route (sn : List Byte) (s : Byte) (dn : List Byte) (d : Byte)
  deriving DecidableEq, Repr

/-- `...inst->name` -/
def instName (w : W) (i : Nat) : M (List Byte) :=
  match w.insts.find? (fun j => j.id = i) with
  | some j => .ok j.name
  | none => .error .badptr

/-- ipa_proxy.c:632-637: one route -/
def routeLine (w : W) (r : Route) : M Line := do
  let x ← shGet w r.sh
  let sn ← instName w x.src
  let dn ← instName w x.dst
  .ok (.route sn r.s dn r.d)

/-- ipa_proxy.c:631-638: the routes -/
def routeLines (w : W) : List Route → M (List Line)
  | [] => .ok []
  | r :: rs => do
    let l ← routeLine w r
    let ls ← routeLines w rs
    .ok (l :: ls)

/-- ipa_proxy.c:614-640 `ipa_cfg_write` -/
def cfgWrite (w : W) : M (List Line) := do
  let ls ← routeLines w w.routes
  .ok (w.insts.map (fun i => .inst i.name i.bind) ++ ls)

/-- ipa_proxy.c:594-606: the command a line is, when the configuration is read (`ipa_server_link_open()` succeeds) -/
def Line.op : Line → Op
  | .inst n b => .instAdd n b
  | .route sn s dn d => .routeAdd sn s.toNat dn d.toNat true

end Verif.IpaProxy
