import Verif.Base
/-!
# Model of `src/e1_input_vty.c`: the configuration of E1 lines, and of the TCP options derived from it

A command is modelled after it was matched and split into its arguments by libosmovty; the ranges of the arguments are those
of the command definitions (`Cmd.valid`).  What a command needs from outside (the driver is available and creates the line,
the pcap file can be opened and written) is part of the operation.  Texts are lists of octets.

Not modelled here: the `show` commands (`Verif.E1Show`), the output of warnings.
-/
namespace Verif.Vty

abbrev Text := List Byte

/-- e1_input_vty.c:50 `E1_DRIVER_NAMES` -/
inductive Drv where
  | misdn | misdnLapd | dahdi | e1d | ipa | unixsocket
  deriving DecidableEq, Repr

/-- `has_keepalive` of the driver (ipaccess.c:1240) -/
def Drv.hasKeepalive : Drv → Bool
  | .ipa => true
  | _ => false

/-- e1_input.h:217-251 `struct e1inp_line`, the part that is configured; `idle`, `probes`, `interval`: the TCP keepalive;
`kap`: interval and wait time of the IPA keepalive; `pcapFd`: a pcap file is open -/
structure Line where
  num : Nat
  drv : Drv
  port : Nat
  name : Option Text
  sock : Option Text
  timeout : Nat
  idle : Int
  probes : Int
  interval : Int
  kap : Option (Nat × Nat)
  pcap : Option Text
  pcapFd : Bool
  deriving DecidableEq, Repr

/-- the lines in the order of their list, and the parameters of the IPA driver: bind address, DSCP and priority for OML and RSL -/
structure Cfg where
  lines : List Line
  bind : Option Text
  omlDscp : Nat
  rslDscp : Nat
  omlPrio : Nat
  rslPrio : Nat
  deriving DecidableEq, Repr

def empty : Cfg := ⟨[], none, 0, 0, 0, 0⟩

inductive Cmd where
  | driver (n : Nat) (d : Drv)
  | port (n p : Nat)
  | socket (n : Nat) (s : Text)
  | name (n : Nat) (s : Text)
  | timeout (n t : Nat)
  | keepalive (n : Nat)
  | keepaliveP (n idle probes interval : Nat)
  | noKeepalive (n : Nat)
  | ipaKeepalive (n interval wait : Nat)
  | noIpaKeepalive (n : Nat)
  | pcap (n : Nat) (f : Text)
  | noPcap (n : Nat)
  | bind (a : Text)
  | dscp (oml : Bool) (v : Nat)
  | prio (oml : Bool) (v : Nat)
  deriving DecidableEq, Repr

/-- the ranges in the definitions of the commands (e1_input_vty.c:63, 87, 107, 158, 168, 180, 217, 226, 234, 258, 278, 312, 345, 357, 373) -/
def Cmd.valid : Cmd → Bool
  | .driver n _ => decide (n ≤ 255)
  | .port n p => decide (n ≤ 255) && decide (p ≤ 255)
  | .socket n _ => decide (n ≤ 255)
  | .name n _ => decide (n ≤ 255)
  | .timeout n t => decide (n ≤ 255) && decide (t ≤ 60)
  | .keepalive n => decide (n ≤ 255)
  | .keepaliveP n a b c => decide (n ≤ 255) && decide (1 ≤ a) && decide (a ≤ 300) && decide (1 ≤ b) && decide (b ≤ 20) && decide (1 ≤ c) && decide (c ≤ 300)
  | .noKeepalive n => decide (n ≤ 255)
  | .ipaKeepalive n i w => decide (n ≤ 255) && decide (1 ≤ i) && decide (i ≤ 300) && decide (1 ≤ w) && decide (w ≤ 300)
  | .noIpaKeepalive n => decide (n ≤ 255)
  | .pcap n _ => decide (n ≤ 255)
  | .noPcap n => decide (n ≤ 255)
  | .bind _ => true
  | .dscp _ v => decide (v ≤ 63)
  | .prio _ v => decide (v ≤ 255)

/-- e1_input.c:572-582 `e1inp_line_find` -/
def find (c : Cfg) (n : Nat) : Option Line := c.lines.find? (fun l => l.num == n)

/-- a change of the line that is found -/
def modify (n : Nat) (f : Line → Line) : List Line → List Line
  | [] => []
  | l :: ls => if l.num = n then f l :: ls else l :: modify n f ls

def upd (c : Cfg) (n : Nat) (f : Line → Line) : Cfg := { c with lines := modify n f c.lines }

/-- e1_input.c:593-656 `e1inp_line_create` -/
def newLine (n : Nat) (d : Drv) : Line := ⟨n, d, 0, none, none, 0, -1, -1, -1, none, none, false⟩

/-- e1_input_vty.c:131-153 `set_keepalive_params` -/
def setKeepalive (c : Cfg) (n : Nat) (idle probes interval : Int) : Cfg × Bool :=
  match find c n with
  | none => (c, false)
  | some l =>
    if l.drv.hasKeepalive = false ∧ probes ≠ 0 then (c, false)
    else (upd c n (fun l => { l with idle := idle, probes := probes, interval := interval }), true)

/-- e1_input_vty.c:188-212 `set_ipa_keepalive_params` -/
def setIpaKeepalive (c : Cfg) (n interval wait : Nat) : Cfg × Bool :=
  match find c n with
  | none => (c, false)
  | some l =>
    if l.drv ≠ .ipa then (c, false)
    else (upd c n (fun l => { l with kap := if interval ≠ 0 then some (interval, wait) else none }), true)

/-- a command that needs an existing line -/
def onLine (c : Cfg) (n : Nat) (f : Line → Line) : Cfg × Bool :=
  match find c n with
  | none => (c, false)
  | some _ => (upd c n f, true)

/-- the commands, e1_input_vty.c:60-384; `ok`: what is needed from outside works; the result: `CMD_SUCCESS` or `CMD_WARNING` -/
def exec (c : Cfg) (ok : Bool) : Cmd → M (Cfg × Bool)
  -- 60-82
  | .driver n d =>
    match find c n with
    | some _ => .ok (c, false)
    | none => if ok then .ok ({ c with lines := c.lines ++ [newLine n d] }, true) else .ok (c, false)
  -- 84-103
  | .port n p => .ok (onLine c n (fun l => { l with port := p }))
  -- 105-129
  | .socket n s => if s.length > 107 then .ok (c, false) else .ok (onLine c n (fun l => { l with sock := some s }))
  -- 232-254
  | .name n s => .ok (onLine c n (fun l => { l with name := some s }))
  -- 256-274
  | .timeout n t => .ok (onLine c n (fun l => { l with timeout := t }))
  -- 155-184
  | .keepalive n => .ok (setKeepalive c n (-1) (-1) (-1))
  | .keepaliveP n a b i => .ok (setKeepalive c n a b i)
  | .noKeepalive n => .ok (setKeepalive c n 0 0 0)
  -- 214-230
  | .ipaKeepalive n i w => .ok (setIpaKeepalive c n i w)
  | .noIpaKeepalive n => .ok (setIpaKeepalive c n 0 0)
  -- 276-308
  | .pcap n f =>
    match find c n with
    | none => .ok (c, false)
    | some _ => if ok then .ok (upd c n (fun l => { l with pcap := some f, pcapFd := true }), true) else .ok (c, false)
  -- 310-326: the pointer is not checked
  | .noPcap n =>
    match find c n with
    | none => .error .badptr
    | some _ => .ok (upd c n (fun l => { l with pcap := none, pcapFd := false }), true)
  -- 348-358, ipaccess.c:1249-1257
  | .bind a => .ok ({ c with bind := some a }, true)
  -- 360-384; the values are stored in 8 bits
  | .dscp oml v => .ok (if oml then { c with omlDscp := v % 256 } else { c with rslDscp := v % 256 }, true)
  | .prio oml v => .ok (if oml then { c with omlPrio := v % 256 } else { c with rslPrio := v % 256 }, true)

/-- "0.0.0.0" -/
def anyAddr : Text := [48, 46, 48, 46, 48, 46, 48]

/-- ipaccess.c:1259-1264 `e1inp_ipa_get_bind_addr` -/
def getBind (c : Cfg) : Text := c.bind.getD anyAddr

/-- e1_input_vty.c:408-420: the TCP keepalive of a line, as command; other values than those of `Cmd` are written as they are -/
def writeKeepalive (l : Line) : List Cmd :=
  if l.probes = 0 then [.noKeepalive l.num]
  else if l.idle ≠ -1 ∨ l.probes ≠ -1 ∨ l.interval ≠ -1 then [.keepaliveP l.num l.idle.toNat l.probes.toNat l.interval.toNat]
  else []

/-- e1_input_vty.c:398-400 -/
def writeName (n : Nat) : Option Text → List Cmd
  | some s => [.name n s]
  | none => []

/-- e1_input_vty.c:414-417 -/
def writeKap (n : Nat) : Option (Nat × Nat) → List Cmd
  | some (i, w) => [.ipaKeepalive n i w]
  | none => []

/-- e1_input_vty.c:418-420 -/
def writePcap (n : Nat) : Option Text → List Cmd
  | some f => [.pcap n f]
  | none => []

/-- e1_input_vty.c:393-420: the commands written for a line -/
def writeLine (l : Line) : List Cmd :=
  [.driver l.num l.drv, .port l.num l.port] ++
  writeName l.num l.name ++
  (if l.timeout ≠ 0 then [.timeout l.num l.timeout] else []) ++
  writeKeepalive l ++
  writeKap l.num l.kap ++
  writePcap l.num l.pcap

/-- e1_input_vty.c:386-449 `e1inp_config_write` -/
def write (c : Cfg) : List Cmd :=
  if c.lines = [] then [] else
  (c.lines.map writeLine).flatten ++
  (if getBind c ≠ anyAddr then [.bind (getBind c)] else []) ++
  (if c.omlDscp ≠ 0 then [.dscp true c.omlDscp] else []) ++
  (if c.rslDscp ≠ 0 then [.dscp false c.rslDscp] else []) ++
  (if c.omlPrio ≠ 0 then [.prio true c.omlPrio] else []) ++
  (if c.rslPrio ≠ 0 then [.prio false c.rslPrio] else [])

/-- commands executed one after the other, each with what it needs from outside; the result says which were accepted -/
def execAll (c : Cfg) : List (Bool × Cmd) → M (Cfg × List Bool)
  | [] => .ok (c, [])
  | (ok, cmd) :: cmds => do
    let (c, r) ← exec c ok cmd
    let (c, rs) ← execAll c cmds
    .ok (c, r :: rs)

/-! ### TCP options -/

/-- what `update_fd_settings` sets on a socket: TCP_KEEPIDLE, TCP_KEEPINTVL, TCP_KEEPCNT, TCP_USER_TIMEOUT if the keepalive is on -/
structure Tcp where
  idle : Int
  interval : Int
  count : Int
  userTimeout : Int
  deriving DecidableEq, Repr

/-- arithmetic of `int`: an overflow is a fault -/
def chk (x : Int) : M Int := if -2147483648 ≤ x ∧ x ≤ 2147483647 then .ok x else .error .ub

/-- ipaccess.c:614-663 `update_fd_settings`; `none`: no keepalive -/
def tcp (l : Line) : M (Option Tcp) :=
  if l.probes = 0 then .ok none else do
  let idle := if l.idle > 0 then l.idle else 30
  let interval := if l.interval > -1 then l.interval else 3
  let count := if l.probes > 0 then l.probes else 10
  let a ← chk (1000 * count)
  let b ← chk (interval + idle)
  let u ← chk (a * b)
  .ok (some ⟨idle, interval, count, u⟩)

end Verif.Vty
