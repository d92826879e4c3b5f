import Verif.E1Vty
/-!
# Specification for C123-C127: configuration
-/
namespace Verif.Vty

/-- the line number a command names -/
def Cmd.line : Cmd → Option Nat
  | .driver n _ | .port n _ | .socket n _ | .name n _ | .timeout n _ | .keepalive n | .keepaliveP n _ _ _ | .noKeepalive n
  | .ipaKeepalive n _ _ | .noIpaKeepalive n | .pcap n _ | .noPcap n => some n
  | .bind _ | .dscp _ _ | .prio _ _ => none

/-- the TCP keepalive of a line: driver's defaults, switched off, or values of the command -/
def KaOk (l : Line) : Prop :=
  (l.idle = -1 ∧ l.probes = -1 ∧ l.interval = -1) ∨ (l.idle = 0 ∧ l.probes = 0 ∧ l.interval = 0) ∨
  (1 ≤ l.idle ∧ l.idle ≤ 300 ∧ 1 ≤ l.probes ∧ l.probes ≤ 20 ∧ 1 ≤ l.interval ∧ l.interval ≤ 300)

/-- what the configuration of a line must satisfy -/
structure LineOk (l : Line) : Prop where
  num : l.num ≤ 255
  port : l.port ≤ 255
  timeout : l.timeout ≤ 60
  ka : KaOk l
  /-- keepalive parameters are only set for lines of the IPA driver -/
  kaDrv : l.drv ≠ .ipa → l.probes ≤ 0 ∧ l.kap = none
  kap : ∀ i w, l.kap = some (i, w) → 1 ≤ i ∧ i ≤ 300 ∧ 1 ≤ w ∧ w ≤ 300
  pcap : l.pcapFd = l.pcap.isSome
  sock : ∀ s, l.sock = some s → s.length ≤ 107

/-- what a configuration must satisfy -/
structure CfgOk (c : Cfg) : Prop where
  nodup : (c.lines.map Line.num).Nodup
  line : ∀ l ∈ c.lines, LineOk l
  dscp : c.omlDscp ≤ 63 ∧ c.rslDscp ≤ 63
  prio : c.omlPrio ≤ 255 ∧ c.rslPrio ≤ 255

/-- two configurations that are the same to the user: the bind address 0.0.0.0 is the default -/
def Same (c d : Cfg) : Prop :=
  c.lines = d.lines ∧ getBind c = getBind d ∧ c.omlDscp = d.omlDscp ∧ c.rslDscp = d.rslDscp ∧ c.omlPrio = d.omlPrio ∧ c.rslPrio = d.rslPrio

/-- the commands of a history are within the ranges of their definitions -/
def AllValid (cmds : List (Bool × Cmd)) : Prop := ∀ x ∈ cmds, x.2.valid = true

/-- a command sequence in which everything needed from outside works, as when a saved configuration is read again -/
def reread (cmds : List Cmd) : List (Bool × Cmd) := cmds.map (fun c => (true, c))

/-- what a command is meant to change of its line -/
def Cmd.effect : Cmd → Line → Line
  | .port _ p, l => { l with port := p }
  | .socket _ s, l => { l with sock := some s }
  | .name _ s, l => { l with name := some s }
  | .timeout _ t, l => { l with timeout := t }
  | .keepalive _, l => { l with idle := -1, probes := -1, interval := -1 }
  | .keepaliveP _ a b i, l => { l with idle := a, probes := b, interval := i }
  | .noKeepalive _, l => { l with idle := 0, probes := 0, interval := 0 }
  | .ipaKeepalive _ i w, l => { l with kap := some (i, w) }
  | .noIpaKeepalive _, l => { l with kap := none }
  | .pcap _ f, l => { l with pcap := some f, pcapFd := true }
  | .noPcap _, l => { l with pcap := none, pcapFd := false }
  | _, l => l

/-- when a command on an existing line is meant to be accepted -/
def Cmd.suits (ok : Bool) : Cmd → Line → Prop
  | .driver _ _, _ => False
  | .socket _ s, _ => s.length ≤ 107
  | .keepalive _, l | .keepaliveP _ _ _ _, l | .ipaKeepalive _ _ _, l | .noIpaKeepalive _, l => l.drv = .ipa
  | .pcap _ _, _ => ok = true
  | _, _ => True

end Verif.Vty
