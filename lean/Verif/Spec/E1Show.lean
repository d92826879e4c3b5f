import Verif.E1Show
import Verif.Spec.E1Vty
/-!
# Specification for C167: what the `show` commands print
-/
namespace Verif.Vty
open Verif.E1 (TsType)

/-- the numbers of the lines are different, as `e1inp_line_create` ensures, and their configuration is one that the commands make -/
structure ViewOk (v : View) : Prop where
  nodup : (v.lines.map (fun x => x.1.num)).Nodup
  line : ∀ x ∈ v.lines, LineOk x.1
  slots : ∀ x ∈ v.lines, x.2.length = 32

/-- the user's name of a driver -/
def drvText : Drv → String
  | .misdn => "misdn" | .misdnLapd => "misdn_lapd" | .dahdi => "dahdi" | .e1d => "e1d" | .ipa => "ipa" | .unixsocket => "unixsocket"

/-- the user's name of a type of time slot -/
def typeText : TsType → String
  | .none => "None" | .sign => "Signalling" | .trau => "TRAU" | .raw => "RAW" | .hdlc => "HDLC" | .i460 => "I460"

/-- the row for time slot `k` of line `n` -/
def tsText (n k : Nat) (t : TsType) : String :=
  s!"E1 Timeslot {if k < 10 then " " else ""}{k} of Line {n} is Type {typeText t}"

/-- a value of the TCP keepalive -/
def valText (i : Int) (unit : String) : String := if i = -1 then "(driver's default)" else s!"{i}{unit}"

/-- the rows for the TCP keepalive of a line -/
def kaText (l : Line) : List String :=
  if l.probes = 0 then ["Keepalive: disabled"]
  else ["Keepalive: enabled", s!"  Number of probes: {valText l.probes ""}", s!"  Idle timeout: {valText l.idle "s"}",
    s!"  Probe interval: {valText l.interval "s"}"]

/-- the rows for the IPA keepalive of a line -/
def kapText : Option (Nat × Nat) → List String
  | none => ["IPA Keepalive: disabled"]
  | some (i, w) => ["IPA Keepalive: enabled", s!"  Interval: {i}s", s!"  Timeout: {w}s"]

/-- two lines for which the user can see no difference -/
structure Alike (a b : Line) : Prop where
  num : a.num = b.num
  drv : a.drv = b.drv
  /-- no name is shown as an empty one -/
  name : a.name.getD [] = b.name.getD []
  pcap : a.pcap = b.pcap
  /-- the TCP keepalive and the IPA keepalive of lines of the IPA driver -/
  ka : a.drv = .ipa → a.idle = b.idle ∧ a.probes = b.probes ∧ a.interval = b.interval ∧ a.kap = b.kap

end Verif.Vty
