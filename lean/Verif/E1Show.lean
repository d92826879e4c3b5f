import Verif.E1Vty
import Verif.E1Input
/-!
# Model of the `show` commands of `src/e1_input_vty.c`

A command prints rows of text (octets, without the end of the row).

Not modelled: the counters (`stats`, printed by libosmocore), conversions of `vty_out` other than those written down here.
-/
namespace Verif.Vty
open Verif.E1 (TsType)

/-- what is looked at: the lines in the order of their list, each with the types of its time slots, and `span_cfgs[]` of the DAHDI
driver (first channel and number of channels) -/
structure View where
  lines : List (Line × List TsType)
  span : Nat → Option (Nat × Nat)

/-- the octets of a text -/
def txt (s : String) : Text := s.toList.map (fun c => BitVec.ofNat 8 c.toNat)

def decAux : Nat → Nat → Text
  | 0, _ => []
  | k + 1, n => if n < 10 then [BitVec.ofNat 8 (48 + n)] else decAux k (n / 10) ++ [BitVec.ofNat 8 (48 + n % 10)]

/-- `%u` -/
def dec (n : Nat) : Text := decAux (n + 1) n

/-- `%d` -/
def decI (i : Int) : Text := if i < 0 then 45 :: dec i.natAbs else dec i.natAbs

/-- `%2u` -/
def dec2 (n : Nat) : Text := if n < 10 then 32 :: dec n else dec n

/-- the names the drivers are registered with (misdn.c:746-754, dahdi.c:552, e1d.c, ipaccess.c:1235, unixsocket.c) -/
def Drv.name : Drv → Text
  | .misdn => txt "misdn"
  | .misdnLapd => txt "misdn_lapd"
  | .dahdi => txt "dahdi"
  | .e1d => txt "e1d"
  | .ipa => txt "ipa"
  | .unixsocket => txt "unixsocket"

/-- e1_input_vty.c:469-474: a value of the TCP keepalive -/
def kaVal (i : Int) (unit : Text) : Text := if i ≠ -1 then decI i ++ unit else txt "(driver's default)"

/-- e1_input_vty.c:458-489 `e1line_ka_dump_vty` -/
def kaRows (l : Line) : List Text :=
  if l.probes = 0 then [txt "Keepalive: disabled"]
  else [txt "Keepalive: enabled", txt "  Number of probes: " ++ kaVal l.probes [], txt "  Idle timeout: " ++ kaVal l.idle (txt "s"),
    txt "  Probe interval: " ++ kaVal l.interval (txt "s")]

/-- e1_input_vty.c:491-501 `e1line_ipa_ka_dump_vty` -/
def kapRows (kap : Option (Nat × Nat)) : List Text :=
  match kap with
  | none => [txt "IPA Keepalive: disabled"]
  | some (i, w) => [txt "IPA Keepalive: enabled", txt "  Interval: " ++ dec i ++ txt "s", txt "  Timeout: " ++ dec w ++ txt "s"]

/-- e1_input_vty.c:513-514 -/
def pcapRows (pcap : Option Text) : List Text :=
  match pcap with
  | none => []
  | some f => [txt "PCAP " ++ f]

/-- dahdi.c:530-547 `dahdi_vty_show`; `span_cfgs[]` has 128 elements -/
def dahdiRows (span : Nat → Option (Nat × Nat)) (port : Nat) : List Text :=
  if 128 ≤ port then []
  else match span port with
    | none => [txt "DAHDI Span " ++ dec (port + 1) ++ txt " non-existent"]
    | some (base, num) => [txt "DAHDI Span #" ++ dec (port + 1) ++ txt ", Base Nr " ++ dec base ++ txt ", Timeslots: " ++ dec num]

/-- e1_input_vty.c:503-520 `e1line_dump_vty`; only DAHDI has a `vty_show` -/
def lineRows (span : Nat → Option (Nat × Nat)) (l : Line) : List Text :=
  [txt "E1 Line Number " ++ dec l.num ++ txt ", Name " ++ l.name.getD [] ++ txt ", Driver " ++ l.drv.name] ++
  (if l.drv.hasKeepalive then kaRows l else []) ++
  (if l.drv = .ipa then kapRows l.kap else []) ++
  pcapRows l.pcap ++
  (if l.drv = .dahdi then dahdiRows span l.port else [])

/-- e1_input_vty.c:521-551 `show e1_line [<0-255>]`; the result: the rows, and `CMD_SUCCESS` or `CMD_WARNING` -/
def showLine (v : View) (num : Option Nat) : List Text × Bool :=
  match num with
  | none => ((v.lines.map (fun x => lineRows v.span x.1)).flatten, true)
  | some n =>
    match v.lines.find? (fun x => x.1.num == n) with
    | some x => (lineRows v.span x.1, true)
    | none => ([], false)

/-- e1_input.c:279-292 `e1inp_tstype_name` -/
def tsName : TsType → Text
  | .none => txt "None"
  | .sign => txt "Signalling"
  | .trau => txt "TRAU"
  | .raw => txt "RAW"
  | .hdlc => txt "HDLC"
  | .i460 => txt "I460"

/-- e1_input_vty.c:553-560 `e1ts_dump_vty`; the time slot at index `k` has number `k + 1` (e1_input.c:628-631) -/
def tsRows (n k : Nat) (t : TsType) : List Text :=
  if t = .none then [] else [txt "E1 Timeslot " ++ dec2 (k + 1 - 1) ++ txt " of Line " ++ dec n ++ txt " is Type " ++ tsName t]

/-- e1_input_vty.c:575-577, 607-609: the loop over the time slots from index `k` on -/
def slotRows (n : Nat) : Nat → List TsType → List Text
  | _, [] => []
  | k, t :: ts => tsRows n k t ++ slotRows n (k + 1) ts

/-- e1_input_vty.c:561-614 `show e1_timeslot [<0-255>] [<0-31>]` -/
def showTs (v : View) (num slot : Option Nat) : List Text × Bool :=
  match num with
  | none => ((v.lines.map (fun x => slotRows x.1.num 0 x.2)).flatten, true)
  | some n =>
    match v.lines.find? (fun x => x.1.num == n) with
    | none => ([txt "E1 line " ++ dec n ++ txt " is invalid"], false)
    | some x =>
      match slot with
      | none => (slotRows x.1.num 0 x.2, true)
      | some k =>
        match x.2[k]? with
        | none => ([txt "E1 timeslot " ++ dec k ++ txt " is invalid"], false)
        | some t => (tsRows x.1.num k t, true)

end Verif.Vty
