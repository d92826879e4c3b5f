import Verif.Base
/-!
# Specification: reading pcap files (little endian) with LINUX_LAPD packets

After the description of the file format (libpcap "savefile") and of the link type 177 (LINUX_LAPD): a
16 octet pseudo header with packet type, ARPHRD type, address length, 8 octets address and
protocol, all in network order.
-/
namespace Verif.Spec.Pcap

/-- a little endian number -/
def leNum : List Byte → Nat
  | [] => 0
  | b :: r => b.toNat + 256 * leNum r

/-- a big endian number -/
def beNum (l : List Byte) : Nat := l.foldl (fun n b => 256 * n + b.toNat) 0

/-- one captured packet -/
structure Packet where
  sec : Nat
  usec : Nat
  origLen : Nat
  data : List Byte
  deriving DecidableEq, Repr

/-- the packets of a file behind the file header; `none` if it is malformed or truncated -/
def packets (b : List Byte) : Option (List Packet) :=
  if b = [] then some []
  else if b.length < 16 then none
  else
    let n := leNum ((b.drop 8).take 4)
    if b.length < 16 + n then none
    else
      match packets (b.drop (16 + n)) with
      | none => none
      | some r => some ({ sec := leNum (b.take 4), usec := leNum ((b.drop 4).take 4),
                          origLen := leNum ((b.drop 12).take 4), data := (b.drop 16).take n } :: r)
termination_by b.length
decreasing_by simp only [List.length_drop]; omega

/-- a pcap file of version 2.4 with snap length 65535 and link type 177 -/
def fileOk (b : List Byte) : Bool :=
  24 ≤ b.length && leNum (b.take 4) == 0xa1b2c3d4 && leNum ((b.drop 4).take 2) == 2 &&
    leNum ((b.drop 6).take 2) == 4 && leNum ((b.drop 16).take 4) == 65535 && leNum ((b.drop 20).take 4) == 177

/-- the packets of a file -/
def parse (b : List Byte) : Option (List Packet) := if fileOk b then packets (b.drop 24) else none

/-- direction and frame of a LINUX_LAPD packet: packet type 0 is "to us", 4 is "sent by us"; protocol 48 -/
def lapd (p : Packet) : Option (Bool × List Byte) :=
  if p.data.length < 16 ∨ beNum ((p.data.drop 14).take 2) ≠ 48 then none
  else
    match beNum (p.data.take 2) with
    | 0 => some (false, p.data.drop 16)
    | 4 => some (true, p.data.drop 16)
    | _ => none

end Verif.Spec.Pcap
