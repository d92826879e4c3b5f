import Verif.E1Input
/-!
# Model of `src/input/lapd_pcap.c`

A file is the list of octets written to it.  The result of a `write()` is a parameter: `none` is an
error, `some n` means that (at most) the first `n` octets were accepted.
-/
namespace Verif.Pcap

/-- the octets of a 16 bit number in host order (little endian on the supported targets) -/
def le16 (n : Nat) : List Byte := [BitVec.ofNat 8 n, BitVec.ofNat 8 (n / 2 ^ 8)]

/-- the octets of a 32 bit number in host order -/
def le32 (n : Nat) : List Byte :=
  [BitVec.ofNat 8 n, BitVec.ofNat 8 (n / 2 ^ 8), BitVec.ofNat 8 (n / 2 ^ 16), BitVec.ofNat 8 (n / 2 ^ 24)]

/-- the octets of a 16 bit number passed through `htons` -/
def be16 (n : Nat) : List Byte := [BitVec.ofNat 8 (n / 2 ^ 8), BitVec.ofNat 8 n]

/-- lapd_pcap.c:47-49 -/
def DLT_LINUX_LAPD : Nat := 177
def LINUX_SLL_HOST : Nat := 0
def LINUX_SLL_OUTGOING : Nat := 4

/-- lapd_pcap.c:51-59, 84-92 `struct pcap_hdr`; the same header is written by `e1_set_pcap_fd2` and
`e1_set_pcap_fd` (e1_input.c:144-152, 183-191) -/
def header : List Byte :=
  le32 0xa1b2c3d4 ++ le16 2 ++ le16 4 ++ le32 0 ++ le32 0 ++ le32 65535 ++ le32 DLT_LINUX_LAPD

/-- a file after `write(fd, buf, n)` -/
def written (file buf : List Byte) : Option Nat → List Byte
  | none => file
  | some n => file ++ buf.take n

/-- the return value of `write(fd, buf, n)` -/
def writeRc (buf : List Byte) : Option Nat → Int
  | none => -1
  | some n => (min n buf.length : Nat)

/-- lapd_pcap.c:82-103 `osmo_pcap_lapd_set_fd`: the file, the return value, how often the descriptor
was closed -/
def setFd (file : List Byte) (wr : Option Nat) : List Byte × Int × Nat :=
  if writeRc header wr ≠ header.length then (written file header wr, -1, 1)
  else (written file header wr, 0, 0)

/-- lapd_pcap.c:105-125 `osmo_pcap_lapd_open`: `fd` is the result of `open()` -/
def openFile (fd : Int) (wr : Option Nat) : List Byte × Int × Nat :=
  if fd < 0 then ([], -1, 0)
  else
    let r := setFd [] wr
    if r.2.1 < 0 then (r.1, r.2.1, r.2.2 + 1) else (r.1, fd, r.2.2)

/-- lapd_pcap.c:68-74, 151-158 `struct pcap_lapdhdr`: pkttype, hatype, halen, addr[8], protocol -/
def lapdHdr (output : Bool) : List Byte :=
  be16 (if output then LINUX_SLL_OUTGOING else LINUX_SLL_HOST) ++ le16 0 ++ le16 0 ++
    [(0x01 : Byte), 0, 0, 0, 0, 0, 0, 0] ++ be16 48

/-- lapd_pcap.c:131-164: the packet put together on the stack.  `sec` and `usec` are what
`gettimeofday` says, truncated to 32 bits. -/
def record (sec usec : Nat) (output : Bool) (data : List Byte) : List Byte :=
  le32 (sec % 2 ^ 32) ++ le32 (usec % 2 ^ 32) ++ le32 ((data.length + 16) % 2 ^ 32) ++ le32 ((data.length + 16) % 2 ^ 32) ++
    lapdHdr output ++ data

/-- lapd_pcap.c:128-172 `osmo_pcap_lapd_write`: the file and the return value -/
def write (fd : Int) (file : List Byte) (sec usec : Nat) (output : Bool) (data : List Byte) (wr : Option Nat) :
    List Byte × Int :=
  if fd < 0 then (file, 0)
  else
    let s := record sec usec output data
    if writeRc s wr ≠ s.length then (written file s wr, -1) else (written file s wr, s.length)

/-- one call of `osmo_pcap_lapd_write` and the result of the `write()` in it -/
structure Call where
  sec : Nat
  usec : Nat
  output : Bool
  data : List Byte
  wr : Option Nat

/-- a sequence of calls, with the return values -/
def writes (fd : Int) (file : List Byte) : List Call → List Byte × List Int
  | [] => (file, [])
  | c :: cs =>
    let r := write fd file c.sec c.usec c.output c.data c.wr
    let q := writes fd r.1 cs
    (q.1, r.2 :: q.2)

end Verif.Pcap
