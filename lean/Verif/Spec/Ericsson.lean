import Verif.Ericsson
/-!
# Specification of the Ericsson GPRS TRAU frames

Tables of where which field is found in a frame, taken from the frame diagrams in the comments of
`src/trau/trau_pcu_ericsson.c` (and the tables of 3GPP TS 44.060 cited there); bit numbers start with 0.  Only the
record types of the model (the C structures) are used from it, none of its functions.
-/
namespace Verif.Ericsson.Spec
open Verif Verif.Ericsson

/-! ### vocabulary -/

def zeros (n : Nat) : List Bool := List.replicate n false
def ones (n : Nat) : List Bool := List.replicate n true

/-- number `v` as a field of `n` bits, least significant bit first -/
def lsb (n v : Nat) : List Bool := (List.range n).map fun i => v.testBit i
/-- number `v` as a field of `n` bits, most significant bit first -/
def msb (n v : Nat) : List Bool := (lsb n v).reverse
/-- the number with the given bits, least significant first -/
def num (l : List Bool) : Nat := l.foldr (fun b a => b.toNat + 2 * a) 0
/-- the bits of octets, each octet least significant bit first -/
def bitsOf (d : List Byte) : List Bool := (d.map fun x => lsb 8 x.toNat).flatten
/-- odd parity: together with this bit, the number of ones is odd -/
def odd (l : List Bool) : Bool := l.count true % 2 == 0
/-- bits followed by their odd parity -/
def withParity (l : List Bool) : List Bool := l ++ [odd l]
/-- the field of `n` bits at bit `o` of a frame -/
def fld (b : List Bool) (o n : Nat) : List Bool := (b.drop o).take n

/-- `g + f` at the front of `f` (polynomials over GF(2) by their coefficients) -/
def addFront : List Bool → List Bool → List Bool
  | [], l => l
  | _, [] => []
  | g :: gs, x :: xs => (g != x) :: addFront gs xs
/-- x^12 + x^5 + 1 -/
def poly : List Bool := [false, false, false, true, false, false, false, false, false, false, true, false, false, false, false, true]
/-- `n` steps of the long division by x^16 + x^12 + x^5 + 1 -/
def longDiv : Nat → List Bool → List Bool
  | n + 1, x :: l => longDiv n (if x then addFront poly l else l)
  | _, l => l
/-- CRC of the CS-1 block: complement of the remainder of d(x)·x^16 -/
def crc (d : List Bool) : List Bool := (longDiv d.length (d ++ zeros 16)).map not

/-! ### PCU → CCU, 16k -/

/-- control bits C1..C8 and their parity: frame type, time adjustment, C8 = 0 for an up-link frame error -/
def ctl (ft tav : Nat) (err : Bool) : List Bool := withParity (lsb 5 ft ++ lsb 2 tav ++ [!err])

/-- a 22 bit number around the T bit in front of its eighth bit -/
def around (v : Nat) : List Bool := (msb 22 v).take 7 ++ [true] ++ (msb 22 v).drop 7

/-- PCU-SYNC-IND, 16k (diagram at trau_pcu_ericsson.c:460-495, except that the bits shown as 0 in front of PSEQ are 1) -/
def pcuSync16 (i : PcuSync) : List Bool :=
  zeros 16 ++ [true] ++ ctl 0x0F i.tav i.ulFrameErr ++ ones 15 ++ around i.pseq ++ [true] ++ msb 15 i.ss ++ ones 9 ++
  around i.fnUl ++ [true] ++ msb 15 i.fnSs ++ ones 9 ++ around i.fnDl ++ [true] ++ msb 15 i.ls ++ ones 148

/-- E1, E2 of the 16k frame: only CS-1 and CS-2 exist -/
def csDl16 : Cs → Option (List Bool)
  | .cs1 => some (msb 2 0)
  | .cs2 => some (msb 2 1)
  | _ => none

/-- E3, E4: demodulation in up-link -/
def modeDl16 : ChMod → List Bool
  | .nbGmsk => msb 2 0 | .nbUnkn => msb 2 0 | .ab => msb 2 1 | .abUnkn => msb 2 2 | .void => msb 2 3

/-- PCU-DATA-IND, 16k: payload -/
def payload16 (i : PcuData) : List Bool :=
  match i.cs with
  | .cs1 => (bitsOf i.data).take 184 ++ crc ((bitsOf i.data).take 184) ++ ones 81
  | _ => (bitsOf i.data).take 271 ++ ones 10

/-- PCU-DATA-IND, 16k (diagram at trau_pcu_ericsson.c:532-551) -/
def pcuData16 (i : PcuData) (cs : List Bool) : List Bool :=
  zeros 16 ++ [true] ++ ctl 0x1A i.tav i.ulFrameErr ++
  withParity (cs ++ modeDl16 i.mode ++ msb 8 i.timingOffset ++ msb 4 i.attenDb) ++ payload16 i

/-- number of bits to be transmitted: 250 us are 4 bits of 16 kbit/s and 16 bits of 64 kbit/s -/
def txLen (perMs tav : Nat) : Int :=
  if tav = 0 then 20 * perMs else if tav = 1 then 20 * perMs + perMs / 4 else 20 * perMs - perMs / 4

/-! ### CCU → PCU, 16k -/

/-- CCU-SYNC-IND, 16k (diagram at trau_pcu_ericsson.c:654-689): `b` carries the fields of `i` -/
structure IsCcuSync16 (b : List Bool) (i : CcuSync) : Prop where
  sync : fld b 0 16 = zeros 16
  t : ∀ k, k < 19 → fld b (16 + 16 * k) 1 = [true]
  ft : fld b 17 5 = lsb 5 0x15
  tav : i.tav < 4 ∧ fld b 22 2 = lsb 2 i.tav
  c8 : fld b 24 1 = [!i.dfe]
  pc : fld b 25 1 = [odd (fld b 17 8)]
  e1 : fld b 26 1 = [!i.dbe]
  pe : fld b 27 1 = [odd (fld b 26 1)]
  pseq : i.pseq < 2 ^ 22 ∧ fld b 41 7 ++ fld b 49 15 = msb 22 i.pseq
  ul : i.afnUl < 2 ^ 22 ∧ fld b 89 7 ++ fld b 97 15 = msb 22 i.afnUl
  dl : i.afnDl < 2 ^ 22 ∧ fld b 137 7 ++ fld b 145 15 = msb 22 i.afnDl

/-- E2..E4 of a CCU-DATA-IND, 16k -/
def csUl16 : Cs → Option Nat
  | .cs1 => some 0 | .cs2 => some 1 | .ab => some 4 | _ => none

/-- code of the estimated access delay deviation (-3, 3: 'less/more than two') -/
def eadd (dev : Int) : Option Nat :=
  if dev = -3 then some 0 else if dev = -2 then some 7 else if dev = -1 then some 1 else if dev = 0 then some 6
  else if dev = 1 then some 2 else if dev = 2 then some 4 else if dev = 3 then some 5 else none

/-- an access burst of 8 octets -/
structure IsAb (o : List Byte) (a : Ab) : Prop where
  len : o.length = 8
  rxlev : a.rxlev = (o.getD 1 0).toNat
  delay : a.accDelay = (o.getD 4 0).toNat / 64 * 256 + (o.getD 5 0).toNat
  data : a.data = (o.getD 6 0).toNat / 32 * 256 + (o.getD 7 0).toNat
  spec : ((o.getD 0 0).toNat % 32 = 31 ∧ a.u = .type1 ((o.getD 0 0).toNat / 32) (o.getD 2 0).toNat (o.getD 3 0).toNat) ∨
    ((o.getD 0 0).toNat % 32 = 0 ∧ a.u = .type2 ((o.getD 0 0).toNat / 32) ((o.getD 3 0).toNat / 64))

/-- four access bursts in 32 octets -/
def AreAbs (d : List Byte) (ab : List Ab) : Prop :=
  ab.length = 4 ∧ ∀ k, k < 4 → ∃ a, ab[k]? = some a ∧ IsAb ((d.drop (8 * k)).take 8) a

/-- the 155 octets delivered contain the given bits, LSB first, and zeros behind -/
def Delivers (d : List Byte) (bits : List Bool) : Prop :=
  d.length = 155 ∧ bitsOf d = bits ++ zeros (155 * 8 - bits.length)

/-- CCU-DATA-IND, 16k (diagram at trau_pcu_ericsson.c:734-753) -/
structure IsCcuData16 (b : List Bool) (i : CcuData) : Prop where
  sync : fld b 0 17 = zeros 16 ++ [true]
  ft : fld b 17 5 = lsb 5 0x1A
  tav : i.tav < 4 ∧ fld b 22 2 = lsb 2 i.tav
  pc : fld b 24 1 = [odd (fld b 17 7)]
  e1 : fld b 25 1 = [!i.dbe]
  cs : ∃ c, csUl16 i.cs = some c ∧ fld b 26 3 = msb 3 c
  qual : ∃ q p, i.qual = .gprs q p ∧ q < 8 ∧ fld b 29 3 = msb 3 q ∧ fld b 32 1 = [p]
  rxlev : i.rxLev < 64 ∧ fld b 33 6 = msb 6 i.rxLev
  dev : ∃ c, eadd i.accDelDev = some c ∧ fld b 39 3 = msb 3 c
  pe : fld b 44 1 = [odd (fld b 25 19)]
  cs1 : i.cs = .cs1 → Delivers i.data (fld b 45 184) ∧ fld b (45 + 184) 16 = crc (fld b 45 184) ∧ i.dataLen = 23 ∧ i.ab = []
  cs2 : i.cs = .cs2 → Delivers i.data (fld b 45 271) ∧ i.dataLen = 34 ∧ i.ab = []
  ab : i.cs = .ab → Delivers i.data (fld b 48 256) ∧ i.dataLen = 32 ∧ AreAbs i.data i.ab

/-! ### PCU → CCU, 64k -/

/-- PCU-SYNC-IND, 64k, as drawn at trau_pcu_ericsson.c:997-1058 -/
def pcuSync64 (i : PcuSync) : List Bool :=
  zeros 64 ++ [true] ++ ctl 0x0F i.tav i.ulFrameErr ++ ones 96 ++ msb 22 i.pseq ++ ones 16 ++ msb 16 i.ss ++
  ones 10 ++ msb 22 i.fnUl ++ ones 16 ++ msb 16 i.fnSs ++ ones 10 ++ msb 22 i.fnDl ++ ones 16 ++ msb 16 i.ls ++ ones 944

/-- E1..E3 of the 64k data frame -/
def csDl64 : Cs → Option Nat
  | .cs1 => some 1 | .cs2 => some 2 | .cs3 => some 3 | .cs4 => some 4 | .hdr1 => some 5 | .hdr2 => some 6 | .hdr3 => some 7
  | .ab => none

/-- demodulation in up-link, 64k -/
def modeNo : ChMod → Nat
  | .void => 0 | .nbGmsk => 1 | .nbUnkn => 2 | .ab => 3 | .abUnkn => 4

/-- size of the EGPRS RLC data unit in octets (3GPP TS 44.060 table 10.3a) and number of such units per block -/
def rlcOctets : Nat → Nat × Nat
  | 1 => (22, 1) | 2 => (28, 1) | 3 => (37, 1) | 4 => (44, 1) | 5 => (56, 1) | 6 => (74, 1)
  | 7 => (56, 2) | 8 => (68, 2) | 9 => (74, 2) | _ => (0, 0)

/-- number of bits of an EGPRS block: header, and per data unit two bits (FBI/TI and E) and the octets -/
def mcsBits (hdr mcs : Nat) : Nat := hdr + (rlcOctets mcs).2 * (8 * (rlcOctets mcs).1 + 2)

/-- header length in bits by header type (3GPP TS 44.060, 10.3a.3 and 10.3a.4) -/
def hdrDl : Cs → Nat | .hdr1 => 40 | .hdr2 => 28 | _ => 31
def hdrUl : Cs → Nat | .hdr1 => 46 | .hdr2 => 37 | _ => 31

/-- the CPS field of a block of bits: down-link and up-link -/
def cpsDl (cs : Cs) (blk : List Bool) : List Bool :=
  match cs with | .hdr1 => fld blk 35 5 | .hdr2 => fld blk 25 3 | _ => fld blk 25 4
def cpsUl (cs : Cs) (blk : List Bool) : List Bool :=
  match cs with | .hdr1 => fld blk 32 5 | .hdr2 => fld blk 22 3 | _ => fld blk 22 4

/-- coding scheme by header type and CPS (3GPP TS 44.060, 10.4.8a) -/
def mcsOf (cs : Cs) (cps : Nat) : Option Nat :=
  match cs with
  | .hdr1 => if cps ∈ [0, 1, 2, 3, 4, 5, 6, 7, 8, 9, 10] then some 9
      else if cps ∈ [11, 12, 13, 14, 15, 16, 17, 18, 19] then some 8
      else if cps ∈ [20, 21, 22, 23, 24, 25, 26, 27, 28] then some 7 else none
  | .hdr2 => if cps ∈ [0, 1, 2, 3, 6, 7] then some 6 else if cps ∈ [4, 5] then some 5 else none
  | .hdr3 => if cps ∈ [0, 1, 2] then some 4 else if cps ∈ [3, 4, 5, 6, 7, 8] then some 3
      else if cps ∈ [9, 10, 13, 14] then some 2 else if cps ∈ [11, 12] then some 1 else none
  | _ => none

/-- number of payload bits of GPRS blocks (CS-1 without its CRC) -/
def gprsBits : Cs → Nat | .cs1 => 184 | .cs2 => 271 | .cs3 => 315 | .cs4 => 431 | _ => 0

/-- E1..E36 and PE of the 64k data frame; E15..E32 are unused (1) -/
def ext64 (i : PcuData) (cs : Nat) : List Bool :=
  withParity (msb 3 cs ++ msb 3 (modeNo i.mode) ++ msb 8 i.timingOffset ++ ones 18 ++ msb 4 i.attenDb)

/-- PCU-DATA-IND, 64k, as drawn at trau_pcu_ericsson.c:1096-1129 -/
def pcuData64 (i : PcuData) (cs : Nat) (payload : List Bool) : List Bool :=
  zeros 64 ++ [true] ++ ctl 0x1A i.tav i.ulFrameErr ++ ext64 i cs ++ ones 21 ++ payload ++ ones (1164 - payload.length)

/-- PCU-DATA-IND for MCS-9, 64k, as drawn at trau_pcu_ericsson.c:1279-1306 -/
def pcuData64Mcs9 (i : PcuData) : List Bool :=
  zeros 16 ++ [true] ++ (bitsOf i.data).take 48 ++ ctl 0x04 i.tav i.ulFrameErr ++
  withParity (msb 3 (modeNo i.mode) ++ ones 2 ++ msb 4 i.attenDb) ++ ((bitsOf i.data).drop 48).take 1180 ++ ones 32

/-- the PCU-DATA-IND frame for the 64k link by coding scheme; for EGPRS blocks the coding scheme is found by the CPS field
of the block.  `none`: there is no such frame (access bursts, reserved values of CPS) -/
def pcuFrame64 (i : PcuData) : Option (List Bool) :=
  match i.cs with
  | .ab => none
  | .cs1 => some (pcuData64 i 1 ((bitsOf i.data).take 184 ++ crc ((bitsOf i.data).take 184)))
  | .cs2 => some (pcuData64 i 2 ((bitsOf i.data).take (gprsBits .cs2)))
  | .cs3 => some (pcuData64 i 3 ((bitsOf i.data).take (gprsBits .cs3)))
  | .cs4 => some (pcuData64 i 4 ((bitsOf i.data).take (gprsBits .cs4)))
  | cs =>
    match mcsOf cs (num (cpsDl cs (bitsOf i.data))), csDl64 cs with
    | some m, some c =>
      if m = 9 then some (pcuData64Mcs9 i) else some (pcuData64 i c ((bitsOf i.data).take (mcsBits (hdrDl cs) m)))
    | _, _ => none

/-! ### CCU → PCU, 64k -/

/-- CCU-SYNC-IND, 64k (diagram at trau_pcu_ericsson.c:1413-1470) -/
structure IsCcuSync64 (b : List Bool) (i : CcuSync) : Prop where
  sync : fld b 0 64 = zeros 64
  t : ∀ k, k < 19 → fld b (64 + 64 * k) 1 = [true]
  ft : fld b 65 5 = lsb 5 0x15
  tav : i.tav < 4 ∧ fld b 70 2 = lsb 2 i.tav
  c8 : fld b 72 1 = [!i.dfe]
  pc : fld b 73 1 = [odd (fld b 65 8)]
  e1 : fld b 74 1 = [!i.dbe]
  pe : fld b 75 1 = [odd (fld b 74 1)]
  pseq : i.pseq < 2 ^ 22 ∧ fld b 170 22 = msb 22 i.pseq
  ul : i.afnUl < 2 ^ 22 ∧ fld b 234 22 = msb 22 i.afnUl
  dl : i.afnDl < 2 ^ 22 ∧ fld b 298 22 = msb 22 i.afnDl

/-- E2..E4 of a CCU-DATA-IND, 64k -/
def csUl64 : Cs → Nat
  | .ab => 0 | .cs1 => 1 | .cs2 => 2 | .cs3 => 3 | .cs4 => 4 | .hdr1 => 5 | .hdr2 => 6 | .hdr3 => 7

/-- an EGPRS block at bit 134: by the CPS field in it; an unknown coding scheme is 'noise': only the header is delivered,
with length 0; MCS-9 has its own frame format -/
def IsMcsBlock (b : List Bool) (cs : Cs) (data : List Byte) (len : Nat) : Prop :=
  match mcsOf cs (num (cpsUl cs (fld b 134 40))) with
  | none => Delivers data (fld b 134 40) ∧ len = 0
  | some mcs => mcs ≠ 9 ∧ Delivers data (fld b 134 (mcsBits (hdrUl cs) mcs)) ∧ len = (mcsBits (hdrUl cs) mcs + 7) / 8

/-- the quality information of EGPRS frames from bit `o` on: mean BEP, CV BEP, and (inverted) header and data block quality -/
def IsEgprsQual (b : List Bool) (o : Nat) (q : Qual) : Prop :=
  ∃ m c h d0 d1, q = .egprs m c h d0 d1 ∧ m < 128 ∧ fld b o 7 = msb 7 m ∧ c < 8 ∧ fld b (o + 7) 3 = msb 3 c ∧
    fld b (o + 10) 1 = [!h] ∧ (d0 = true ↔ h = true ∧ fld b (o + 11) 1 = [false]) ∧ (d1 = true ↔ h = true ∧ fld b (o + 12) 1 = [false])

/-- CCU-DATA-IND, 64k (diagram at trau_pcu_ericsson.c:1515-1548) -/
structure IsCcuData64 (b : List Bool) (i : CcuData) : Prop where
  sync : fld b 0 65 = zeros 64 ++ [true]
  ft : fld b 65 5 = lsb 5 0x1A
  tav : i.tav < 4 ∧ fld b 70 2 = lsb 2 i.tav
  pc : fld b 72 1 = [odd (fld b 65 7)]
  e1 : fld b 73 1 = [!i.dbe]
  cs : fld b 74 3 = msb 3 (csUl64 i.cs)
  rxlev : i.rxLev < 64 ∧ fld b 77 6 = msb 6 i.rxLev
  dev : ∃ c, eadd i.accDelDev = some c ∧ fld b 83 3 = msb 3 c
  gprs : i.cs = .cs1 ∨ i.cs = .cs2 ∨ i.cs = .cs3 ∨ i.cs = .cs4 →
    ∃ q p, i.qual = .gprs q p ∧ q < 8 ∧ fld b 86 3 = msb 3 q ∧ fld b 89 1 = [p]
  egprs : ¬ (i.cs = .cs1 ∨ i.cs = .cs2 ∨ i.cs = .cs3 ∨ i.cs = .cs4) → IsEgprsQual b 86 i.qual
  pe : fld b 130 1 = [odd (fld b 73 57)]
  noab : i.cs ≠ .ab → i.ab = []
  cs1 : i.cs = .cs1 → Delivers i.data (fld b 134 184) ∧ fld b (134 + 184) 16 = crc (fld b 134 184) ∧ i.dataLen = 23
  cs2 : i.cs = .cs2 → Delivers i.data (fld b 134 271) ∧ i.dataLen = 34
  cs3 : i.cs = .cs3 → Delivers i.data (fld b 134 315) ∧ i.dataLen = 40
  cs4 : i.cs = .cs4 → Delivers i.data (fld b 134 431) ∧ i.dataLen = 54
  mcs : i.cs = .hdr1 ∨ i.cs = .hdr2 ∨ i.cs = .hdr3 → IsMcsBlock b i.cs i.data i.dataLen
  ab : i.cs = .ab → Delivers i.data (fld b 144 256) ∧ i.dataLen = 32 ∧ AreAbs i.data i.ab

/-- the MCS-9 block as transmitted: CPS, RSB and the spare bits of the 46 bit header are stripped (restored as 0) -/
def mcs9Bits (b : List Bool) : List Bool :=
  fld b 17 32 ++ zeros 6 ++ fld b 49 1 ++ zeros 7 ++ fld b 50 15 ++ fld b 99 1173

/-- CCU-DATA-IND for MCS-9, 64k (diagram at trau_pcu_ericsson.c:1785-1813) -/
structure IsCcuMcs9 (b : List Bool) (i : CcuData) : Prop where
  sync : fld b 0 17 = zeros 16 ++ [true]
  ft : fld b 65 5 = lsb 5 0x04
  tav : i.tav < 4 ∧ fld b 70 2 = lsb 2 i.tav
  pc : fld b 72 1 = [odd (fld b 65 7)]
  e1 : fld b 73 1 = [!i.dbe]
  rxlev : i.rxLev < 64 ∧ fld b 74 6 = msb 6 i.rxLev
  dev : ∃ c, eadd i.accDelDev = some c ∧ fld b 80 3 = msb 3 c
  egprs : IsEgprsQual b 83 i.qual
  pe : fld b 96 1 = [odd (fld b 73 23)]
  cs : i.cs = .hdr1 ∧ i.ab = []
  data : Delivers i.data (mcs9Bits b) ∧ i.dataLen = 155

end Verif.Ericsson.Spec
