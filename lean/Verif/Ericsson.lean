import Verif.Base
/-!
# Model of `src/trau/trau_pcu_ericsson.c`

Unpacked bits (`ubit_t`, 0/1) are `Bool`.  Enumerations and unsigned fields are `Nat`.  The encoder handles
frames PCU → CCU, the decoder frames CCU → PCU; they are different formats.

libosmocore's `osmo_pbit2ubit_ext` / `osmo_ubit2pbit_ext` are written out.  `(pbit_t *) &ind->tav` accesses the
first octet of an enumeration; as the library does, this assumes a little-endian machine.
Logging is not modelled.
-/
namespace Verif.Ericsson
open Verif

/-! ### libosmocore helpers -/

/-- `n` bits of a number, least significant first (`osmo_pbit2ubit_ext(…, 0, n, 1)` on one octet) -/
def lsbBits (n v : Nat) : List Bool := (List.range n).map fun i => v.testBit i

/-- `n` bits of a number, most significant first (`osmo_pbit2ubit_ext(…, 8-n, n, 0)` on one octet; with `htonl`
in front for put_trau_uint32, lines 313-319) -/
def msbBits (n v : Nat) : List Bool := (List.range n).map fun i => v.testBit (n - 1 - i)

/-- value of bits, least significant first (`osmo_ubit2pbit_ext(…, 1)` into a zeroed object) -/
def lsbVal : List Bool → Nat
  | [] => 0
  | b :: bs => b.toNat + 2 * lsbVal bs

/-- value of bits, most significant first (`osmo_ubit2pbit_ext` into the low bits of a zeroed octet; with `ntohl`
behind for get_trau_uint32, lines 374-389) -/
def msbVal (l : List Bool) : Nat := l.foldl (fun a b => 2 * a + b.toNat) 0

/-- `osmo_pbit2ubit_ext(…, 0, (pbit_t *) data, 0, n, 1)`: the first `n` bits of the octets, LSB first -/
def dataBits (data : List Byte) : Nat → Nat → M (List Bool)
  | 0, _ => .ok []
  | n + 1, i => do
    let x ← rd data (i / 8)
    let r ← dataBits data n (i + 1)
    .ok (x.getLsbD (i % 8) :: r)

/-- one bit of an octet set to the given value (`osmo_ubit2pbit_ext`: `|= 1 << bn` or `&= ~(1 << bn)`) -/
def setBit (x : Byte) (k : Nat) (b : Bool) : Byte := if b then x ||| ((1 : Byte) <<< k) else x &&& ~~~((1 : Byte) <<< k)

/-- `osmo_ubit2pbit_ext(out, 0, bits, 0, |bits|, 1)`, from bit `i` on -/
def packLsb (out : List Byte) : Nat → List Bool → M (List Byte)
  | _, [] => .ok out
  | i, b :: bs => do
    let x ← rd out (i / 8)
    let out ← wr out (i / 8) (setBit x (i % 8) b)
    packLsb out (i + 1) bs

/-- one step of libosmocore's `osmo_crc16gen_compute_bits`; the register as 16 bits, most significant first; the
polynomial 0x1021 (line 34) -/
def crcStep (r : List Bool) (x : Bool) : List Bool :=
  let f := r.headD false != x
  let s := r.tail ++ [false]
  if f then s.zipWith (fun a b => a != b)
    [false, false, false, true, false, false, false, false, false, false, true, false, false, false, false, true] else s

/-- `osmo_crc16gen_compute_bits(&cs1_crc16, …)`: init 0, remainder 0xffff -/
def crc16 (l : List Bool) : List Bool := (l.foldl crcStep (List.replicate 16 false)).map (!·)

/-! ### helpers of the file -/

/-- trau_pcu_ericsson.c:42-84 `T_bits_16` (328 entries; `true`: a T bit) -/
def tBits16 : List Bool :=
  List.replicate 16 true ++ (List.replicate 19 (true :: List.replicate 15 false)).flatten ++ List.replicate 8 false

/-- trau_pcu_ericsson.c:86-249 `T_bits_64` (1296 entries) -/
def tBits64 : List Bool :=
  List.replicate 64 true ++ (List.replicate 19 (true :: List.replicate 63 false)).flatten ++ List.replicate 16 false

/-- trau_pcu_ericsson.c:252-259 `calc_parity` -/
def calcParity (l : List Bool) : Bool := l.foldl (fun p x => p != x) true

/-- the loop of trau_pcu_ericsson.c:282-304 at position `pos`; `cnt` = `bit_count`, `lim` = `bits_len` (after the
offset was subtracted; the map is at least as long); the third list is what remains to be written.
`fuel` bounds the iterations; it is never exhausted before the `bit_count` check fails. -/
def putLoop (bits map : List Bool) (lim : Nat) : Nat → Nat → Nat → List Bool → M (Int × List Bool)
  | 0, _, _, _ => .error .assert
  | fuel + 1, pos, cnt, l =>
    match l with
    | [] => .ok (0, bits)
    | x :: xs =>
      if cnt > lim then .ok (-EINVAL, bits)
      else do
        let t ← rd map pos
        if t then putLoop bits map lim fuel (pos + 1) (cnt + 1) (x :: xs)
        else do
          let bits ← wr bits pos x
          putLoop bits map lim fuel (pos + 1) (cnt + 1) xs

/-- trau_pcu_ericsson.c:262-307 `put_trau_data` (with at least one bit, as all callers have it) -/
def putTrauData (bits : List Bool) (len : Nat) (map l : List Bool) (offs : Nat) : M (Int × List Bool) :=
  if len > map.length then .ok (-EINVAL, bits)
  else if len ≤ offs then .ok (-EINVAL, bits)
  else putLoop bits map (len - offs) (len + 2) offs 0 l

/-- trau_pcu_ericsson.c:310-321 `put_trau_uint32`; `Sum`-free error handling: `none` stands for `return -EINVAL` of
the caller -/
def putUint32 (bits : List Bool) (len : Nat) (map : List Bool) (v offs n : Nat) : M (Int × List Bool) := do
  cassert (n < 32)
  putTrauData bits len map (msbBits n v) offs

/-- the loop of trau_pcu_ericsson.c:344-365; `n` bits still wanted -/
def getLoop (bits map : List Bool) (lim : Nat) : Nat → Nat → Nat → Nat → M (Option (List Bool))
  | 0, _, _, _ => .error .assert
  | fuel + 1, pos, cnt, n =>
    match n with
    | 0 => .ok (some [])
    | n + 1 =>
      if cnt > lim then .ok none
      else do
        let t ← rd map pos
        if t then getLoop bits map lim fuel (pos + 1) (cnt + 1) (n + 1)
        else do
          let x ← rd bits pos
          match ← getLoop bits map lim fuel (pos + 1) (cnt + 1) n with
          | some r => .ok (some (x :: r))
          | none => .ok none

/-- trau_pcu_ericsson.c:324-368 `get_trau_data` (`none`: -EINVAL) -/
def getTrauData (bits : List Bool) (len : Nat) (map : List Bool) (offs n : Nat) : M (Option (List Bool)) :=
  if len > map.length then .ok none
  else if len ≤ offs then .ok none
  else getLoop bits map (len - offs) (len + 2) offs 0 n

/-- trau_pcu_ericsson.c:371-390 `get_trau_uint32` -/
def getUint32 (bits : List Bool) (len : Nat) (map : List Bool) (offs n : Nat) : M Nat := do
  cassert (n < 32)
  match ← getTrauData bits len map offs n with
  | some l => .ok (msbVal l)
  | none => .ok 0

/-- trau_pcu_ericsson.c:393-410 `set_timing_ajustment_bits_16` -/
def timing16 (tav : Nat) : Int := if tav = 0 then 320 else if tav = 1 then 324 else if tav = 2 then 316 else -EINVAL

/-- trau_pcu_ericsson.c:413-428 `set_timing_ajustment_bits_64` -/
def timing64 (tav : Nat) : Int := if tav = 0 then 1280 else if tav = 1 then 1296 else if tav = 2 then 1264 else -EINVAL

/-! ### data structures -/

/-- trau_pcu_ericsson.h:91-113 `struct er_pcu_sync_ind` -/
structure PcuSync where
  tav : Nat
  ulFrameErr : Bool
  pseq : Nat
  ss : Nat
  fnUl : Nat
  fnSs : Nat
  fnDl : Nat
  ls : Nat
  deriving DecidableEq, Repr

/-- trau_pcu_ericsson.h:9-18 `enum er_cs_or_hdr` -/
inductive Cs where
  | ab | cs1 | cs2 | cs3 | cs4 | hdr1 | hdr2 | hdr3
  deriving DecidableEq, Repr

/-- trau_pcu_ericsson.h:32-47 `enum er_ul_chan_mode` -/
inductive ChMod where
  | void | nbGmsk | nbUnkn | ab | abUnkn
  deriving DecidableEq, Repr

/-- trau_pcu_ericsson.h:116-138 `struct er_pcu_data_ind`; values outside of the two enumerations are not modelled -/
structure PcuData where
  tav : Nat
  ulFrameErr : Bool
  cs : Cs
  mode : ChMod
  attenDb : Nat
  timingOffset : Nat
  data : List Byte
  deriving DecidableEq, Repr

/-- trau_pcu_ericsson.h:191-199 `struct er_gprs_trau_frame` as given to the encoder -/
inductive EncFrame where
  | none
  | sync (i : PcuSync)
  | data (i : PcuData)
  deriving DecidableEq, Repr

/-- trau_pcu_ericsson.h:70-88 `struct er_ccu_sync_ind` -/
structure CcuSync where
  tav : Nat
  dfe : Bool
  dbe : Bool
  pseq : Nat
  afnUl : Nat
  afnDl : Nat
  deriving DecidableEq, Repr

/-- trau_pcu_ericsson.h:158-171: the union -/
inductive Qual where
  | gprs (blockQual : Nat) (parityOk : Bool)
  | egprs (meanBep cvBep : Nat) (hdrGood data0 data1 : Bool)
  deriving DecidableEq, Repr

/-- trau_pcu_ericsson.h:50-67 `struct er_gprs_ab` -/
inductive AbSpec where
  | type1 (crc burstQual frameQual : Nat)
  | type2 (abi type : Nat)
  deriving DecidableEq, Repr

structure Ab where
  rxlev : Nat
  accDelay : Nat
  data : Nat
  u : AbSpec
  deriving DecidableEq, Repr

/-- trau_pcu_ericsson.h:141-183 `struct er_ccu_data_ind`; `ab` is empty if the array is zeroed -/
structure CcuData where
  tav : Nat
  dbe : Bool
  cs : Cs
  rxLev : Nat
  accDelDev : Int
  qual : Qual
  data : List Byte
  dataLen : Nat
  ab : List Ab
  deriving DecidableEq, Repr

/-- the frame as delivered by the decoder; `zero`: memset to 0 -/
inductive DecFrame where
  | zero
  | sync (i : CcuSync)
  | data (i : CcuData)
  deriving DecidableEq, Repr

/-! ### 16k, PCU → CCU -/

/-- the C bits: `b` the buffer, `o` the place of C1, `err` the place of C8 as the code has it, `pc` of the parity bit -/
def putC (b : List Bool) (ft tav : Nat) (ulErr : Bool) (o err pc : Nat) : M (List Bool) := do
  let b ← blit b o (lsbBits 5 ft)
  let b ← blit b (o + 5) (lsbBits 2 tav)
  let b ← (if ulErr then wr b err false else .ok b)
  let c ← slice b o 8
  wr b pc (calcParity c)

/-- consecutive put_trau_uint32 calls: value, offset, length; stops with -EINVAL at the first failure -/
def putUints (b : List Bool) (len : Nat) (map : List Bool) : List (Nat × Nat × Nat) → M (Option (List Bool) × List Bool)
  | [] => .ok (some b, b)
  | (v, o, n) :: r => do
    let (rc, b) ← putUint32 b len map v o n
    if rc < 0 then .ok (none, b) else putUints b len map r

/-- trau_pcu_ericsson.c:458-528 `enc_pcu_sync_ind_16` -/
def encSync16 (b : List Bool) (i : PcuSync) : M (Int × List Bool) := do
  let b ← putC b 0x0F i.tav i.ulFrameErr 17 24 25
  let (ok, b) ← putUints b 320 tBits16 [(i.pseq, 41, 22), (i.ss, 65, 15), (i.fnUl, 89, 22), (i.fnSs, 113, 15),
    (i.fnDl, 137, 22), (i.ls, 161, 15)]
  if ok.isSome then .ok (timing16 i.tav, b) else .ok (-EINVAL, b)

/-- trau_pcu_ericsson.c:562-577: E1, E2 (`none`: -EINVAL) -/
def csE16 : Cs → Option (List Bool)
  | .cs1 => some [false, false]
  | .cs2 => some [false, true]
  | _ => none

/-- trau_pcu_ericsson.c:579-600: E3, E4 -/
def mode16 : ChMod → List Bool
  | .nbGmsk => [false, false]
  | .nbUnkn => [false, false]
  | .ab => [false, true]
  | .abUnkn => [true, false]
  | .void => [true, true]

/-- trau_pcu_ericsson.c:530-628 `enc_pcu_data_ind_16` -/
def encData16 (b : List Bool) (i : PcuData) : M (Int × List Bool) := do
  let b ← putC b 0x1A i.tav i.ulFrameErr 17 24 25
  match csE16 i.cs with
  | none => .ok (-EINVAL, b)
  | some e12 => do
    let b ← blit b 26 e12
    let b ← blit b 28 (mode16 i.mode)
    let b ← blit b 30 (msbBits 8 i.timingOffset)
    let b ← blit b 38 (msbBits 4 i.attenDb)
    let e ← slice b 26 16
    let b ← wr b 42 (calcParity e)
    match i.cs with
    | .cs1 => do
      let d ← dataBits i.data 184 0
      let b ← blit b 43 d
      let d ← slice b 43 184
      let b ← blit b (43 + 184) (crc16 d)
      .ok (timing16 i.tav, b)
    | .cs2 => do
      let d ← dataBits i.data 271 0
      let b ← blit b 43 d
      .ok (timing16 i.tav, b)
    | _ => .ok (-EINVAL, b)

/-- trau_pcu_ericsson.c:634-650 `er_gprs_trau_frame_encode_16k`: return value and the buffer -/
def encode16 (b : List Bool) (f : EncFrame) : M (Int × List Bool) := do
  let b ← blit b 0 (List.replicate 16 false)
  let b ← blit b 16 (List.replicate 308 true)
  match f with
  | .sync i => encSync16 b i
  | .data i => encData16 b i
  | .none => .ok (-EINVAL, b)

/-! ### CCU → PCU, common parts -/

/-- trau_pcu_ericsson.c:811-838, 1615-1642, 1847-1874: estimated access delay deviation (`none`: invalid) -/
def accDel : Nat → Option Int
  | 0 => some (-3)
  | 1 => some (-1)
  | 2 => some 1
  | 4 => some 2
  | 5 => some 3
  | 6 => some 0
  | 7 => some (-2)
  | _ => none

/-- trau_pcu_ericsson.c:431-456 `decode_ab` (`none`: -EINVAL) on 8 octets -/
def decodeAb (b : List Byte) : M (Option Ab) := do
  let b0 ← rd b 0
  let b1 ← rd b 1
  let b2 ← rd b 2
  let b3 ← rd b 3
  let b4 ← rd b 4
  let b5 ← rd b 5
  let b6 ← rd b 6
  let b7 ← rd b 7
  let mk (u : AbSpec) : Ab :=
    { rxlev := b1.toNat, accDelay := ((b4.toNat <<< 2) &&& 0x300) ||| b5.toNat,
      data := ((b6.toNat <<< 3) &&& 0x700) ||| b7.toNat, u := u }
  if b0 &&& 0x1f = 0x1f then
    .ok (some (mk (.type1 ((b0.toNat >>> 5) &&& 7) b2.toNat b3.toNat)))
  else if b0 &&& 0x1f = 0 then
    .ok (some (mk (.type2 ((b0.toNat >>> 5) &&& 7) ((b3.toNat >>> 6) &&& 3))))
  else .ok none

/-- trau_pcu_ericsson.c:861-865, 1769-1773: the access bursts from number `i` on -/
def decodeAbs (data : List Byte) : Nat → Nat → M (Option (List Ab))
  | 0, _ => .ok (some [])
  | n + 1, i => do
    let x ← slice data (i * 8) 8
    match ← decodeAb x with
    | none => .ok none
    | some a =>
      match ← decodeAbs data n (i + 1) with
      | some r => .ok (some (a :: r))
      | none => .ok none

/-- the zeroed array `data[155]` -/
def data0 : List Byte := List.replicate 155 0

/-- `osmo_ubit2pbit_ext((pbit_t *) &ind->data, 0, trau_bits, o, n, 1)` -/
def packData (d : List Byte) (b : List Bool) (o n : Nat) : M (List Byte) := do
  let l ← slice b o n
  packLsb d 0 l

/-- trau_pcu_ericsson.c:844, 1686 `osmo_crc16gen_check_bits(&cs1_crc16, trau_bits + o, 184, trau_bits + o + 184)` -/
def crcOk (b : List Bool) (o : Nat) : M Bool := do
  let d ← slice b o 184
  let c ← slice b (o + 184) 16
  .ok (c == crc16 d)

/-- the loops at trau_pcu_ericsson.c:694-699, 1475-1480: all the T1 bits are set -/
def allOnes (b : List Bool) : List Nat → M Bool
  | [] => .ok true
  | i :: is => do
    let x ← rd b i
    if x then allOnes b is else .ok false

/-! ### 16k, CCU → PCU -/

/-- trau_pcu_ericsson.c:652-730 `dec_ccu_sync_ind_16` (`none`: -EINVAL) -/
def decSync16 (b : List Bool) : M (Option CcuSync) := do
  let ok ← allOnes b ((List.range 19).map fun i => 16 + i * 16)
  if !ok then .ok none else
  let c ← slice b 17 8
  let pc ← rd b 25
  if calcParity c ≠ pc then .ok none else
  let tav ← slice b 22 2
  let c8 ← rd b 24
  let e1 ← rd b 26
  let pe ← rd b 27
  if e1 ≠ !pe then .ok none else
  let pseq ← getUint32 b 320 tBits16 41 22
  let ul ← getUint32 b 320 tBits16 89 22
  let dl ← getUint32 b 320 tBits16 137 22
  .ok (some { tav := lsbVal tav, dfe := !c8, dbe := !e1, pseq := pseq, afnUl := ul, afnDl := dl })

/-- trau_pcu_ericsson.c:780-797: coding scheme by E2..E4 (`none`: -EINVAL) -/
def csOf16 : Nat → Option Cs
  | 0 => some .cs1
  | 1 => some .cs2
  | 4 => some .ab
  | _ => none

/-- trau_pcu_ericsson.c:732-873 `dec_ccu_data_ind_16` (`none`: -EINVAL) -/
def decData16 (b : List Bool) : M (Option CcuData) := do
  let c ← slice b 17 7
  let pc ← rd b 24
  if calcParity c ≠ pc then .ok none else
  let tav ← slice b 22 2
  let e ← slice b 25 19
  let pe ← rd b 44
  if calcParity e ≠ pe then .ok none else
  let e1 ← rd b 25
  let e24 ← slice b 26 3
  let sfq ← slice b 29 3
  let par ← rd b 32
  let rxlev ← slice b 33 6
  let eadd ← slice b 39 3
  let mk (cs : Cs) (dev : Int) (data : List Byte) (len : Nat) (ab : List Ab) : CcuData :=
    { tav := lsbVal tav, dbe := !e1, cs := cs, rxLev := msbVal rxlev, accDelDev := dev,
      qual := .gprs (msbVal sfq) par, data := data, dataLen := len, ab := ab }
  match csOf16 (msbVal e24) with
  | none => .ok none
  | some cs =>
    match accDel (msbVal eadd) with
    | none => .ok none
    | some dev =>
      match cs with
      | .cs1 => do
        let d ← packData data0 b 45 184
        let ok ← crcOk b 45
        if ok then .ok (some (mk .cs1 dev d 23 [])) else .ok none
      | .cs2 => do
        let d ← packData data0 b 45 271
        .ok (some (mk .cs2 dev d 34 []))
      | _ => do
        let d ← packData data0 b 48 256
        match ← decodeAbs d 4 0 with
        | none => .ok none
        | some ab => .ok (some (mk .ab dev d 32 ab))

/-- trau_pcu_ericsson.c:879-915 `er_gprs_trau_frame_decode_16k`: return value and frame -/
def decode16 (b : List Bool) : M (Int × DecFrame) := do
  let h ← slice b 0 17
  if h ≠ List.replicate 16 false ++ [true] then .ok (-EINVAL, .zero) else
  let c ← slice b 17 5
  match lsbVal c with
  | 0x15 => do
    match ← decSync16 b with
    | some i => .ok (0, .sync i)
    | none => .ok (-EINVAL, .zero)
  | 0x1A => do
    match ← decData16 b with
    | some i => .ok (0, .data i)
    | none => .ok (-EINVAL, .zero)
  | _ => .ok (-EINVAL, .zero)

/-! ### 64k -/

/-- trau_pcu_ericsson.c:919-956 `cps_from_mcs_block` (`none`: -EINVAL) -/
def cpsFromBlock (block : List Byte) (cs : Cs) (uplink : Bool) : M (Option Nat) := do
  let b2 ← rd block 2
  let b3 ← rd block 3
  let b4 ← rd block 4
  match uplink, cs with
  | true, .hdr1 => .ok (some (b4.toNat &&& 0x1f))
  | true, .hdr2 => .ok (some (((b2.toNat >>> 6) &&& 3) ||| ((b3.toNat <<< 2) &&& 4)))
  | true, .hdr3 => .ok (some (((b2.toNat >>> 6) &&& 3) ||| ((b3.toNat <<< 2) &&& 0xC)))
  | false, .hdr1 => .ok (some ((b4.toNat >>> 3) &&& 0x1f))
  | false, .hdr2 => .ok (some ((b3.toNat >>> 1) &&& 7))
  | false, .hdr3 => .ok (some ((b3.toNat >>> 1) &&& 0xf))
  | _, _ => .ok none

/-- trau_pcu_ericsson.c:960-993 `mcs_from_cps` (`none`: -EINVAL) -/
def mcsFromCps (cps : Nat) : Cs → Option Nat
  | .hdr1 => if cps ≤ 0x0A then some 9 else if cps ≤ 0x13 then some 8 else if cps ≤ 0x1C then some 7 else none
  | .hdr2 => if cps ≤ 3 ∨ cps = 6 ∨ cps = 7 then some 6 else if cps = 4 ∨ cps = 5 then some 5 else none
  | .hdr3 => if cps ≤ 2 then some 4 else if cps ≤ 8 then some 3
      else if cps = 9 ∨ cps = 0xA ∨ cps = 0xD ∨ cps = 0xE then some 2
      else if cps = 0xB ∨ cps = 0xC then some 1 else none
  | _ => none

/-- trau_pcu_ericsson.c:995-1092 `enc_pcu_sync_ind_64` -/
def encSync64 (b : List Bool) (i : PcuSync) : M (Int × List Bool) := do
  let b ← putC b 0x0F i.tav i.ulFrameErr 65 73 74
  let (ok, b) ← putUints b 1280 tBits64 [(i.pseq, 170, 22), (i.ss, 208, 16), (i.fnUl, 234, 22), (i.fnSs, 272, 15),
    (i.fnDl, 298, 22), (i.ls, 336, 16)]
  if ok.isSome then .ok (timing64 i.tav, b) else .ok (-EINVAL, b)

/-- demodulation requested (trau_pcu_ericsson.c:1183-1211, 1327-1355) -/
def mode64 : ChMod → List Bool
  | .void => [false, false, false]
  | .nbGmsk => [false, false, true]
  | .nbUnkn => [false, true, false]
  | .ab => [false, true, true]
  | .abUnkn => [true, false, false]

/-- trau_pcu_ericsson.c:1141-1180: E1..E3 (`none`: -EINVAL) -/
def cs64 : Cs → Option (List Bool)
  | .cs1 => some [false, false, true]
  | .cs2 => some [false, true, false]
  | .cs3 => some [false, true, true]
  | .cs4 => some [true, false, false]
  | .hdr1 => some [true, false, true]
  | .hdr2 => some [true, true, false]
  | .hdr3 => some [true, true, true]
  | .ab => none

/-- trau_pcu_ericsson.c:1241-1266: number of data bits by MCS, down-link (0: no copy) -/
def mcsBitsDl : Nat → Nat
  | 1 => 209 | 2 => 257 | 3 => 329 | 4 => 385 | 5 => 478 | 6 => 622 | 7 => 940 | 8 => 1132
  | _ => 0

/-- trau_pcu_ericsson.c:1094-1275 `enc_pcu_data_ind_64` -/
def encData64 (b : List Bool) (i : PcuData) (mcs : Nat) : M (Int × List Bool) := do
  let b ← putC b 0x1A i.tav i.ulFrameErr 65 73 74
  match cs64 i.cs with
  | none => .ok (-EINVAL, b)
  | some e13 => do
    let b ← blit b 74 e13
    let b ← blit b 77 (mode64 i.mode)
    let b ← blit b 80 (msbBits 8 i.timingOffset)
    let b ← blit b 106 (msbBits 4 i.attenDb)
    let e ← slice b 74 36
    let b ← wr b 110 (calcParity e)
    match i.cs with
    | .cs1 => do
      let d ← dataBits i.data 184 0
      let b ← blit b 132 d
      let d ← slice b 132 184
      let b ← blit b (132 + 184) (crc16 d)
      .ok (timing64 i.tav, b)
    | .cs2 => do
      let d ← dataBits i.data 271 0
      let b ← blit b 132 d
      .ok (timing64 i.tav, b)
    | .cs3 => do
      let d ← dataBits i.data 315 0
      let b ← blit b 132 d
      .ok (timing64 i.tav, b)
    | .cs4 => do
      let d ← dataBits i.data 431 0
      let b ← blit b 132 d
      .ok (timing64 i.tav, b)
    | _ => do
      let d ← dataBits i.data (mcsBitsDl mcs) 0
      let b ← blit b 132 d
      .ok (timing64 i.tav, b)

/-- trau_pcu_ericsson.c:1277-1370 `enc_pcu_data_ind_64_mcs9` -/
def encData64Mcs9 (b : List Bool) (i : PcuData) : M (Int × List Bool) := do
  let b ← wr b 16 true
  let d ← dataBits i.data 48 0
  let b ← blit b 17 d
  let b ← putC b 0x04 i.tav i.ulFrameErr 65 73 74
  let b ← blit b 74 (mode64 i.mode)
  let b ← blit b 79 (msbBits 4 i.attenDb)
  let e ← slice b 74 9
  let b ← wr b 83 (calcParity e)
  let d ← dataBits (i.data.drop 6) 1180 0
  let b ← blit b 84 d
  .ok (timing64 i.tav, b)

/-- trau_pcu_ericsson.c:1376-1409 `er_gprs_trau_frame_encode_64k` -/
def encode64 (b : List Bool) (f : EncFrame) : M (Int × List Bool) := do
  let b ← blit b 0 (List.replicate 64 false)
  let b ← blit b 64 (List.replicate 1232 true)
  match f with
  | .sync i => encSync64 b i
  | .data i =>
    if i.cs = .hdr1 ∨ i.cs = .hdr2 ∨ i.cs = .hdr3 then do
      match ← cpsFromBlock i.data i.cs false with
      | none => .ok (-EINVAL, b)
      | some cps =>
        match mcsFromCps cps i.cs with
        | none => .ok (-EINVAL, b)
        | some mcs => if mcs < 9 then encData64 b i mcs else encData64Mcs9 b i
    else encData64 b i 0
  | .none => .ok (-EINVAL, b)

/-- trau_pcu_ericsson.c:1411-1511 `dec_ccu_sync_ind_64` -/
def decSync64 (b : List Bool) : M (Option CcuSync) := do
  let ok ← allOnes b ((List.range 19).map fun i => 64 + i * 64)
  if !ok then .ok none else
  let c ← slice b 65 8
  let pc ← rd b 73
  if calcParity c ≠ pc then .ok none else
  let tav ← slice b 70 2
  let c8 ← rd b 72
  let e1 ← rd b 74
  let pe ← rd b 75
  if e1 ≠ !pe then .ok none else
  let pseq ← getUint32 b 1280 tBits64 170 22
  let ul ← getUint32 b 1280 tBits64 234 22
  let dl ← getUint32 b 1280 tBits64 298 22
  .ok (some { tav := lsbVal tav, dfe := !c8, dbe := !e1, pseq := pseq, afnUl := ul, afnDl := dl })

/-- trau_pcu_ericsson.c:1580-1608: coding scheme by E2..E4 -/
def csOfE : Nat → Cs
  | 0 => .ab | 1 => .cs1 | 2 => .cs2 | 3 => .cs3 | 4 => .cs4 | 5 => .hdr1 | 6 => .hdr2 | _ => .hdr3

/-- trau_pcu_ericsson.c:1644-1680: quality fields from bit `o` (E14) on; line 1660 stores CV BEP in `mean_bep` -/
def qual64 (b : List Bool) (cs : Cs) : M Qual :=
  if cs = .cs1 ∨ cs = .cs2 ∨ cs = .cs3 ∨ cs = .cs4 then do
    let sfq ← slice b 86 3
    let par ← rd b 89
    .ok (.gprs (msbVal sfq) par)
  else do
    let _mean ← slice b 86 7
    let cv ← slice b 93 3
    let h ← rd b 96
    let d0 ← rd b 97
    let d1 ← rd b 98
    .ok (.egprs (msbVal cv) 0 (!h) (!h && !d0) (!h && !d1))

/-- trau_pcu_ericsson.c:1725-1761: number of data bits and octets by MCS, up-link -/
def mcsBitsUl : Nat → Option (Nat × Nat)
  | 1 => some (209, 27) | 2 => some (257, 33) | 3 => some (329, 42) | 4 => some (385, 49) | 5 => some (487, 61)
  | 6 => some (631, 79) | 7 => some (946, 119) | 8 => some (1138, 143)
  | _ => none

/-- trau_pcu_ericsson.c:1513-1781 `dec_ccu_data_ind_64` -/
def decData64 (b : List Bool) : M (Option CcuData) := do
  let c ← slice b 65 7
  let pc ← rd b 72
  if calcParity c ≠ pc then .ok none else
  let tav ← slice b 70 2
  let e ← slice b 73 57
  let pe ← rd b 130
  if calcParity e ≠ pe then .ok none else
  let e1 ← rd b 73
  let e24 ← slice b 74 3
  let rxlev ← slice b 77 6
  let eadd ← slice b 83 3
  let cs := csOfE (msbVal e24)
  match accDel (msbVal eadd) with
  | none => .ok none
  | some dev => do
    let q ← qual64 b cs
    let mk (data : List Byte) (len : Nat) (ab : List Ab) : CcuData :=
      { tav := lsbVal tav, dbe := !e1, cs := cs, rxLev := msbVal rxlev, accDelDev := dev, qual := q,
        data := data, dataLen := len, ab := ab }
    match cs with
    | .cs1 => do
      let d ← packData data0 b 134 184
      let ok ← crcOk b 134
      if ok then .ok (some (mk d 23 [])) else .ok none
    | .cs2 => do
      let d ← packData data0 b 134 271
      .ok (some (mk d 34 []))
    | .cs3 => do
      let d ← packData data0 b 134 315
      .ok (some (mk d 40 []))
    | .cs4 => do
      let d ← packData data0 b 134 431
      .ok (some (mk d 54 []))
    | .ab => do
      let d ← packData data0 b 144 256
      match ← decodeAbs d 4 0 with
      | none => .ok none
      | some ab => .ok (some (mk d 32 ab))
    | _ => do
      let d ← packData data0 b 134 40
      match ← cpsFromBlock d cs true with
      | none => .ok (some (mk d 0 []))
      | some cps =>
        match mcsFromCps cps cs with
        | none => .ok (some (mk d 0 []))
        | some mcs =>
          match mcsBitsUl mcs with
          | none => .ok none
          | some (n, len) => do
            let d ← packData d b 134 n
            .ok (some (mk d len []))

/-- trau_pcu_ericsson.c:1904-1920: the array `block[1234]`; `g` gives its elements before they are written -/
def mcs9Block (g : List Bool) (b : List Bool) : M (List Bool) := do
  let x ← slice b 17 32
  let k ← blit g 0 x
  let k ← blit k 32 (List.replicate 6 false)
  let pi ← rd b 49
  let k ← wr k 38 pi
  let k ← blit k 39 (List.replicate 7 false)
  let y ← slice b 50 15
  let k ← blit k 45 y
  let z ← slice b 99 1173
  blit k 45 z

/-- trau_pcu_ericsson.c:1783-1925 `dec_ccu_data_ind_64_mcs9`; `g` = what the uninitialised array `block[1234]`
contains; `data_len` is not set -/
def decData64Mcs9 (g : List Bool) (b : List Bool) : M (Option CcuData) := do
  let c ← slice b 65 7
  let pc ← rd b 72
  if calcParity c ≠ pc then .ok none else
  let tav ← slice b 70 2
  let e ← slice b 73 23
  let pe ← rd b 96
  if calcParity e ≠ pe then .ok none else
  let e1 ← rd b 73
  let rxlev ← slice b 74 6
  let eadd ← slice b 80 3
  match accDel (msbVal eadd) with
  | none => .ok none
  | some dev => do
    let _mean ← slice b 83 7
    let cv ← slice b 90 3
    let h ← rd b 93
    let d0 ← rd b 94
    let d1 ← rd b 95
    let k ← mcs9Block g b
    let d ← packData data0 k 0 1234
    .ok (some { tav := lsbVal tav, dbe := !e1, cs := .hdr1, rxLev := msbVal rxlev, accDelDev := dev,
                qual := .egprs (msbVal cv) 0 (!h) (!h && !d0) (!h && !d1), data := d, dataLen := 0, ab := [] })

/-- trau_pcu_ericsson.c:1958-1964, 1979-1982, 1996-2000: CCU-SYNC-IND -/
def decode64Sync (b : List Bool) : M (Int × DecFrame) := do
  let h ← slice b 0 65
  if h ≠ List.replicate 64 false ++ [true] then .ok (-EINVAL, .zero) else
  match ← decSync64 b with
  | some i => .ok (0, .sync i)
  | none => .ok (-EINVAL, .zero)

/-- trau_pcu_ericsson.c:1958-1964, 1983-1986, 1996-2000: CCU-DATA-IND -/
def decode64Data (b : List Bool) : M (Int × DecFrame) := do
  let h ← slice b 0 65
  if h ≠ List.replicate 64 false ++ [true] then .ok (-EINVAL, .zero) else
  match ← decData64 b with
  | some i => .ok (0, .data i)
  | none => .ok (-EINVAL, .zero)

/-- trau_pcu_ericsson.c:1965-1970, 1987-1990, 1996-2000: CCU-DATA-IND for MCS-9 -/
def decode64Mcs9 (g b : List Bool) : M (Int × DecFrame) := do
  let h ← slice b 0 17
  if h ≠ List.replicate 16 false ++ [true] then .ok (-EINVAL, .zero) else
  match ← decData64Mcs9 g b with
  | some i => .ok (0, .data i)
  | none => .ok (-EINVAL, .zero)

/-- trau_pcu_ericsson.c:1931-2001 `er_gprs_trau_frame_decode_64k` -/
def decode64 (g : List Bool) (b : List Bool) : M (Int × DecFrame) := do
  let c ← slice b 65 5
  match lsbVal c with
  | 0x15 => decode64Sync b
  | 0x1A => decode64Data b
  | 0x04 => decode64Mcs9 g b
  | _ => .ok (-EINVAL, .zero)

end Verif.Ericsson
