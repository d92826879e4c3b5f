import Verif.TrauFrame
import Verif.RaaPrime
/-!
# Model of `src/trau/trau_rtp_conv.c`

Octet buffers are `List Byte`; the output buffer of `osmo_trau2rtp` has arbitrary former contents.
The SID classification functions of libosmocodec are parameters (`Codec`); the generator for CRC codes
of libosmocore (`osmo_crc8gen_*`) is written out for the one code used.
The `#if 0` part (lines 937-1071) does not exist for the compiler and is not modelled.
-/
namespace Verif.RtpConv
open Verif Verif.Trau
open Verif.OldTrau (memcpy)

/-- libosmocodec functions used; each gets the octets it is allowed to read -/
structure Codec where
  /-- `osmo_fr_sid_classify` (0 speech, 1 invalid SID, 2 valid SID) -/
  frSidClassify : List Byte → Nat
  /-- `osmo_fr_is_any_sid` -/
  frIsAnySid : List Byte → Bool
  /-- `osmo_fr_check_sid` -/
  frCheckSid : List Byte → Bool
  /-- `osmo_efr_sid_classify` -/
  efrSidClassify : List Byte → Nat
  /-- `osmo_efr_is_any_sid` -/
  efrIsAnySid : List Byte → Bool
  /-- `osmo_efr_check_sid` -/
  efrCheckSid : List Byte → Bool
  /-- `osmo_hr_check_sid` -/
  hrCheckSid : List Byte → Bool
  /-- `osmo_hr_sid_reset`: the new contents of the 14 octets -/
  hrSidReset : List Byte → List Byte

/-- trau_rtp.h:25-29 `struct osmo_trau2rtp_state`; the two flags of `rtp_extensions` -/
structure State where
  type : FT
  twts001 : Bool
  twts002 : Bool
  interm16k : Bool
  deriving DecidableEq, Repr

/-- libosmocodec `GSM_FR_BYTES`, `GSM_EFR_BYTES`, `GSM_HR_BYTES`, `GSM_HR_BYTES_RTP_RFC5993` -/
def FR_BYTES : Nat := 33
def EFR_BYTES : Nat := 31
def HR_BYTES : Nat := 14
def HR_RFC5993 : Nat := 15
/-- trau_rtp_conv.c:37 `RFC4040_RTP_PLEN` -/
def PLEN : Nat := 160

/-! ### CRC -/

/-- one step of libosmocore's `osmo_crc8gen_compute_bits` for 3 bits, poly 0x3 (trau_rtp_conv.c:59-64):
the register is shifted left; if the bit shifted out differs from the input bit, 0b011 is added -/
def crcStep : Bool × Bool × Bool → Bool → Bool × Bool × Bool
  | (r2, r1, r0), x => let f := r2 != x; (r1, r0 != f, f)

/-- `osmo_crc8gen_compute_bits(&gsm0860_efr_crc3, …)`: init 0, remainder 0x7; most significant bit first -/
def crc3 (l : List Bool) : List Bool :=
  let (r2, r1, r0) := l.foldl crcStep (false, false, false)
  [!r2, !r1, !r0]

/-- trau_rtp_conv.c:67-72 `efr_parity_bits_1` (26 bits) -/
def parity1 (d : List Bool) : M (List Bool) := do
  let a ← slice d 0 22
  let b ← slice d 24 3
  let c ← slice d 28 1
  .ok (a ++ b ++ c)

/-- trau_rtp_conv.c:74-78 `efr_parity_bits_2` (12 bits) -/
def parity2 (d : List Bool) : M (List Bool) := do
  let a ← slice d 42 10
  let b ← slice d 90 2
  .ok (a ++ b)

/-- trau_rtp_conv.c:80-85 `efr_parity_bits_3` (8 bits) -/
def parity3 (d : List Bool) : M (List Bool) := do
  let a ← slice d 98 5
  let b ← slice d 104 1
  let c ← slice d 143 2
  .ok (a ++ b ++ c)

/-- trau_rtp_conv.c:87-91 `efr_parity_bits_4` (12 bits) -/
def parity4 (d : List Bool) : M (List Bool) := do
  let a ← slice d 151 10
  let b ← slice d 199 2
  .ok (a ++ b)

/-- trau_rtp_conv.c:93-98 `efr_parity_bits_5` (8 bits) -/
def parity5 (d : List Bool) : M (List Bool) := do
  let a ← slice d 207 5
  let b ← slice d 213 1
  let c ← slice d 252 2
  .ok (a ++ b ++ c)

/-! ### bits in octet buffers -/

/-- `(data[j/8] >> (7-(j%8))) & 1` -/
def pbit (data : List Byte) (j : Nat) : M Bool := do
  let x ← rd data (j / 8)
  .ok (((x >>> (7 - j % 8)) &&& 1) == 1)

/-- `out[j/8] |= (b << (7-(j%8)))`, where `out` points `o` octets into the buffer -/
def orBit (out : List Byte) (o j : Nat) (b : Bool) : M (List Byte) := do
  let x ← rd out (o + j / 8)
  wr out (o + j / 8) (x ||| ((if b then 1 else 0) <<< (7 - j % 8)))

/-- `out[j/8] |= (d_bits[i] << (7-(j%8)))` for the pairs `(j, i)` -/
def orBits (out : List Byte) (o : Nat) (d : List Bool) : List (Nat × Nat) → M (List Byte)
  | [] => .ok out
  | (j, i) :: ps => do
    let b ← rd d i
    let out ← orBit out o j b
    orBits out o d ps

/-- `d_bits[i] = (data[j/8] >> (7-(j%8))) & 1` for the pairs `(j, i)` -/
def getPbits (data : List Byte) (d : List Bool) : List (Nat × Nat) → M (List Bool)
  | [] => .ok d
  | (j, i) :: ps => do
    let b ← pbit data j
    let d ← wr d i b
    getPbits data d ps

/-- the pairs of `for (i = i0, j = j0; i < i0 + n; i++, j++)` -/
def span (i0 j0 n : Nat) : List (Nat × Nat) := (List.range n).map fun k => (j0 + k, i0 + k)

/-- eight bits, most significant first, as an octet -/
def packByte (l : List Bool) : Byte := l.foldl (fun (a : Byte) (x : Bool) => (a <<< 1) ||| (if x then 1 else 0)) 0

/-- libosmocore `osmo_ubit2pbit` for a multiple of 8 bits: `n` octets -/
def ubit2pbit : Nat → List Bool → List Byte
  | 0, _ => []
  | n + 1, l => packByte (l.take 8) :: ubit2pbit n (l.drop 8)

/-- libosmocore `osmo_pbit2ubit` -/
def pbit2ubit (bs : List Byte) : List Bool :=
  bs.flatMap fun b => (List.range 8).map fun i => b.getLsbD (7 - i)

/-! ### full rate -/

/-- trau_rtp_conv.c:41-52 `gsm_fr_map` -/
def gsmFrMap : List Nat := [
  6, 6, 5, 5, 4, 4, 3, 3,
  7, 2, 2, 6, 3, 3, 3, 3,
  3, 3, 3, 3, 3, 3, 3, 3,
  3, 7, 2, 2, 6, 3, 3, 3,
  3, 3, 3, 3, 3, 3, 3, 3,
  3, 3, 7, 2, 2, 6, 3, 3,
  3, 3, 3, 3, 3, 3, 3, 3,
  3, 3, 3, 7, 2, 2, 6, 3,
  3, 3, 3, 3, 3, 3, 3, 3,
  3, 3, 3, 3]

/-- trau_rtp_conv.c:175-186 and 663-674: the index computation of the `while` loop, `n + 1` iterations left
(the last one breaks before the update); result: the pairs `(j, k+o)` -/
def frLoop : Nat → Nat → Nat → Nat → Nat → M (List (Nat × Nat))
  | 0, j, k, _, o => .ok [(j, k + o)]
  | n + 1, j, k, l, o => do
    let rest ←
      if k = 0 then do
        let w ← rd gsmFrMap l
        let w' ← rd gsmFrMap (l + 1)
        frLoop n (j + 1) (w' - 1) (l + 1) (o + w)
      else frLoop n (j + 1) (k - 1) l o
    .ok ((j, k + o) :: rest)

/-- trau_rtp_conv.c:170-186: all 260 iterations, starting with `j = 4`, `k = gsm_fr_map[0]-1` -/
def frPairs : M (List (Nat × Nat)) := do
  let w ← rd gsmFrMap 0
  frLoop 259 4 (w - 1) 0 0

/-- `x |= v` on octet `i` of the buffer -/
def orByte (out : List Byte) (i : Nat) (v : Byte) : M (List Byte) := do
  let x ← rd out i
  wr out i (x ||| v)

/-- `x &= v` on octet `i` of the buffer -/
def andByte (out : List Byte) (i : Nat) (v : Byte) : M (List Byte) := do
  let x ← rd out i
  wr out i (x &&& v)

/-- trau_rtp_conv.c:120-131 `make_fr_bfi_nonsid(out + o)`, `n` subframes left, `s` = `subf_bytes` -/
def makeFrBfiNonsid (out : List Byte) (s : Nat) : Nat → M (List Byte)
  | 0 => .ok out
  | n + 1 => do
    let out ← orByte out (s + 2) 0x24
    let out ← orByte out (s + 3) 0x90
    makeFrBfiNonsid out (s + 7) n

/-- trau_rtp_conv.c:153-160 and 475-482: the TW-TS-001 header octet -/
def twts001Hdr (tf : Frame) : M Byte := do
  let dtxd ← rd tf.c 16
  let bfi ← rd tf.c 11
  let taf ← rd tf.c 14
  .ok ((((0xE0 : Byte) ||| (if dtxd then 0x08 else 0)) ||| (if bfi then 0x02 else 0)) ||| (if taf then 0x01 else 0))

/-- trau_rtp_conv.c:138-219 `trau2rtp_fr`: return value and output buffer -/
def trau2rtpFr (K : Codec) (out : List Byte) (tf : Frame) (tw : Bool) : M (Int × List Byte) :=
  let req := if tw then FR_BYTES + 1 else FR_BYTES
  let o := if tw then 1 else 0
  if tf.type ≠ .fr then .ok (-EINVAL, out)
  else if out.length < req then .ok (-ENOSPC, out)
  else do
    let out ← if tw then do
        let h ← twts001Hdr tf
        wr out 0 h
      else .ok out
    let bfi ← rd tf.c 11
    if bfi ∧ ¬ tw then .ok (0, out)
    else do
      let out ← wr out o 0xd0
      let out ← blit out (o + 1) (List.replicate (FR_BYTES - 1) 0)
      let ps ← frPairs
      let out ← orBits out o tf.d ps
      let c12 ← rd tf.c 12
      let c13 ← rd tf.c 13
      let pl ← slice out o FR_BYTES
      if bfi ∧ ¬ c12 ∧ ¬ c13 ∧ K.frIsAnySid pl then do
        let out ← makeFrBfiNonsid out (o + 5) 4
        .ok ((req : Int), out)
      else .ok ((req : Int), out)

/-- the TW-TS-001 header of an RTP payload (trau_rtp_conv.c:575-581, 831-837): DTXd, BFI, TAF and the rest -/
def stripTwts001 (data : List Byte) : Bool × Bool × Bool × List Byte :=
  match data with
  | h :: rest =>
    if h &&& 0xF0 = 0xE0 then (h &&& 0x08 != 0, h &&& 0x02 != 0, h &&& 0x01 != 0, rest)
    else (false, false, false, data)
  | [] => (false, false, false, [])

/-- C1 .. C5 -/
def setC5 (c : List Bool) (l : List Bool) : M (List Bool) := blit c 0 l

/-- trau_rtp_conv.c:568-677 `rtp2trau_fr` -/
def rtp2trauFr (K : Codec) (tf : Frame) (data : List Byte) : M (Int × Frame) := do
  let (dtxd, bfi, taf, data) := stripTwts001 data
  -- 584-594
  let h ← if data.length = FR_BYTES then rd data 0 else .ok 0xD0
  if data.length ≠ FR_BYTES ∧ data.length ≠ 0 then .ok (-EINVAL, tf)
  else if h &&& 0xF0 ≠ 0xD0 then .ok (-EINVAL, tf)
  else do
    let nodata := data.length = 0
    let bfi := bfi || nodata
    let c ← setC5 tf.c (match tf.dir with
      | .ul => [false, false, false, true, false]
      | .dl => if nodata then [false, true, true, true, false] else [true, true, true, false, false])
    let c ← blit c 5 (List.replicate 6 false)
    let c ← match tf.dir with
      | .ul => do
        let c ← wr c 11 bfi
        let sidc := if nodata then 0 else K.frSidClassify data
        let c ← wr c 12 (sidc / 2 % 2 == 1)
        let c ← wr c 13 (sidc % 2 == 1)
        let c ← wr c 14 taf
        let c ← wr c 15 true
        wr c 16 dtxd
      | .dl => do
        let c ← blit c 11 (List.replicate 4 true)
        let c ← wr c 15 (!(!nodata && K.frCheckSid data))
        wr c 16 true
    let c ← blit c 17 (List.replicate 4 true)
    let t ← blit tf.t 0 (List.replicate 4 true)
    if nodata then do
      let d ← blit tf.d 0 (List.replicate 260 true)
      .ok (0, { tf with type := .fr, c := c, t := t, d := d })
    else do
      let ps ← frPairs
      let d ← getPbits data tf.d ps
      .ok (0, { tf with type := .fr, c := c, t := t, d := d })

/-! ### enhanced full rate -/

/-- trau_rtp_conv.c:440-451 `make_efr_bfi_nonsid(out + o)` -/
def makeEfrBfiNonsid (out : List Byte) (o : Nat) : M (List Byte) := do
  let out ← andByte out (o + 6) 0x99
  let out ← andByte out (o + 12) 0xE6
  let out ← andByte out (o + 13) 0x7F
  let out ← andByte out (o + 19) 0x33
  andByte out (o + 25) 0xCC

/-- one block of trau_rtp_conv.c:491-525: copy the bits, then check the parity against the 3 D bits at `c`
(`osmo_crc8gen_check_bits` ≠ 0 gives `none`: goto bad_frame) -/
def efrBlockOut (out : List Byte) (o : Nat) (d : List Bool) (ps : List (Nat × Nat)) (par : M (List Bool)) (c : Nat) :
    M (List Byte × Bool) := do
  let out ← orBits out o d ps
  let l ← par
  let x ← slice d c 3
  .ok (out, x == crc3 l)

/-- trau_rtp_conv.c:491-525: the five blocks; `false`: goto bad_frame -/
def efrOut (out : List Byte) (o : Nat) (d : List Bool) : M (List Byte × Bool) := do
  let (out, ok) ← efrBlockOut out o d (span 1 4 38) (parity1 d) 39
  if !ok then .ok (out, false) else
  let (out, ok) ← efrBlockOut out o d (span 42 42 53) (parity2 d) 95
  if !ok then .ok (out, false) else
  let (out, ok) ← efrBlockOut out o d (span 98 95 50) (parity3 d) 148
  if !ok then .ok (out, false) else
  let (out, ok) ← efrBlockOut out o d (span 151 145 53) (parity4 d) 204
  if !ok then .ok (out, false) else
  efrBlockOut out o d (span 207 198 50) (parity5 d) 257

/-- trau_rtp_conv.c:458-565 `trau2rtp_efr` -/
def trau2rtpEfr (K : Codec) (out : List Byte) (tf : Frame) (tw : Bool) : M (Int × List Byte) :=
  let req := if tw then EFR_BYTES + 1 else EFR_BYTES
  let o := if tw then 1 else 0
  if out.length < req then .ok (-ENOSPC, out)
  else if tf.type ≠ .efr then .ok (-EINVAL, out)
  else do
    let out ← if tw then do
        let h ← twts001Hdr tf
        wr out 0 h
      else .ok out
    let bfi ← rd tf.c 11
    if bfi ∧ ¬ tw then .ok (0, out)
    else do
      let out ← wr out o 0xc0
      let out ← blit out (o + 1) (List.replicate (EFR_BYTES - 1) 0)
      let (out, ok) ← efrOut out o tf.d
      if ok then do
        let c12 ← rd tf.c 12
        let c13 ← rd tf.c 13
        let pl ← slice out o EFR_BYTES
        if bfi ∧ ¬ c12 ∧ ¬ c13 ∧ K.efrIsAnySid pl then do
          let out ← makeEfrBfiNonsid out o
          .ok ((req : Int), out)
        else .ok ((req : Int), out)
      else if tw then do
        let out ← orByte out 0 0x06
        .ok (1, out)
      else .ok (0, out)

/-- one block of trau_rtp_conv.c:907-932: copy bits, compute the parity, store it at `c` -/
def efrBlockIn (data : List Byte) (d : List Bool) (ps : List (Nat × Nat)) (par : List Bool → M (List Bool)) (c : Nat) :
    M (List Bool) := do
  let d ← getPbits data d ps
  let l ← par d
  blit d c (crc3 l)

/-- trau_rtp_conv.c:907-932 -/
def efrIn (data : List Byte) (d : List Bool) : M (List Bool) := do
  let d ← wr d 0 true
  let d ← efrBlockIn data d (span 1 4 38) parity1 39
  let d ← efrBlockIn data d (span 42 42 53) parity2 95
  let d ← efrBlockIn data d (span 98 95 50) parity3 148
  let d ← efrBlockIn data d (span 151 145 53) parity4 204
  efrBlockIn data d (span 207 198 50) parity5 257

/-- trau_rtp_conv.c:823-935 `rtp2trau_efr` -/
def rtp2trauEfr (K : Codec) (tf : Frame) (data : List Byte) : M (Int × Frame) := do
  let (dtxd, bfi, taf, data) := stripTwts001 data
  let h ← if data.length = EFR_BYTES then rd data 0 else .ok 0xC0
  if data.length ≠ EFR_BYTES ∧ data.length ≠ 0 then .ok (-EINVAL, tf)
  else if h &&& 0xF0 ≠ 0xC0 then .ok (-EINVAL, tf)
  else do
    let nodata := data.length = 0
    let bfi := bfi || nodata
    let c ← setC5 tf.c (if nodata ∧ tf.dir = .dl then [false, true, true, true, false]
      else [true, true, false, true, false])
    let c ← blit c 5 (List.replicate 6 false)
    let c ← match tf.dir with
      | .ul => do
        let c ← wr c 11 bfi
        let sidc := if nodata then 0 else K.efrSidClassify data
        let c ← wr c 12 (sidc / 2 % 2 == 1)
        let c ← wr c 13 (sidc % 2 == 1)
        let c ← wr c 14 taf
        let c ← wr c 15 true
        wr c 16 dtxd
      | .dl => do
        let c ← wr c 11 true
        let c ← blit c 12 (List.replicate 3 true)
        let c ← wr c 15 (!(!nodata && K.efrCheckSid data))
        wr c 16 true
    let c ← blit c 17 (List.replicate 4 true)
    let t ← blit tf.t 0 (List.replicate 4 true)
    if nodata then do
      let d ← blit tf.d 0 (List.replicate 260 true)
      .ok (0, { tf with type := .efr, c := c, t := t, d := d })
    else do
      let d ← efrIn data tf.d
      .ok (0, { tf with type := .efr, c := c, t := t, d := d })

/-! ### half rate -/

/-- trau_rtp_conv.c:230-238 `twts002_hr16_set_extra_flags` -/
def hr16Flags (out : List Byte) (tf : Frame) : M (List Byte) := do
  let dtxd ← rd tf.c 16
  let out ← if dtxd then orByte out 0 0x08 else .ok out
  let out ← if tf.ufi then orByte out 0 0x02 else .ok out
  let taf ← rd tf.c 14
  if taf then orByte out 0 0x01 else .ok out

/-- trau_rtp_conv.c:308-314: `bad_frame` of `trau2rtp_hr16` -/
def hr16Bad (out : List Byte) (tf : Frame) (tw : Bool) : M (Int × List Byte) :=
  if tw then do
    let out ← wr out 0 0x70
    let out ← hr16Flags out tf
    .ok (1, out)
  else .ok (0, out)

/-- trau_rtp_conv.c:249-315 `trau2rtp_hr16` -/
def trau2rtpHr16 (K : Codec) (out : List Byte) (tf : Frame) (tw : Bool) : M (Int × List Byte) :=
  if tf.type ≠ .hr then .ok (-EINVAL, out)
  else if out.length < HR_RFC5993 then .ok (-ENOSPC, out)
  else do
    let p ← slice tf.d 0 44
    if tf.crc ≠ crc3 p then hr16Bad out tf tw
    else do
      let c12 ← rd tf.c 12
      let c13 ← rd tf.c 13
      let bfi ← rd tf.c 11
      let sidc := 2 * c12.toNat + c13.toNat
      if sidc > 2 then hr16Bad out tf tw
      else if !tw ∧ (bfi ∨ sidc = 1) then hr16Bad out tf tw
      else do
        let sidc := if bfi ∧ sidc = 2 then 1 else sidc
        let out ← wr out 0 (BitVec.ofNat 8 (sidc * 16))
        let out ← if tw then do
            let out ← if bfi ∧ sidc = 0 then wr out 0 0x60 else .ok out
            hr16Flags out tf
          else .ok out
        if tw ∧ sidc = 1 then .ok (1, out)
        else do
          let dd ← slice tf.d 0 112
          let out ← blit out 1 (ubit2pbit HR_BYTES dd)
          let out ← if !tw ∧ sidc = 2 then do
              let pl ← slice out 1 HR_BYTES
              blit out 1 (K.hrSidReset pl)
            else .ok out
          .ok ((HR_RFC5993 : Int), out)

/-- trau_rtp_conv.c:330-336 `twts002_hr8_set_extra_flags` -/
def hr8Flags (out : List Byte) (tf : Frame) : M (List Byte) := do
  let dtxd ← rd tf.c 8
  let out ← if dtxd then orByte out 0 0x08 else .ok out
  let ufi ← rd tf.xc 4
  if ufi then orByte out 0 0x02 else .ok out

/-- trau_rtp_conv.c:410-417: `bad_frame` of `trau2rtp_hr8` -/
def hr8Bad (out : List Byte) (tf : Frame) (tw : Bool) : M (Int × List Byte) :=
  if tw then do
    let out ← wr out 0 0x70
    let out ← hr8Flags out tf
    .ok (1, out)
  else .ok (0, out)

/-- trau_rtp_conv.c:345-419 `trau2rtp_hr8` (317-328 `hr8_xc_bits_good_parity`: odd number of ones) -/
def trau2rtpHr8 (K : Codec) (out : List Byte) (tf : Frame) (tw : Bool) : M (Int × List Byte) :=
  if tf.type ≠ .speech8 then .ok (-EINVAL, out)
  else if out.length < HR_RFC5993 then .ok (-ENOSPC, out)
  else do
    let x ← slice tf.xc 0 6
    let p ← slice tf.d 0 44
    if (x.foldl (fun n b => n + b.toNat) 0) % 2 ≠ 1 ∨ tf.crc ≠ crc3 p then hr8Bad out tf tw
    else do
      let xc4 ← rd tf.xc 3
      let dd ← slice tf.d 0 112
      match x.take 4 with
      | [false, false, false, false] => do
        let out ← wr out 0 0x00
        let out ← if tw then hr8Flags out tf else .ok out
        let out ← blit out 1 (ubit2pbit HR_BYTES dd)
        .ok ((HR_RFC5993 : Int), out)
      | [false, false, false, true] => do
        let out ← wr out 0 0x20
        let out ← if tw then hr8Flags out tf else .ok out
        let out ← blit out 1 (ubit2pbit HR_BYTES dd)
        let out ← if !tw then do
            let pl ← slice out 1 HR_BYTES
            blit out 1 (K.hrSidReset pl)
          else .ok out
        .ok ((HR_RFC5993 : Int), out)
      | [false, true, false, _] =>
        if !tw then .ok (0, out)
        else do
          let out ← wr out 0 0x10
          let out ← hr8Flags out tf
          let out ← if xc4 then orByte out 0 0x01 else .ok out
          .ok (1, out)
      | [false, true, true, _] =>
        if !tw then .ok (0, out)
        else do
          let out ← wr out 0 0x60
          let out ← hr8Flags out tf
          let out ← if xc4 then orByte out 0 0x01 else .ok out
          let out ← blit out 1 (ubit2pbit HR_BYTES dd)
          .ok ((HR_RFC5993 : Int), out)
      | _ => hr8Bad out tf tw

/-- trau_rtp_conv.c:682-694, 762-774: length check and removal of the RFC 5993 header; `none`: -EINVAL -/
def hrPayload (data : List Byte) : Option (List Byte) :=
  if data.length = HR_BYTES then some data
  else if data.length = HR_RFC5993 then some (data.drop 1)
  else if data.length = 0 then some []
  else .none

/-- trau_rtp_conv.c:749-754, 812-817: D bits -/
def hrD (d : List Bool) (data : List Byte) : M (List Bool) :=
  if data.length ≠ 0 then do
    let x ← slice data 0 HR_BYTES
    blit d 0 (pbit2ubit x)
  else blit d 0 (List.replicate (HR_BYTES * 8) false)

/-- trau_rtp_conv.c:679-757 `rtp2trau_hr16`; note that C15 (`c_bits[14]`) is not written on the up-link -/
def rtp2trauHr16 (K : Codec) (tf : Frame) (data : List Byte) : M (Int × Frame) :=
  match hrPayload data with
  | .none => .ok (-EINVAL, tf)
  | some data => do
    let c ← setC5 tf.c (match tf.dir with
      | .ul => [false, false, false, true, true]
      | .dl => [true, true, true, false, true])
    let c ← blit c 5 (List.replicate 6 false)
    let c ← match tf.dir with
      | .ul => do
        let c ← wr c 11 (data.length == 0)
        let c ← wr c 12 (K.hrCheckSid data)
        let c ← wr c 13 false
        let c ← wr c 15 false
        wr c 16 false
      | .dl => do
        let c ← blit c 11 (List.replicate 4 true)
        let c ← wr c 15 (!K.hrCheckSid data)
        wr c 16 true
    let c ← blit c 17 (List.replicate 4 true)
    let t ← blit tf.t 0 (List.replicate 4 true)
    let d ← hrD tf.d data
    let p ← slice d 0 44
    let crc ← blit tf.crc 0 (crc3 p)
    .ok (0, { tf with type := .hr, c := c, t := t, d := d, crc := crc, ufi := (tf.dir == .dl) })

/-- trau_rtp_conv.c:759-820 `rtp2trau_hr8` -/
def rtp2trauHr8 (K : Codec) (tf : Frame) (data : List Byte) : M (Int × Frame) :=
  match hrPayload data with
  | .none => .ok (-EINVAL, tf)
  | some data =>
    if tf.dir ≠ .dl then .ok (-ENOTSUP, tf)
    else do
      let c ← setC5 tf.c [false, false, false, true, false]
      let c ← blit c 5 (List.replicate 4 true)
      let xc ← blit tf.xc 0 (if K.hrCheckSid data then [false, false, false, true, false, false]
        else [false, false, false, false, false, true])
      let t ← blit tf.t 0 (List.replicate 2 true)
      let d ← hrD tf.d data
      let p ← slice d 0 44
      let crc ← blit tf.crc 0 (crc3 p)
      .ok (0, { tf with type := .speech8, c := c, t := t, d := d, crc := crc, xc := xc })

/-! ### circuit switched data -/

/-- trau_rtp_conv.c:1086-1091: `n` groups left, reading at `i` -/
def v110Groups (d : List Bool) (i : Nat) : Nat → M (List Bool)
  | 0 => .ok []
  | n + 1 => do
    let x ← slice d i 7
    let r ← v110Groups d (i + 7) n
    .ok (true :: x ++ r)

/-- trau_rtp_conv.c:1078-1092 `trau2v110_bits(…, d_bits + i)`: the 80 bits -/
def trau2v110Bits (d : List Bool) (i : Nat) : M (List Bool) := do
  let r ← v110Groups d i 9
  .ok (List.replicate 8 false ++ r)

/-- trau_rtp_conv.c:1095-1102 `trau2v110_ir8(out + o, d_bits + i)` -/
def trau2v110Ir8 (out : List Byte) (o : Nat) (d : List Bool) (i : Nat) : M (List Byte) := do
  let b ← trau2v110Bits d i
  let x ← Ra2.pack8 b 80
  blit out o x

/-- trau_rtp_conv.c:1105-1112 `trau2v110_ir16(out + o, d_bits + i)` -/
def trau2v110Ir16 (out : List Byte) (o : Nat) (d : List Bool) (i : Nat) : M (List Byte) := do
  let b ← trau2v110Bits d i
  let x ← Ra2.pack16 b 40
  blit out o x

/-- trau_rtp_conv.c:1114-1136 `trau2rtp_data_fr` -/
def trau2rtpDataFr (out : List Byte) (tf : Frame) : M (Int × List Byte) :=
  if tf.type ≠ .data then .ok (-EINVAL, out)
  else if out.length < PLEN then .ok (-ENOSPC, out)
  else do
    let c6 ← rd tf.c 5
    let out ← if c6 then do
        let out ← trau2v110Ir16 out 0 tf.d 0
        let out ← trau2v110Ir16 out 40 tf.d 63
        let out ← trau2v110Ir16 out 80 tf.d (63 * 2)
        trau2v110Ir16 out 120 tf.d (63 * 3)
      else do
        let out ← trau2v110Ir8 out 0 tf.d 0
        trau2v110Ir8 out 80 tf.d (63 * 2)
    .ok ((PLEN : Int), out)

/-- trau_rtp_conv.c:1138-1155 `trau2rtp_data_hr16` and 1157-1170 `trau2rtp_data_hr8` (`ty`: the type checked) -/
def trau2rtpDataHr (ty : FT) (out : List Byte) (tf : Frame) : M (Int × List Byte) :=
  if tf.type ≠ ty then .ok (-EINVAL, out)
  else if out.length < PLEN then .ok (-ENOSPC, out)
  else do
    let out ← trau2v110Ir8 out 0 tf.d 0
    let out ← trau2v110Ir8 out 80 tf.d 63
    .ok ((PLEN : Int), out)

/-- trau_rtp_conv.c:1172-1187 `trau2rtp_edata` -/
def trau2rtpEdata (out : List Byte) (tf : Frame) : M (Int × List Byte) :=
  if tf.type ≠ .edata then .ok (-EINVAL, out)
  else if out.length < PLEN then .ok (-ENOSPC, out)
  else do
    let c6 ← rd tf.c 5
    let x ← RaaPrime.toAtrauRa2 tf.m tf.d true c6
    let out ← blit out 0 x
    .ok ((PLEN : Int), out)

/-- trau_rtp_conv.c:1218-1231 `check_v110_align(ra_bits + i)` -/
def checkV110Align (ra : List Bool) (i : Nat) : M Bool := do
  let z ← slice ra i 8
  if z.any id then .ok false
  else checkBits ra ((List.range 9).map fun k => (i + 8 * (k + 1), true))

/-- trau_rtp_conv.c:1233-1244 `v110_to_63bits(d_bits + o, ra_bits + i)`, `n` groups left -/
def v110To63 (d : List Bool) (o : Nat) (ra : List Bool) (i : Nat) : Nat → M (List Bool)
  | 0 => .ok d
  | n + 1 => do
    let d ← memcpy d o ra (i + 9) 7
    v110To63 d (o + 7) ra (i + 8) n

/-- `check_v110_align` for each of the given offsets, in order (trau_rtp_conv.c:1259-1262, 1287-1294) -/
def allAligned (ra : List Bool) : List Nat → M Bool
  | [] => .ok true
  | i :: is => do
    let ok ← checkV110Align ra i
    if ok then allAligned ra is else .ok false

/-- trau_rtp_conv.c:1247-1272 `rtp2trau_data_ir8`: the D bits afterwards -/
def dataIr8 (d : List Bool) (data : List Byte) (second : Nat) : M (List Bool) := do
  let ra := Ra2.unpack8 data
  let ok ← if data.length ≠ PLEN then .ok false else allAligned ra [0, 80]
  if ok then do
    let d ← v110To63 d 0 ra 0 9
    v110To63 d second ra 80 9
  else do
    let d ← blit d 0 (List.replicate 63 true)
    blit d second (List.replicate 63 true)

/-- trau_rtp_conv.c:1275-1305 `rtp2trau_data_ir16` -/
def dataIr16 (d : List Bool) (data : List Byte) : M (List Bool) := do
  let ra := Ra2.unpack16 data
  let ok ← if data.length ≠ PLEN then .ok false else allAligned ra [0, 80, 80 * 2, 80 * 3]
  if ok then do
    let d ← v110To63 d 0 ra 0 9
    let d ← v110To63 d 63 ra 80 9
    let d ← v110To63 d (63 * 2) ra (80 * 2) 9
    v110To63 d (63 * 3) ra (80 * 3) 9
  else blit d 0 (List.replicate (63 * 4) true)

/-- trau_rtp_conv.c:1307-1343 `rtp2trau_data_fr` -/
def rtp2trauDataFr (tf : Frame) (data : List Byte) (ir16 : Bool) : M (Int × Frame) := do
  let c ← setC5 tf.c (match tf.dir with
    | .ul => [false, true, false, false, false]
    | .dl => [true, false, true, true, false])
  let c ← wr c 5 ir16
  let d ← if ir16 then dataIr16 tf.d data
    else do
      let d ← dataIr8 tf.d data (63 * 2)
      let d ← blit d 63 (List.replicate 63 true)
      blit d (63 * 3) (List.replicate 63 true)
  let c ← blit c 6 (List.replicate 9 true)
  .ok (0, { tf with type := .data, c := c, d := d })

/-- trau_rtp_conv.c:1345-1377 `rtp2trau_data_hr16` -/
def rtp2trauDataHr16 (tf : Frame) (data : List Byte) : M (Int × Frame) := do
  let c ← setC5 tf.c (match tf.dir with
    | .ul => [false, true, false, false, true]
    | .dl => [true, false, true, true, true])
  let c ← wr c 5 false
  let d ← dataIr8 tf.d data 63
  let c ← blit c 6 (List.replicate 9 true)
  .ok (0, { tf with type := .dataHr, c := c, d := d })

/-- trau_rtp_conv.c:1379-1394 `rtp2trau_data_hr8` -/
def rtp2trauDataHr8 (tf : Frame) (data : List Byte) : M (Int × Frame) := do
  let c ← setC5 tf.c [false, false, true, true, true]
  let d ← dataIr8 tf.d data 63
  .ok (0, { tf with type := .data8, c := c, d := d })

/-- trau_rtp_conv.c:1409-1441 `rtp2trau_edata` -/
def rtp2trauEdata (tf : Frame) (data : List Byte) : M (Int × Frame) := do
  let c ← blit tf.c 0 (List.replicate 13 true)
  let c ← wr c 5 false
  let r ← (if data.length = PLEN then RaaPrime.fromAtrauRa2 data else .ok .none)
  match r with
  | some a => do
    let c ← wr c 6 (!a.c4)
    let m ← blit tf.m 0 a.m
    let d ← blit tf.d 0 a.d
    .ok (0, { tf with type := .edata, c := c, m := m, d := d })
  | .none => do
    let m ← blit tf.m 0 (List.replicate 2 true)
    let d ← blit tf.d 0 (List.replicate 288 true)
    let c ← wr c 6 true
    .ok (0, { tf with type := .edata, c := c, m := m, d := d })

/-! ### API -/

/-- trau_rtp_conv.c:1459-1482 `osmo_trau2rtp(out, out_len, tf, st)`: return value and the buffer -/
def trau2rtp (K : Codec) (st : State) (out : List Byte) (tf : Frame) : M (Int × List Byte) :=
  match tf.type with
  | .fr => trau2rtpFr K out tf st.twts001
  | .efr => trau2rtpEfr K out tf st.twts001
  | .hr => trau2rtpHr16 K out tf st.twts002
  | .data => trau2rtpDataFr out tf
  | .dataHr => trau2rtpDataHr .dataHr out tf
  | .edata => trau2rtpEdata out tf
  | .speech8 => trau2rtpHr8 K out tf st.twts002
  | .data8 => trau2rtpDataHr .data8 out tf
  | _ => .ok (-EINVAL, out)

/-- trau_rtp_conv.c:1484-1507 `osmo_rtp2trau(tf, rtp, rtp_len, st)`: return value and the frame -/
def rtp2trau (K : Codec) (st : State) (tf : Frame) (data : List Byte) : M (Int × Frame) :=
  match st.type with
  | .fr => rtp2trauFr K tf data
  | .efr => rtp2trauEfr K tf data
  | .hr => rtp2trauHr16 K tf data
  | .data => rtp2trauDataFr tf data st.interm16k
  | .dataHr => rtp2trauDataHr16 tf data
  | .edata => rtp2trauEdata tf data
  | .speech8 => rtp2trauHr8 K tf data
  | .data8 => rtp2trauDataHr8 tf data
  | _ => .ok (-EINVAL, tf)

end Verif.RtpConv
