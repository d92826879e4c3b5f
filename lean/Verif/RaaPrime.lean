import Verif.Ra2
/-!
# Model of `src/trau/raa_prime_encode.c` and `src/trau/raa_prime_decode.c` (RAA')

Buffers written by the C code are `List (Option Bool)` (`none` = not written yet), pointers are
explicit offsets.
-/
namespace Verif.RaaPrime

/-- raa_prime_encode.c:30 `MAX_ZSEQ_CNT` -/
def MAX_ZSEQ_CNT : Nat := 4
/-- include/osmocom/trau/csd_raa_prime.h `OSMO_ATRAU_FRAME_BITS` -/
def ATRAU_BITS : Nat := 320

/-- raa_prime_encode.c:32-41 `is_z_seq`: the `for` loop, `n` iterations left, reading at `off`. -/
def isZSeqFrom (d : List Bool) (off : Nat) : Nat → M Bool
  | 0 => .ok true
  | n + 1 => do
    let b ← rd d off
    if b then .ok false else isZSeqFrom d (off + 1) n

/-- raa_prime_encode.c:32-41 `is_z_seq(d_bits + off)` -/
def isZSeq (d : List Bool) (off : Nat) : M Bool := isZSeqFrom d off 8

/-- raa_prime_encode.c:43-56 `find_z_seqs(d_bits + base, zseq_pos)`; `pos` is the part of
`zseq_pos[]` filled so far, an entry beyond `MAX_ZSEQ_CNT` is an out-of-bounds write. -/
def findZSeqs (d : List Bool) (base idx : Nat) (pos : List Nat) : M (List Nat) :=
  if idx ≤ 28 then
    match isZSeq d (base + idx) with
    | .error e => .error e
    | .ok true =>
      if pos.length < MAX_ZSEQ_CNT then findZSeqs d base (idx + 8) (pos ++ [idx])
      else .error .oob
    | .ok false => findZSeqs d base (idx + 1) pos
  else .ok pos
termination_by 29 - idx

/-- raa_prime_encode.c:58-70 `encode_zsp`: the 8 bits written -/
def zsp (pos0 : Nat) (isFinal : Bool) : List Bool :=
  let pos1 := (pos0 + 1) % 256
  [true, isFinal, (pos1 >>> 4) % 2 == 1, (pos1 >>> 3) % 2 == 1, (pos1 >>> 2) % 2 == 1,
   (pos1 >>> 1) % 2 == 1, (pos1 >>> 0) % 2 == 1, true]

/-- raa_prime_encode.c:88-100: loop over the Z sequences followed by the tail copy.
`o` = `out_bits` pointer, `base` = `d_bits` pointer, `inPos` = `in_pos`, `zs` = remaining
positions. -/
def packLoop (out : List (Option Bool)) (o : Nat) (d : List Bool) (base inPos : Nat) :
    List Nat → M (List (Option Bool))
  | [] => do
    cassert (inPos ≤ 36)
    let numd := 36 - inPos
    let src ← slice d (base + inPos) numd
    blit out o (src.map some)
  | z :: zs => do
    let out ← blit out o ((zsp z zs.isEmpty).map some)
    cassert (z ≥ inPos)
    let numd := z - inPos
    let src ← slice d (base + inPos) numd
    let out ← blit out (o + 8) (src.map some)
    packLoop out (o + 8 + numd) d base (inPos + (numd + 8)) zs

/-- raa_prime_encode.c:72-101 `atrau_pack_subframe(out_bits + o, d_bits + base)` -/
def packSubframe (out : List (Option Bool)) (o : Nat) (d : List Bool) (base : Nat) :
    M (List (Option Bool)) := do
  let zs ← findZSeqs d base 0 []
  if zs.length = 0 then
    let out ← blit out o [some true]
    let src ← slice d base 36
    blit out (o + 1) (src.map some)
  else
    let out ← blit out o [some false]
    packLoop out (o + 1) d base 0 zs

/-- raa_prime_encode.c:123-127: the `subf` loop, `n` subframes left -/
def packSubframes (out : List (Option Bool)) (o : Nat) (d : List Bool) (base : Nat) :
    Nat → M (List (Option Bool))
  | 0 => .ok out
  | n + 1 => do
    let out ← packSubframe out o d base
    packSubframes out (o + 37) d (base + 36) n

/-- raa_prime_encode.c:103-128 `osmo_csd144_to_atrau_bits` writing to the buffer `out` -/
def toAtrauBitsBuf (out : List (Option Bool)) (m d : List Bool) (c4 c5 : Bool) :
    M (List (Option Bool)) := do
  let out ← blit out 0 (List.replicate 16 (some false))
  let out ← blit out 16 [some true]
  let out ← blit out 17 [some false]
  let out ← blit out 18 [some true]
  let out ← blit out 19 [some true]
  let out ← blit out 20 [some c4]
  let out ← blit out 21 [some c5]
  let m0 ← rd m 0
  let out ← blit out 22 [some m0]
  let m1 ← rd m 1
  let out ← blit out 23 [some m1]
  packSubframes out 24 d 0 8

/-- read a completely written buffer; an unwritten element is `Fault.uninit` -/
def collect {α : Type} : List (Option α) → M (List α)
  | [] => .ok []
  | none :: _ => .error .uninit
  | some b :: r => do let r ← collect r; .ok (b :: r)

/-- raa_prime_encode.c:103-128 with a caller-provided uninitialised buffer of
`OSMO_ATRAU_FRAME_BITS` -/
def toAtrauBits (m d : List Bool) (c4 c5 : Bool) : M (List Bool) := do
  let out ← toAtrauBitsBuf (List.replicate ATRAU_BITS none) m d c4 c5
  collect out

/-- raa_prime_encode.c:130-139 `osmo_csd144_to_atrau_ra2` -/
def toAtrauRa2 (m d : List Bool) (c4 c5 : Bool) : M (List Byte) := do
  let bits ← toAtrauBits m d c4 c5
  Ra2.pack16 bits 160

/-! ## Decoder -/

/-- raa_prime_decode.c:37-40: the position loop (`n` iterations left) -/
def zspPos (a : List Bool) (off : Nat) (pos1 : Nat) : Nat → M Nat
  | 0 => .ok pos1
  | n + 1 => do
    let b ← rd a off
    zspPos a (off + 1) (2 * pos1 + b.toNat) n

/-- raa_prime_decode.c:29-45 `decode_zsp(atrau_bits + o, pos)`: `none` = -EINVAL -/
def decodeZsp (a : List Bool) (o : Nat) : M (Option Nat) := do
  let g0 ← rd a o
  if !g0 then .ok none
  else
    let g7 ← rd a (o + 7)
    if !g7 then .ok none
    else
      let pos1 ← zspPos a (o + 2) 0 5
      if pos1 < 1 ∨ pos1 > 29 then .ok none else .ok (some (pos1 - 1))

/-- raa_prime_decode.c:59-79: the `for(;;)` loop and the tail copy; `o` = `atrau_bits` (behind Zi),
`base` = `d_bits`; `none` = -EINVAL (buffer contents then unspecified).  `fuel` bounds the
iterations; running out of it is reported as a fault, and shown never to happen. -/
def decodeLoop (dst : List (Option Bool)) (base : Nat) (a : List Bool) (o pos : Nat) :
    Nat → M (Option (List (Option Bool)))
  | 0 => .error .assert
  | fuel + 1 => do
    if pos > 28 then .ok none
    else
      match ← decodeZsp a (o + pos) with
      | none => .ok none
      | some zPos =>
        let cbit ← rd a (o + pos + 1)
        if zPos < pos then .ok none
        else
          let numd := zPos - pos
          let src ← slice a (o + 8 + pos) numd
          let dst ← blit dst (base + pos) (src.map some)
          let dst ← blit dst (base + pos + numd) (List.replicate 8 (some false))
          let pos := pos + (numd + 8)
          if cbit then
            cassert (pos ≤ 36)
            let numd := 36 - pos
            let src ← slice a (o + pos) numd
            let dst ← blit dst (base + pos) (src.map some)
            .ok (some dst)
          else decodeLoop dst base a o pos fuel

/-- raa_prime_decode.c:47-80 `decode_subframe(d_bits + base, atrau_bits + o)` -/
def decodeSubframe (dst : List (Option Bool)) (base : Nat) (a : List Bool) (o : Nat) :
    M (Option (List (Option Bool))) := do
  let zi ← rd a o
  if zi then
    let src ← slice a (o + 1) 36
    let dst ← blit dst base (src.map some)
    .ok (some dst)
  else decodeLoop dst base a (o + 1) 0 6

/-- raa_prime_decode.c:102-108: loop over subframes -/
def decodeSubframes (dst : List (Option Bool)) (base : Nat) (a : List Bool) (o : Nat) :
    Nat → M (Option (List (Option Bool)))
  | 0 => .ok (some dst)
  | n + 1 => do
    match ← decodeSubframe dst base a o with
    | none => .ok none
    | some dst => decodeSubframes dst (base + 36) a (o + 37) n

/-- raa_prime_decode.c:86-88 `header_bits` -/
def headerBits : List Bool :=
  List.replicate 16 false ++ [true, false, true, true]

/-- What `osmo_csd144_from_atrau_bits` hands back when it returns 0. -/
structure Csd144 where
  m : List Bool
  d : List Bool
  c4 : Bool
  c5 : Bool
  deriving DecidableEq, Repr

/-- raa_prime_decode.c:82-110 `osmo_csd144_from_atrau_bits`: `.ok none` = negative return,
`.ok (some r)` = return 0 with the out-parameters `r`.  The `d_bits` buffer is the caller's
uninitialised 288-bit buffer.  (C4/C5 pointers are assumed non-NULL; passing NULL only skips the
store.) -/
def fromAtrauBits (a : List Bool) : M (Option Csd144) := do
  let hdr ← slice a 0 20
  if hdr ≠ headerBits then .ok none
  else
    let c4 ← rd a 20
    let c5 ← rd a 21
    let m0 ← rd a 22
    let m1 ← rd a 23
    match ← decodeSubframes (List.replicate 288 none) 0 a 24 8 with
    | none => .ok none
    | some dst =>
      let d ← collect dst
      .ok (some { m := [m0, m1], d := d, c4 := c4, c5 := c5 })

/-- raa_prime_decode.c:112-121 `osmo_csd144_from_atrau_ra2` -/
def fromAtrauRa2 (bytes : List Byte) : M (Option Csd144) :=
  fromAtrauBits (Ra2.unpack16 (bytes.take 160))

end Verif.RaaPrime
