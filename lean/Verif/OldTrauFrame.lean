import Verif.Base
/-!
# Model of `src/trau_frame.c` (legacy 16k TRAU frame codec)

`ubit_t` values are `Bool` (the API contract is that they are 0 or 1).
-/
namespace Verif.OldTrau

/-- include/osmocom/abis/trau_frame.h:46-52 `struct decoded_trau_frame` (arrays of 25, 288, 4, 6, 2
elements) -/
structure Frame where
  c : List Bool
  d : List Bool
  t : List Bool
  s : List Bool
  m : List Bool
  deriving DecidableEq, Repr

/-- the array sizes of trau_frame.h:34-43 -/
structure Frame.WF (f : Frame) : Prop where
  c : f.c.length = 25
  d : f.d.length = 288
  t : f.t.length = 4
  s : f.s.length = 6
  m : f.m.length = 2

/-! trau_frame.h:54-65 -/
def FT_FR_UP : Nat := 0x02
def FT_FR_DOWN : Nat := 0x1c
def FT_EFR : Nat := 0x1a
def FT_AMR : Nat := 0x06
def FT_OM_UP : Nat := 0x05
def FT_OM_DOWN : Nat := 0x1b
def FT_DATA_UP : Nat := 0x08
def FT_DATA_DOWN : Nat := 0x16
def FT_D145_SYNC : Nat := 0x14
def FT_EDATA : Nat := 0x1f
def FT_IDLE_UP : Nat := 0x10
def FT_IDLE_DOWN : Nat := 0x0e

/-- trau_frame.c:40-51 `get_bits` (for `num` ≤ 32: no bits are shifted out) -/
def getBits (b : List Bool) (off : Nat) : Nat → Nat → M Nat
  | 0, acc => .ok acc
  | n + 1, acc => do
    let x ← rd b off
    getBits b (off + 1) n (2 * acc + x.toNat)

/-- `memcpy(dst + doff, src + soff, n)` -/
def memcpy {α : Type} (dst : List α) (doff : Nat) (src : List α) (soff n : Nat) : M (List α) := do
  let s ← slice src soff n
  blit dst doff s

/-- trau_frame.c:66-69 and 90-93: `for (i = …; i < 304; i += 16)` with `n` iterations left -/
def decodeD (d b : List Bool) (dIdx i : Nat) : Nat → M (List Bool × Nat)
  | 0 => .ok (d, dIdx)
  | n + 1 => do
    let d ← memcpy d dIdx b (i + 1) 15
    decodeD d b (dIdx + 15) (i + 16) n

/-- trau_frame.c:54-72 `decode_fr` -/
def decodeFr (f : Frame) (b : List Bool) : M Frame := do
  let c ← memcpy f.c 0 b 17 15
  let c ← memcpy c 15 b 310 6
  let t ← memcpy f.t 0 b 316 4
  let (d, dIdx) ← decodeD f.d b 0 32 17
  let d ← memcpy d dIdx b 305 5
  .ok { f with c := c, t := t, d := d }

/-- trau_frame.c:75-96 `decode_amr` -/
def decodeAmr (f : Frame) (b : List Bool) : M Frame := do
  let c ← memcpy f.c 0 b 17 15
  let c ← memcpy c 15 b 33 10
  let t ← memcpy f.t 0 b 316 4
  let d ← memcpy f.d 0 b 43 5
  let (d, dIdx) ← decodeD d b 5 48 16
  let d ← memcpy d dIdx b 305 11
  .ok { f with c := c, t := t, d := d }

/-- trau_frame.c:98-104 `decode_data` -/
def decodeData (f : Frame) (b : List Bool) : M Frame := do
  let c ← memcpy f.c 0 b 17 15
  let d ← memcpy f.d 0 b 32 288
  .ok { f with c := c, d := d }

/-- trau_frame.c:106-141 `decode_trau_frame`: return code and the structure afterwards -/
def decode (f : Frame) (b : List Bool) : M (Int × Frame) := do
  let cbits5 ← getBits b 17 5 0
  if cbits5 = FT_FR_UP ∨ cbits5 = FT_FR_DOWN ∨ cbits5 = FT_IDLE_UP ∨ cbits5 = FT_IDLE_DOWN ∨
      cbits5 = FT_EFR then do
    let f ← decodeFr f b
    .ok (0, f)
  else if cbits5 = FT_AMR then do
    let f ← decodeAmr f b
    .ok (0, f)
  else if cbits5 = FT_DATA_UP ∨ cbits5 = FT_DATA_DOWN then do
    let f ← decodeData f b
    .ok (0, f)
  else .ok (-1, f)

/-- trau_frame.c:143-145 -/
def ftFrDownBits : List Bool := [true, true, true, false, false]
def ftIdleDownBits : List Bool := [false, true, true, true, false]
def ftDataDownBits : List Bool := [true, false, true, true, false]

/-- trau_frame.c:151-211 `trau_frame_up2down` -/
def up2down (f : Frame) : M (Int × Frame) := do
  let cbits5 ← getBits f.c 0 5 0
  if cbits5 = FT_FR_UP then do
    let c ← memcpy f.c 0 ftFrDownBits 0 5
    let c ← blit c 5 (List.replicate 6 false)
    let c ← blit c 11 (List.replicate 10 true)
    .ok (0, { f with c := c })
  else if cbits5 = FT_EFR then do
    let c ← blit f.c 5 (List.replicate 6 false)
    let c ← wr c 11 true
    let c ← blit c 12 (List.replicate 3 true)
    let c ← wr c 15 true
    let c ← blit c 16 (List.replicate 5 true)
    .ok (0, { f with c := c })
  else if cbits5 = FT_IDLE_UP then do
    let c ← memcpy f.c 0 ftIdleDownBits 0 5
    let c ← blit c 5 (List.replicate 6 false)
    let c ← blit c 11 (List.replicate 10 true)
    .ok (0, { f with c := c })
  else if cbits5 = FT_DATA_UP then do
    let c ← memcpy f.c 0 ftDataDownBits 0 5
    .ok (0, { f with c := c })
  else if cbits5 = FT_FR_DOWN ∨ cbits5 = FT_IDLE_DOWN ∨ cbits5 = FT_OM_DOWN ∨
      cbits5 = FT_DATA_DOWN then .ok (-EINVAL, f)
  else .ok (-1, f)

/-- trau_frame.c:222-226: the loop over the D bit groups, `n` iterations left -/
def encodeD (b d : List Bool) (dIdx i : Nat) : Nat → M (List Bool × Nat)
  | 0 => .ok (b, dIdx)
  | n + 1 => do
    let b ← wr b i true
    let b ← memcpy b (i + 1) d dIdx 15
    encodeD b d (dIdx + 15) (i + 16) n

/-- trau_frame.c:213-237 `encode_fr` -/
def encodeFr (b : List Bool) (f : Frame) : M (List Bool) := do
  let b ← wr b 16 true
  let b ← memcpy b 17 f.c 0 15
  let (b, dIdx) ← encodeD b f.d 0 32 17
  let b ← wr b 304 true
  let b ← memcpy b 305 f.d dIdx 5
  let b ← memcpy b 310 f.c 15 6
  memcpy b 316 f.t 0 4

/-- trau_frame.c:239-246 `encode_data` -/
def encodeData (b : List Bool) (f : Frame) : M (List Bool) := do
  let b ← wr b 16 true
  let b ← memcpy b 17 f.c 0 15
  memcpy b 32 f.d 0 288

/-- trau_frame.c:253-289 `encode_trau_frame`; `b` is the caller's 320 bit buffer -/
def encode (b : List Bool) (f : Frame) : M (Int × List Bool) := do
  let cbits5 ← getBits f.c 0 5 0
  let b ← blit b 0 (List.replicate 16 false)
  if cbits5 = FT_FR_UP ∨ cbits5 = FT_FR_DOWN ∨ cbits5 = FT_IDLE_UP ∨ cbits5 = FT_IDLE_DOWN ∨
      cbits5 = FT_EFR then do
    let b ← encodeFr b f
    .ok (0, b)
  else if cbits5 = FT_DATA_UP ∨ cbits5 = FT_DATA_DOWN then do
    let b ← encodeData b f
    .ok (0, b)
  else .ok (-1, b)

/-- trau_frame.c:305-323: `fr_idle_frame` after its first-use initialisation (only the fields read
by `encode_fr`; `c_bits` are all 1 except C1, C5 and C6..C11) -/
def idleFrame : Frame :=
  { c := [false, true, true, true, false, false, false, false, false, false, false] ++
         List.replicate 14 true,
    d := List.replicate 260 true ++ List.replicate 28 false,
    t := List.replicate 4 true,
    s := List.replicate 6 false,
    m := List.replicate 2 false }

/-- trau_frame.c:295-329 `trau_idle_frame`: `encode_fr` into a static (zeroed) buffer -/
def trauIdleFrame : M (List Bool) := encodeFr (List.replicate 320 false) idleFrame

end Verif.OldTrau
