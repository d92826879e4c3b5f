import Verif.OldTrauFrame
/-!
# Model of `src/trau/trau_frame.c` (16k and 8k TRAU frame codec)

`ubit_t` values are `Bool` (the API contract is that they are 0 or 1).  A buffer passed by the caller is
a list of exactly the number of elements of the underlying object, so that any access behind its end is
a `Fault.oob`.
-/
namespace Verif.Trau
open Verif.OldTrau (memcpy getBits)

/-- include/osmocom/trau/trau_frame.h:76-95 `enum osmo_trau_frame_type`; `other` stands for every value
that is not an enumerator -/
inductive FT where
  | none | fr | hr | efr | amr | oam | data | edata | d145 | dataHr | idle
  | speech8 | data8 | oam8 | amrLow8 | amr67 | amr74
  | other
  deriving DecidableEq, Repr

/-- trau_frame.h:102-105 `enum osmo_trau_frame_direction` -/
inductive Dir where
  | ul | dl
  deriving DecidableEq, Repr

/-- trau_frame.h:107-122 `struct osmo_trau_frame` (array members of 25, 288, 4, 6, 2, 3, 6 elements) -/
structure Frame where
  type : FT
  dir : Dir
  ta : Int
  c : List Bool
  d : List Bool
  t : List Bool
  s : List Bool
  m : List Bool
  ufi : Bool
  crc : List Bool
  xc : List Bool
  deriving DecidableEq, Repr

/-- the array sizes of trau_frame.h:33-46 -/
structure Frame.WF (f : Frame) : Prop where
  c : f.c.length = 25
  d : f.d.length = 288
  t : f.t.length = 4
  s : f.s.length = 6
  m : f.m.length = 2
  crc : f.crc.length = 3
  xc : f.xc.length = 6

/-! ### copying loops -/

/-- `for (…) { memcpy(b + pos, d + d_idx, w); d_idx += w; pos += step }`, `n` iterations left -/
def cpOut (w step : Nat) (b : List Bool) (pos : Nat) (d : List Bool) (dIdx : Nat) :
    Nat → M (List Bool)
  | 0 => .ok b
  | n + 1 => do
    let b ← memcpy b pos d dIdx w
    cpOut w step b (pos + step) d (dIdx + w) n

/-- as `cpOut`, but each iteration first sets the synchronisation bit `b[pos] = 1` and copies behind it -/
def cpOutS (w step : Nat) (b : List Bool) (pos : Nat) (d : List Bool) (dIdx : Nat) :
    Nat → M (List Bool)
  | 0 => .ok b
  | n + 1 => do
    let b ← wr b pos true
    let b ← memcpy b (pos + 1) d dIdx w
    cpOutS w step b (pos + step) d (dIdx + w) n

/-- `for (…) { memcpy(d + d_idx, b + pos, w); d_idx += w; pos += step }`, `n` iterations left -/
def cpIn (w step : Nat) (d : List Bool) (dIdx : Nat) (b : List Bool) (pos : Nat) :
    Nat → M (List Bool)
  | 0 => .ok d
  | n + 1 => do
    let d ← memcpy d dIdx b pos w
    cpIn w step d (dIdx + w) b (pos + step) n

/-- `for (i = pos; …; i += step) b[i] = 1`, `n` iterations left -/
def setOnes (step : Nat) (b : List Bool) (pos : Nat) : Nat → M (List Bool)
  | 0 => .ok b
  | n + 1 => do
    let b ← wr b pos true
    setOnes step b (pos + step) n

/-! ### 16k -/

/-! trau_frame.c:85-103: the C1..C5 patterns -/
def ftFrUp : List Bool := [false, false, false, true, false]
def ftFrDown : List Bool := [true, true, true, false, false]
def ftDataUp : List Bool := [false, true, false, false, false]
def ftDataDown : List Bool := [true, false, true, true, false]
def ftIdleUp : List Bool := [true, false, false, false, false]
def ftIdleDown : List Bool := [false, true, true, true, false]
def ftEfr : List Bool := [true, true, false, true, false]
def ftAmr : List Bool := [false, false, true, true, false]
def ftOamUp : List Bool := [false, false, true, false, true]
def ftOamDown : List Bool := [true, true, false, true, true]
def ftD145 : List Bool := [true, false, true, false, false]
def ftEdata : List Bool := [true, true, true, true, true]
def ftHrUp : List Bool := [false, false, false, true, true]
def ftHrDown : List Bool := [true, true, true, false, true]
def ftDataHrUp : List Bool := [false, true, false, false, true]
def ftDataHrDown : List Bool := [true, false, true, true, true]

/-- `if (fr->dir == OSMO_TRAU_DIR_UL) cbits5 = up; else cbits5 = down;` (trau_frame.c:249-252 and
similar) -/
def byDir (dir : Dir) (up down : List Bool) : List Bool :=
  match dir with
  | .ul => up
  | .dl => down

/-- trau_frame.c:107-116 `encode_sync16` -/
def encodeSync16 (b : List Bool) : M (List Bool) := do
  let b ← blit b 0 (List.replicate 16 false)
  setOnes 16 b 16 19

/-- trau_frame.c:125-135 `trau_frame_16_ta_us` -/
def ta16us (c6_11 : Nat) : Int :=
  if c6_11 ≤ 0x27 then c6_11 * 500
  else if c6_11 = 0x3e then 250
  else if c6_11 = 0x3f then -250
  else 0

/-- trau_frame.c:138-161 `trau_frame_8_ta_us` -/
def ta8us (c6_8 : Nat) : Int :=
  if c6_8 = 7 then 0
  else if c6_8 = 6 then -250
  else if c6_8 = 5 then 250
  else if c6_8 = 3 then 500
  else if c6_8 = 4 then 1000
  else if c6_8 = 2 then 2000
  else if c6_8 = 1 then 6000
  else if c6_8 = 0 then 9000
  else 0

/-- trau_frame.c:164-202 `osmo_trau_frame_dl_ta_us` (the shifts and ors of 0/1 values are the value of
the bits read as a binary number: `getBits`) -/
def dlTaUs (f : Frame) : M Int :=
  match f.dir with
  | .dl => .ok 0
  | .ul =>
    match f.type with
    | .fr | .efr | .hr | .amr => do
      let x ← getBits f.c 5 6 0
      .ok (ta16us x)
    | .speech8 => do
      let x ← getBits f.c 5 3 0
      .ok (ta8us x)
    | .amrLow8 => do
      let fc ← getBits f.c 3 2 0
      if fc = 0 then do
        let x ← getBits f.c 5 6 0
        .ok (ta16us x)
      else .ok 0
    | _ => .ok 0

/-- `fr->dl_ta_usec * k` in `int` arithmetic: signed overflow is undefined behaviour -/
def mulInt (a k : Int) : M Int :=
  if -2147483648 ≤ a * k ∧ a * k ≤ 2147483647 then .ok (a * k) else .error .ub

/-- trau_frame.c:204-220 `encode16_handle_ta`: returned length and buffer -/
def handleTa16 (b : List Bool) (f : Frame) : M (Int × List Bool) :=
  match f.dir with
  | .dl => do
    let p ← mulInt f.ta 4
    let numBits := p.tdiv 250
    if numBits > 0 then do
      let numBits := if numBits > 39 * 8 then 39 else numBits
      let b ← blit b 320 (List.replicate numBits.toNat true)
      .ok (320 + numBits, b)
    else if numBits < 0 then
      let numBits := if numBits < -1 * 4 then -1 * 4 else numBits
      .ok (320 + numBits, b)
    else .ok (320, b)
  | .ul => .ok (320, b)

/-- trau_frame.c:222-238 `encode8_handle_ta` -/
def handleTa8 (b : List Bool) (f : Frame) : M (Int × List Bool) :=
  match f.dir with
  | .dl => do
    let p ← mulInt f.ta 2
    let numBits := p.tdiv 250
    if numBits > 0 then do
      let numBits := if numBits > 20 * 8 - 2 then 20 * 8 - 2 else numBits
      let b ← blit b 160 (List.replicate numBits.toNat true)
      .ok (160 + numBits, b)
    else if numBits < 0 then
      let numBits := if numBits < -1 * 2 then -2 else numBits
      .ok (160 + numBits, b)
    else .ok (160, b)
  | .ul => .ok (160, b)

/-- trau_frame.c:267-286: `encode16_fr` behind the selection of `cbits5`, up to the T bits -/
def encode16FrBits (cbits5 : List Bool) (b : List Bool) (f : Frame) : M (List Bool) := do
  let b ← encodeSync16 b
  let b ← memcpy b 17 cbits5 0 5
  let b ← memcpy b (17 + 5) f.c 5 (15 - 5)
  let b ← cpOutS 15 16 b 32 f.d 0 17
  let b ← wr b 304 true
  let b ← memcpy b 305 f.d 255 5
  let b ← memcpy b 310 f.c 15 6
  memcpy b 316 f.t 0 4

/-- trau_frame.c:241-290 `encode16_fr` -/
def encode16Fr (b : List Bool) (f : Frame) : M (Int × List Bool) :=
  match f.type with
  | .idle => do
    let b ← encode16FrBits (byDir f.dir ftIdleUp ftIdleDown) b f
    handleTa16 b f
  | .fr => do
    let b ← encode16FrBits (byDir f.dir ftFrUp ftFrDown) b f
    handleTa16 b f
  | .efr => do
    let b ← encode16FrBits ftEfr b f
    handleTa16 b f
  | _ => .ok (-EINVAL, b)

/-- trau_frame.c:293-314 `decode16_fr` -/
def decode16Fr (f : Frame) (b : List Bool) : M Frame := do
  let c ← memcpy f.c 0 b 17 15
  let c ← memcpy c 15 b 310 6
  let t ← memcpy f.t 0 b 316 4
  let d ← cpIn 15 16 f.d 0 b 33 17
  let d ← memcpy d 255 b 305 5
  .ok { f with c := c, t := t, d := d }

/-- trau_frame.c:317-342: `encode16_amr` up to the T bits (18 - 1 = 17 iterations: i = 48, …, 304) -/
def encode16AmrBits (b : List Bool) (f : Frame) : M (List Bool) := do
  let b ← encodeSync16 b
  let b ← memcpy b 17 ftAmr 0 5
  let b ← memcpy b (17 + 5) f.c 5 (15 - 5)
  let b ← wr b 32 true
  let b ← memcpy b 33 f.c 15 10
  let b ← memcpy b 43 f.d 0 5
  let b ← cpOutS 15 16 b 48 f.d 5 17
  memcpy b 316 f.t 0 4

/-- trau_frame.c:317-347 `encode16_amr` -/
def encode16Amr (b : List Bool) (f : Frame) : M (Int × List Bool) := do
  let b ← encode16AmrBits b f
  handleTa16 b f

/-- trau_frame.c:350-374 `decode16_amr` -/
def decode16Amr (f : Frame) (b : List Bool) : M Frame := do
  let c ← memcpy f.c 0 b 17 15
  let c ← memcpy c 15 b 33 10
  let t ← memcpy f.t 0 b 316 4
  let d ← memcpy f.d 0 b 43 5
  let d ← cpIn 15 16 d 5 b 49 16
  let d ← memcpy d 245 b 305 11
  .ok { f with c := c, t := t, d := d }

/-- trau_frame.c:377-406 `encode16_oam` -/
def encode16OamBits (b : List Bool) (f : Frame) : M (List Bool) := do
  let b ← encodeSync16 b
  let b ← memcpy b 17 (byDir f.dir ftOamUp ftOamDown) 0 5
  let b ← memcpy b (17 + 5) f.c 0 (15 - 5)
  let b ← cpOutS 15 16 b 32 f.d 0 17
  let b ← memcpy b 305 f.d 256 9
  memcpy b 314 f.s 0 6

/-- trau_frame.c:409-427 `decode16_oam` (18 iterations: i = 33, 49, …, 305; `d_idx` ends at 270) -/
def decode16Oam (f : Frame) (b : List Bool) : M Frame := do
  let c ← memcpy f.c 0 b 17 15
  let d ← cpIn 15 16 f.d 0 b 34 18
  let d ← memcpy d 270 b 305 9
  let s ← memcpy f.s 0 b 314 6
  .ok { f with c := c, d := d, s := s }

/-- trau_frame.c:430-474: `encode16_hr` up to the T bits -/
def encode16HrBits (b : List Bool) (f : Frame) : M (List Bool) := do
  let b ← encodeSync16 b
  let b ← memcpy b 17 (byDir f.dir ftHrUp ftHrDown) 0 5
  let b ← memcpy b (17 + 5) f.c 5 10
  let b ← wr b 33 f.ufi
  let b ← memcpy b (4 * 8 + 2) f.d 0 14
  let b ← memcpy b (6 * 8 + 1) f.d 14 15
  let b ← memcpy b (8 * 8 + 1) f.d 29 15
  let b ← memcpy b (10 * 8 + 1) f.crc 0 3
  let b ← memcpy b (10 * 8 + 4) f.d 44 12
  let b ← memcpy b (12 * 8 + 1) f.d 56 15
  let b ← memcpy b (14 * 8 + 1) f.d 71 15
  let b ← memcpy b (16 * 8 + 1) f.d 86 15
  let b ← memcpy b (18 * 8 + 1) f.d 101 11
  let b ← blit b (19 * 8 + 4) (List.replicate (4 + 18 * 8 + 6) true)
  let b ← memcpy b (38 * 8 + 6) f.c 15 6
  memcpy b (39 * 8 + 4) f.t 0 4

/-- trau_frame.c:430-478 `encode16_hr` -/
def encode16Hr (b : List Bool) (f : Frame) : M (Int × List Bool) := do
  let b ← encode16HrBits b f
  handleTa16 b f

/-- trau_frame.c:481-515 `decode16_hr` -/
def decode16Hr (f : Frame) (b : List Bool) : M Frame := do
  let c ← memcpy f.c 0 b 17 15
  let c ← memcpy c 15 b (38 * 8 + 6) 6
  let t ← memcpy f.t 0 b (39 * 8 + 4) 4
  let ufi ← rd b 33
  let d ← memcpy f.d 0 b (4 * 8 + 2) 14
  let d ← memcpy d 14 b (6 * 8 + 1) 15
  let d ← memcpy d 29 b (8 * 8 + 1) 15
  let crc ← memcpy f.crc 0 b (10 * 8 + 1) 3
  let d ← memcpy d 44 b (10 * 8 + 4) 12
  let d ← memcpy d 56 b (12 * 8 + 1) 15
  let d ← memcpy d 71 b (14 * 8 + 1) 15
  let d ← memcpy d 86 b (16 * 8 + 1) 15
  let d ← memcpy d 101 b (18 * 8 + 1) 11
  .ok { f with c := c, t := t, ufi := ufi, d := d, crc := crc }

/-- trau_frame.c:517-521 and 531-550: `fr_idle_frame` after its first-use initialisation -/
def idleFrame : Frame :=
  { type := .idle, dir := .dl, ta := 0,
    c := [false, true, true, true, false, false, false, false, false, false, false] ++
         List.replicate 14 true,
    d := List.replicate 260 true ++ List.replicate 28 false,
    t := List.replicate 4 true,
    s := List.replicate 6 false, m := List.replicate 2 false, ufi := false,
    crc := List.replicate 3 false, xc := List.replicate 6 false }

/-- trau_frame.c:527-556 `trau_idle_frame`: the (static, zero initialised) buffer filled by
`encode16_fr` -/
def trauIdleFrame : M (List Bool) := do
  let (_, b) ← encode16Fr (List.replicate 320 false) idleFrame
  .ok b

/-- trau_frame.c:559-563 `encode16_idle` -/
def encode16IdleBits (b : List Bool) : M (List Bool) := do
  let i ← trauIdleFrame
  memcpy b 0 i 0 (40 * 8)

/-- trau_frame.c:566-598 `decode16_data` -/
def decode16Data (f : Frame) (b : List Bool) : M Frame := do
  let c ← memcpy f.c 0 b 17 15
  let d ← cpIn 7 8 f.d 0 b (4 * 8 + 1) 9
  let d ← cpIn 7 8 d 63 b (13 * 8 + 1) 9
  let d ← cpIn 7 8 d 126 b (22 * 8 + 1) 9
  let d ← cpIn 7 8 d 189 b (31 * 8 + 1) 9
  .ok { f with c := c, d := d }

/-- trau_frame.c:601-651 `encode16_data` -/
def encode16DataBits (b : List Bool) (f : Frame) : M (List Bool) := do
  let b ← encodeSync16 b
  let b ← memcpy b 17 (byDir f.dir ftDataUp ftDataDown) 0 5
  let b ← memcpy b (17 + 5) f.c 5 (15 - 5)
  let b ← cpOutS 7 8 b (4 * 8) f.d 0 9
  let b ← cpOutS 7 8 b (13 * 8) f.d 63 9
  let b ← cpOutS 7 8 b (22 * 8) f.d 126 9
  cpOutS 7 8 b (31 * 8) f.d 189 9

/-- trau_frame.c:654-667 `encode16_d145_sync` -/
def encode16D145Bits (b : List Bool) (f : Frame) : M (List Bool) := do
  let b ← encodeSync16 b
  let b ← memcpy b 17 ftD145 0 5
  let b ← memcpy b (17 + 5) f.c 5 (15 - 5)
  blit b (4 * 8) (List.replicate ((40 - 4) * 8) true)

/-- trau_frame.c:670-683 `decode16_edata` -/
def decode16Edata (f : Frame) (b : List Bool) : M Frame := do
  let c ← memcpy f.c 0 b 17 13
  let m ← memcpy f.m 0 b 30 2
  let d ← memcpy f.d 0 b (4 * 8) 288
  .ok { f with c := c, m := m, d := d }

/-- trau_frame.c:686-712 `encode16_edata` -/
def encode16EdataBits (b : List Bool) (f : Frame) : M (List Bool) := do
  let b ← blit b 0 (List.replicate 16 false)
  let b ← wr b 16 true
  let b ← memcpy b 17 (if f.type = .d145 then ftD145 else ftEdata) 0 5
  let b ← memcpy b (17 + 5) f.c 5 8
  let b ← memcpy b 30 f.m 0 2
  memcpy b (4 * 8) f.d 0 288

/-- trau_frame.c:715-736 `decode16_data_hr` -/
def decode16DataHr (f : Frame) (b : List Bool) : M Frame := do
  let c ← memcpy f.c 0 b 17 15
  let d ← cpIn 7 8 f.d 0 b (4 * 8 + 1) 9
  let d ← cpIn 7 8 d 63 b (22 * 8 + 1) 9
  .ok { f with c := c, d := d }

/-- trau_frame.c:739-777 `encode16_data_hr` -/
def encode16DataHrBits (b : List Bool) (f : Frame) : M (List Bool) := do
  let b ← encodeSync16 b
  let b ← memcpy b 17 (byDir f.dir ftDataHrUp ftDataHrDown) 0 5
  let b ← memcpy b (17 + 5) f.c 5 (15 - 5)
  let b ← cpOutS 7 8 b (4 * 8) f.d 0 9
  let b ← blit b (13 * 8) (List.replicate (9 * 8) true)
  let b ← cpOutS 7 8 b (22 * 8) f.d 63 9
  blit b (31 * 8) (List.replicate (9 * 8) true)

/-! ### 8k -/

/-- trau_frame.c:780-826 `decode8_hr` -/
def decode8Hr (f : Frame) (b : List Bool) : M Frame := do
  let c ← memcpy f.c 0 b 9 5
  let xc ← memcpy f.xc 0 b (8 + 6) 2
  let xc ← memcpy xc 2 b (2 * 8 + 2) 4
  let d ← memcpy f.d 0 b (2 * 8 + 6) 2
  let d ← cpIn 7 8 d 2 b (3 * 8 + 1) 6
  let crc ← memcpy f.crc 0 b 73 3
  let d ← memcpy d 44 b 76 4
  let d ← cpIn 7 8 d 48 b (10 * 8 + 1) 9
  let x ← rd b (19 * 8 + 1)
  let d ← wr d 111 x
  let c ← memcpy c 5 b (19 * 8 + 2) 4
  let x ← rd b (19 * 8 + 6)
  let t ← wr f.t 0 x
  let x ← rd b (19 * 8 + 7)
  let t ← wr t 1 x
  .ok { f with c := c, xc := xc, d := d, crc := crc, t := t }

/-- trau_frame.c:829-843 `compute_odd_parity` of the bits `l` -/
def oddParity (l : List Bool) : Bool := l.countP (· = true) % 2 = 0

/-- trau_frame.c:846-910: `encode8_hr` up to the T bits -/
def encode8HrBits (b : List Bool) (f : Frame) : M (List Bool) := do
  let b ← blit b 0 (List.replicate 8 false)
  let b ← wr b 8 true
  let b ← wr b 16 false
  let b ← wr b 17 true
  let b ← setOnes 8 b (3 * 8) 17
  let b ← (match f.dir with
    | .ul => do
      let b ← wr b (9 + 0) false
      let b ← wr b (9 + 1) false
      let b ← wr b (9 + 2) false
      let b ← wr b (9 + 3) true
      wr b (9 + 4) false
    | .dl => do
      let b ← wr b (9 + 0) false
      let b ← wr b (9 + 1) false
      let b ← wr b (9 + 2) false
      let x ← rd f.c 3
      let b ← wr b (9 + 3) x
      let l ← slice b 9 4
      wr b (9 + 4) (oddParity l))
  let b ← memcpy b (1 * 8 + 6) f.xc 0 2
  let b ← memcpy b (2 * 8 + 2) f.xc 2 4
  let b ← memcpy b (2 * 8 + 6) f.d 0 2
  let b ← cpOut 7 8 b (3 * 8 + 1) f.d 2 6
  let b ← memcpy b 73 f.crc 0 3
  let b ← memcpy b 76 f.d 44 4
  let b ← cpOut 7 8 b (10 * 8 + 1) f.d 48 9
  let x ← rd f.d 111
  let b ← wr b (19 * 8 + 1) x
  let b ← memcpy b (19 * 8 + 2) f.c 5 4
  let x ← rd f.t 0
  let b ← wr b (19 * 8 + 6) x
  let x ← rd f.t 1
  wr b (19 * 8 + 7) x

/-- trau_frame.c:846-914 `encode8_hr` -/
def encode8Hr (b : List Bool) (f : Frame) : M (Int × List Bool) := do
  let b ← encode8HrBits b f
  handleTa8 b f

/-- trau_frame.c:917-947 `decode8_amr_low` -/
def decode8AmrLow (f : Frame) (b : List Bool) : M Frame := do
  let d ← memcpy f.d 0 b (1 * 8 + 1) 7
  let c ← memcpy f.c 0 b (2 * 8 + 1) 5
  let d ← memcpy d 7 b (2 * 8 + 6) 2
  let d ← memcpy d 9 b (3 * 8 + 2) 6
  let d ← cpIn 7 8 d 15 b (4 * 8 + 1) 15
  let d ← memcpy d 120 b (19 * 8 + 1) 6
  let x ← rd b (19 * 8 + 7)
  let t ← wr f.t 0 x
  .ok { f with c := c, d := d, t := t }

/-- trau_frame.c:950-985: `encode8_amr_low` up to T1 -/
def encode8AmrLowBits (b : List Bool) (f : Frame) : M (List Bool) := do
  let b ← blit b 0 (List.replicate 8 false)
  let b ← wr b 8 true
  let b ← wr b 16 true
  let b ← wr b 24 false
  let b ← wr b 25 true
  let b ← setOnes 8 b (4 * 8) 16
  let b ← memcpy b (1 * 8 + 1) f.d 0 7
  let b ← memcpy b (2 * 8 + 1) f.c 0 5
  let b ← memcpy b (2 * 8 + 6) f.d 7 2
  let b ← memcpy b (3 * 8 + 2) f.d 9 6
  let b ← cpOut 7 8 b (4 * 8 + 1) f.d 15 15
  let b ← memcpy b (19 * 8 + 1) f.d 120 6
  let x ← rd f.t 0
  wr b (19 * 8 + 7) x

/-- trau_frame.c:950-988 `encode8_amr_low` -/
def encode8AmrLow (b : List Bool) (f : Frame) : M (Int × List Bool) := do
  let b ← encode8AmrLowBits b f
  handleTa8 b f

/-- trau_frame.c:991-1019 `decode8_amr_67` -/
def decode8Amr67 (f : Frame) (b : List Bool) : M Frame := do
  let d ← memcpy f.d 0 b (1 * 8 + 1) 7
  let c ← memcpy f.c 0 b (2 * 8 + 1) 3
  let d ← memcpy d 7 b (2 * 8 + 4) 4
  let d ← cpIn 7 8 d 11 b (3 * 8 + 2) 4
  let d ← cpIn 15 16 d 39 b (7 * 8 + 1) 7
  .ok { f with c := c, d := d }

/-- trau_frame.c:1022-1056: `encode8_amr_67` before the time alignment -/
def encode8Amr67Bits (b : List Bool) (f : Frame) : M (List Bool) := do
  let b ← blit b 0 (List.replicate 8 false)
  let b ← wr b (1 * 8) true
  let b ← wr b (2 * 8) true
  let b ← wr b (3 * 8) true
  let b ← wr b (4 * 8) true
  let b ← wr b (5 * 8) false
  let b ← setOnes 16 b (5 * 8) 8
  let b ← memcpy b (1 * 8 + 1) f.d 0 7
  let b ← memcpy b (2 * 8 + 1) f.c 0 3
  let b ← memcpy b (2 * 8 + 4) f.d 7 4
  let b ← cpOut 7 8 b (3 * 8 + 2) f.d 11 4
  cpOut 15 16 b (7 * 8 + 1) f.d 39 7

/-- trau_frame.c:1022-1059 `encode8_amr_67` -/
def encode8Amr67 (b : List Bool) (f : Frame) : M (Int × List Bool) := do
  let b ← encode8Amr67Bits b f
  handleTa8 b f

/-- trau_frame.c:1062-1085 `decode8_amr_74` -/
def decode8Amr74 (f : Frame) (b : List Bool) : M Frame := do
  let d ← memcpy f.d 0 b 3 5
  let d ← memcpy d 5 b (1 * 8 + 1) 7
  let c ← memcpy f.c 0 b (2 * 8 + 1) 3
  let d ← memcpy d 12 b (2 * 8 + 4) 4
  let d ← memcpy d 16 b (3 * 8 + 1) 7
  let d ← memcpy d 23 b (4 * 8) (16 * 8)
  .ok { f with c := c, d := d }

/-- trau_frame.c:1088-1115: `encode8_amr_74` before the time alignment -/
def encode8Amr74Bits (b : List Bool) (f : Frame) : M (List Bool) := do
  let b ← wr b 0 false
  let b ← wr b 1 false
  let b ← wr b 2 true
  let b ← wr b (1 * 8) false
  let b ← wr b (2 * 8) true
  let b ← wr b (3 * 8) false
  let b ← memcpy b 3 f.d 0 5
  let b ← memcpy b (1 * 8 + 1) f.d 5 7
  let b ← memcpy b (2 * 8 + 1) f.c 0 3
  let b ← memcpy b (2 * 8 + 4) f.d 12 4
  let b ← memcpy b (3 * 8 + 1) f.d 16 7
  memcpy b (4 * 8) f.d 23 (16 * 8)

/-- trau_frame.c:1088-1118 `encode8_amr_74` -/
def encode8Amr74 (b : List Bool) (f : Frame) : M (Int × List Bool) := do
  let b ← encode8Amr74Bits b f
  handleTa8 b f

/-- trau_frame.c:1121-1144 `decode8_data` -/
def decode8Data (f : Frame) (b : List Bool) : M Frame := do
  let c ← memcpy f.c 0 b (1 * 8 + 1) 5
  let d ← memcpy f.d 0 b (1 * 8 + 6) 2
  let d ← memcpy d 2 b (2 * 8 + 2) 6
  let d ← cpIn 7 8 d 8 b (3 * 8 + 1) 16
  let d ← memcpy d 120 b (19 * 8 + 1) 6
  .ok { f with c := c, d := d }

/-- trau_frame.c:1147-1178 `encode8_data` -/
def encode8DataBits (b : List Bool) (f : Frame) : M (List Bool) := do
  let b ← blit b 0 (List.replicate 8 false)
  let b ← wr b (1 * 8) true
  let b ← wr b (2 * 8) false
  let b ← wr b (2 * 8 + 1) true
  let b ← setOnes 8 b (3 * 8) 17
  let b ← wr b (19 * 8 + 7) true
  let b ← memcpy b (1 * 8 + 1) f.c 0 5
  let b ← memcpy b (1 * 8 + 6) f.d 0 2
  let b ← memcpy b (2 * 8 + 2) f.d 2 6
  let b ← cpOut 7 8 b (3 * 8 + 1) f.d 8 16
  memcpy b (19 * 8 + 1) f.d 120 6

/-- trau_frame.c:1181-1205 `decode8_oam` -/
def decode8Oam (f : Frame) (b : List Bool) : M Frame := do
  let c ← memcpy f.c 0 b (1 * 8 + 1) 5
  let xc ← memcpy f.xc 0 b (1 * 8 + 6) 2
  let xc ← memcpy xc 2 b (2 * 8 + 2) 4
  let d ← memcpy f.d 0 b (2 * 8 + 6) 2
  let d ← cpIn 7 8 d 2 b (3 * 8 + 1) 16
  let d ← memcpy d 114 b (19 * 8 + 1) 6
  .ok { f with c := c, xc := xc, d := d }

/-- trau_frame.c:1208-1239 `encode8_oam` -/
def encode8OamBits (b : List Bool) (f : Frame) : M (List Bool) := do
  let b ← blit b 0 (List.replicate 8 false)
  let b ← wr b (1 * 8 + 0) true
  let b ← wr b (2 * 8 + 0) false
  let b ← wr b (2 * 8 + 1) true
  let b ← setOnes 8 b (3 * 8) 17
  let b ← memcpy b (1 * 8 + 1) f.c 0 5
  let b ← memcpy b (1 * 8 + 6) f.xc 0 2
  let b ← memcpy b (2 * 8 + 2) f.xc 2 4
  let b ← memcpy b (2 * 8 + 6) f.d 0 2
  let b ← cpOut 7 8 b (3 * 8 + 1) f.d 2 16
  memcpy b (19 * 8 + 1) f.d 114 6

/-! ### dispatch -/

/-- trau_frame.c:1250-1285: the first `switch` of `osmo_trau_frame_encode` (`none` = go on) -/
def encodeSpace (n : Nat) : FT → Option Int
  | .fr | .efr | .hr | .amr => if n < 2 * 40 * 8 - 1 then some (-ENOSPC) else .none
  | .oam | .idle | .dataHr | .data | .d145 | .edata =>
    if n < 1 * 40 * 8 then some (-ENOSPC) else .none
  | .speech8 | .amrLow8 | .amr67 | .amr74 => if n < 2 * 20 * 8 - 1 then some (-ENOSPC) else .none
  | .data8 | .oam8 => if n < 1 * 20 * 8 then some (-ENOSPC) else .none
  | .none => .none
  | .other => some (-EINVAL)

/-- a call of an encoder that returns the constant length `n` -/
def fixedLen (n : Int) (r : M (List Bool)) : M (Int × List Bool) := do
  let b ← r
  .ok (n, b)

/-- trau_frame.c:1287-1322: the second `switch` -/
def encodeDispatch (b : List Bool) (f : Frame) : M (Int × List Bool) :=
  match f.type with
  | .fr | .efr => encode16Fr b f
  | .hr => encode16Hr b f
  | .amr => encode16Amr b f
  | .oam => fixedLen (40 * 8) (encode16OamBits b f)
  | .idle => fixedLen (40 * 8) (encode16IdleBits b)
  | .dataHr => fixedLen (40 * 8) (encode16DataHrBits b f)
  | .data => fixedLen (40 * 8) (encode16DataBits b f)
  | .d145 => fixedLen (40 * 8) (encode16D145Bits b f)
  | .edata => fixedLen (40 * 8) (encode16EdataBits b f)
  | .speech8 => encode8Hr b f
  | .data8 => fixedLen (20 * 8) (encode8DataBits b f)
  | .oam8 => fixedLen (20 * 8) (encode8OamBits b f)
  | .amrLow8 => encode8AmrLow b f
  | .amr67 => encode8Amr67 b f
  | .amr74 => encode8Amr74 b f
  | .none | .other => .ok (-EINVAL, b)

/-- trau_frame.c:1247-1323 `osmo_trau_frame_encode(bits, n_bits, fr)`: `n_bits` is the length of the
buffer `b`; result: return value and the buffer afterwards -/
def encode (b : List Bool) (f : Frame) : M (Int × List Bool) :=
  match encodeSpace b.length f.type with
  | some rc => .ok (rc, b)
  | .none => encodeDispatch b f

/-- `return` 0 with the structure filled -/
def ret0 (r : M Frame) : M (Int × Frame) := do
  let f ← r
  .ok (0, f)

/-- the assignments trau_frame.c:1335-1337 / 1477-1479 followed by `fr->type = t` -/
def Frame.start (f : Frame) (dir : Dir) (t : FT) : Frame := { f with type := t, dir := dir, ta := 0 }

/-- trau_frame.c:1330-1380 `osmo_trau_frame_decode_16k` (case labels: trau_frame.h:48-64) -/
def decode16k (f : Frame) (b : List Bool) (dir : Dir) : M (Int × Frame) := do
  let c ← getBits b 17 5 0
  if c = 0x02 ∨ c = 0x1c then ret0 (decode16Fr (f.start dir .fr) b)
  else if c = 0x10 ∨ c = 0x0e then ret0 (decode16Fr (f.start dir .idle) b)
  else if c = 0x1a then ret0 (decode16Fr (f.start dir .efr) b)
  else if c = 0x06 then ret0 (decode16Amr (f.start dir .amr) b)
  else if c = 0x05 ∨ c = 0x1b then ret0 (decode16Oam (f.start dir .oam) b)
  else if c = 0x08 ∨ c = 0x16 then ret0 (decode16Data (f.start dir .data) b)
  else if c = 0x03 ∨ c = 0x1d then ret0 (decode16Hr (f.start dir .hr) b)
  else if c = 0x09 ∨ c = 0x17 then ret0 (decode16DataHr (f.start dir .dataHr) b)
  else if c = 0x1f then ret0 (decode16Edata (f.start dir .edata) b)
  else if c = 0x14 then ret0 (decode16Data (f.start dir .d145) b)
  else .ok (-EINVAL, f.start dir .none)

/-- a sequence of `if (bits[i] != v) return false;` checks, in order -/
def checkBits (b : List Bool) : List (Nat × Bool) → M Bool
  | [] => .ok true
  | (i, v) :: l => do
    let x ← rd b i
    if x = v then checkBits b l else .ok false

/-- `memcmp(bits, bit8_0, 8)`: the first eight bits are 0 (trau_frame.c:1386, 1394) -/
def zeros8 : List (Nat × Bool) := (List.range 8).map fun i => (i, false)

/-- `for (i = from; …; i += step) if (bits[i] != 1) return false`, `n` iterations -/
def onesAt (start step n : Nat) : List (Nat × Bool) :=
  (List.range n).map fun k => (start + step * k, true)

/-- trau_frame.c:1389-1405 `is_hr` -/
def isHr (b : List Bool) : M Bool :=
  checkBits b (zeros8 ++ [(8, true), (16, false), (17, true)] ++ onesAt 24 8 17)

/-- trau_frame.c:1409-1427 `is_amr_low` -/
def isAmrLow (b : List Bool) : M Bool :=
  checkBits b (zeros8 ++ [(8, true), (16, true), (24, false), (25, true)] ++ onesAt 32 8 16)

/-- trau_frame.c:1430-1452 `is_amr_67` -/
def isAmr67 (b : List Bool) : M Bool :=
  checkBits b (zeros8 ++ [(8, true), (16, true), (24, true), (32, true), (40, false)] ++ onesAt 48 16 7)

/-- trau_frame.c:1455-1467 `is_amr_74` -/
def isAmr74 (b : List Bool) : M Bool :=
  checkBits b [(0, false), (1, false), (2, true), (8, false), (16, true), (24, false)]

/-- trau_frame.c:1474-1522 `osmo_trau_frame_decode_8k` -/
def decode8k (f : Frame) (b : List Bool) (dir : Dir) : M (Int × Frame) := do
  let hr ← isHr b
  if hr then do
    let c ← getBits b 9 5 0
    match dir with
    | .ul =>
      if c = 0x02 then ret0 (decode8Hr (f.start dir .speech8) b)
      else if c = 0x07 then ret0 (decode8Data (f.start dir .data8) b)
      else if c = 0x0b then ret0 (decode8Oam (f.start dir .oam8) b)
      else .ok (-EINVAL, f.start dir .none)
    | .dl =>
      if c / 4 = 0 then ret0 (decode8Hr (f.start dir .speech8) b)
      else if c / 4 = 1 then ret0 (decode8Data (f.start dir .data8) b)
      else if c / 4 = 2 then ret0 (decode8Oam (f.start dir .oam8) b)
      else .ok (-EINVAL, f.start dir .none)
  else do
    let low ← isAmrLow b
    if low then ret0 (decode8AmrLow (f.start dir .amrLow8) b)
    else do
      let a67 ← isAmr67 b
      if a67 then ret0 (decode8Amr67 (f.start dir .amr67) b)
      else do
        let a74 ← isAmr74 b
        if a74 then ret0 (decode8Amr74 (f.start dir .amr74) b)
        else .ok (-EINVAL, f.start dir .none)

end Verif.Trau
