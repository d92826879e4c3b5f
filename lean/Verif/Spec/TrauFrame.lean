import Verif.TrauFrame
/-!
# Specification vocabulary for TRAU frames (3GPP TS 48.060, TS 48.061)

Uses only the public data types (`enum osmo_trau_frame_type`, `struct osmo_trau_frame`, …).
-/
namespace Verif.Spec.Trau
open Verif.Trau

/-- C1..C5 by frame type and direction (TS 48.060 5.5, TS 48.061 5.1.4); same code in both directions for
EFR, AMR, D145_SYNC and EDATA -/
def code : FT → Dir → List Bool
  | .fr, .ul => [false, false, false, true, false]
  | .fr, .dl => [true, true, true, false, false]
  | .efr, _ => [true, true, false, true, false]
  | .hr, .ul => [false, false, false, true, true]
  | .hr, .dl => [true, true, true, false, true]
  | .amr, _ => [false, false, true, true, false]
  | .oam, .ul => [false, false, true, false, true]
  | .oam, .dl => [true, true, false, true, true]
  | .data, .ul => [false, true, false, false, false]
  | .data, .dl => [true, false, true, true, false]
  | .dataHr, .ul => [false, true, false, false, true]
  | .dataHr, .dl => [true, false, true, true, true]
  | .idle, .ul => [true, false, false, false, false]
  | .idle, .dl => [false, true, true, true, false]
  | .d145, _ => [true, false, true, false, false]
  | .edata, _ => [true, true, true, true, true]
  | _, _ => []

/-- number of C bits carried by a frame of the given type -/
def nC : FT → Nat
  | .fr | .efr | .hr => 21
  | .amr => 25
  | .oam | .data | .dataHr | .d145 => 15
  | .edata => 13
  | .idle => 21
  | .speech8 => 9
  | .data8 | .oam8 | .amrLow8 => 5
  | .amr67 | .amr74 => 3
  | _ => 0

/-- number of D bits -/
def nD : FT → Nat
  | .fr | .efr | .idle => 260
  | .hr => 112
  | .amr => 256
  | .oam => 264
  | .data => 252
  | .dataHr => 126
  | .edata => 288
  | .speech8 => 112
  | .data8 => 126
  | .oam8 => 120
  | .amrLow8 => 126
  | .amr67 => 137
  | .amr74 => 151
  | _ => 0

/-- number of T bits -/
def nT : FT → Nat
  | .fr | .efr | .hr | .amr | .idle => 4
  | .speech8 => 2
  | .amrLow8 => 1
  | _ => 0

/-- number of S bits -/
def nS : FT → Nat
  | .oam => 6
  | _ => 0

/-- number of M bits -/
def nM : FT → Nat
  | .edata => 2
  | _ => 0

/-- is there a CRC? (half rate speech) -/
def hasCrc (t : FT) : Bool := t = .hr ∨ t = .speech8

/-- is there an unreliable frame indication? (half rate speech on 16k) -/
def hasUfi (t : FT) : Bool := t = .hr

/-- number of XC bits -/
def nXC : FT → Nat
  | .speech8 | .oam8 => 6
  | _ => 0

/-- What a frame of type `ty` transports besides the type code: the C bits from number `k` on and the
D, T, S, M, CRC, UFI and XC bits. -/
def payload (ty : FT) (k : Nat) (f : Frame) :
    List Bool × List Bool × List Bool × List Bool × List Bool × List Bool × Option Bool × List Bool :=
  ((f.c.take (nC ty)).drop k, f.d.take (nD ty), f.t.take (nT ty), f.s.take (nS ty), f.m.take (nM ty),
    (if hasCrc ty then f.crc else []), (if hasUfi ty then some f.ufi else none), f.xc.take (nXC ty))

/-- the space the encoder demands: speech frames may be lengthened for time alignment -/
def minBits : FT → Nat
  | .fr | .efr | .hr | .amr => 639
  | .oam | .idle | .dataHr | .data | .d145 | .edata => 320
  | .speech8 | .amrLow8 | .amr67 | .amr74 => 319
  | .data8 | .oam8 => 160
  | _ => 0

/-! ### wire layouts (figures of TS 48.060 5.1 - 5.4, TS 48.061 5.1 - 5.2) -/

/-- bits number `i+1` … `j` of a group of bits -/
def sub (l : List Bool) (i j : Nat) : List Bool := (l.drop i).take (j - i)

/-- `n` groups of `w` bits, each preceded by a synchronisation bit '1' -/
def sync (w n : Nat) (l : List Bool) : List Bool :=
  (List.range n).flatMap fun i => true :: sub l (w * i) (w * i + w)

def zeros (n : Nat) : List Bool := List.replicate n false
def ones (n : Nat) : List Bool := List.replicate n true

/-- full rate speech, EFR, idle -/
def layoutFr (cd : List Bool) (f : Frame) : List Bool :=
  zeros 16 ++ [true] ++ cd ++ sub f.c 5 15 ++ sync 15 17 f.d ++ [true] ++ sub f.d 255 260 ++
    sub f.c 15 21 ++ sub f.t 0 4

/-- AMR on 16k -/
def layoutAmr (cd : List Bool) (f : Frame) : List Bool :=
  zeros 16 ++ [true] ++ cd ++ sub f.c 5 15 ++ [true] ++ sub f.c 15 25 ++ sub f.d 0 5 ++
    sync 15 16 (f.d.drop 5) ++ [true] ++ sub f.d 245 256 ++ sub f.t 0 4

/-- half rate speech on 16k -/
def layoutHr (cd : List Bool) (f : Frame) : List Bool :=
  zeros 16 ++ [true] ++ cd ++ sub f.c 5 15 ++ [true, f.ufi] ++ sub f.d 0 14 ++
    [true] ++ sub f.d 14 29 ++ [true] ++ sub f.d 29 44 ++ [true] ++ sub f.crc 0 3 ++ sub f.d 44 56 ++
    [true] ++ sub f.d 56 71 ++ [true] ++ sub f.d 71 86 ++ [true] ++ sub f.d 86 101 ++
    [true] ++ sub f.d 101 112 ++ ones 154 ++ sub f.c 15 21 ++ sub f.t 0 4

/-- data -/
def layoutData (cd : List Bool) (f : Frame) : List Bool :=
  zeros 16 ++ [true] ++ cd ++ sub f.c 5 15 ++ sync 7 36 f.d

/-- half rate data -/
def layoutDataHr (cd : List Bool) (f : Frame) : List Bool :=
  zeros 16 ++ [true] ++ cd ++ sub f.c 5 15 ++ sync 7 9 f.d ++ ones 72 ++ sync 7 9 (f.d.drop 63) ++ ones 72

/-- D14.5 synchronisation -/
def layoutD145 (cd : List Bool) (f : Frame) : List Bool :=
  zeros 16 ++ [true] ++ cd ++ sub f.c 5 15 ++ ones 288

/-- extended data -/
def layoutEdata (cd : List Bool) (f : Frame) : List Bool :=
  zeros 16 ++ [true] ++ cd ++ sub f.c 5 13 ++ sub f.m 0 2 ++ sub f.d 0 288

/-- O&M as TS 48.060 5.2 has it -/
def layoutOam (cd : List Bool) (f : Frame) : List Bool :=
  zeros 16 ++ [true] ++ cd ++ sub f.c 5 15 ++ sync 15 17 f.d ++ [true] ++ sub f.d 255 264 ++ sub f.s 0 6

/-- half rate speech on 8k -/
def layoutHr8 (cd : List Bool) (f : Frame) : List Bool :=
  zeros 8 ++ [true] ++ cd ++ sub f.xc 0 2 ++ [false, true] ++ sub f.xc 2 6 ++ sub f.d 0 2 ++
    sync 7 6 (f.d.drop 2) ++ [true] ++ sub f.crc 0 3 ++ sub f.d 44 48 ++ sync 7 9 (f.d.drop 48) ++
    [true] ++ sub f.d 111 112 ++ sub f.c 5 9 ++ sub f.t 0 2

/-- AMR no-speech and low rates on 8k -/
def layoutLow8 (f : Frame) : List Bool :=
  zeros 8 ++ [true] ++ sub f.d 0 7 ++ [true] ++ sub f.c 0 5 ++ sub f.d 7 9 ++ [false, true] ++
    sub f.d 9 15 ++ sync 7 15 (f.d.drop 15) ++ [true] ++ sub f.d 120 126 ++ sub f.t 0 1

/-- AMR 7.4 on 8k -/
def layout74 (f : Frame) : List Bool :=
  [false, false, true] ++ sub f.d 0 5 ++ [false] ++ sub f.d 5 12 ++ [true] ++ sub f.c 0 3 ++
    sub f.d 12 16 ++ [false] ++ sub f.d 16 23 ++ sub f.d 23 151

/-- data on 8k -/
def layoutData8 (f : Frame) : List Bool :=
  zeros 8 ++ [true] ++ sub f.c 0 5 ++ sub f.d 0 2 ++ [false, true] ++ sub f.d 2 8 ++
    sync 7 16 (f.d.drop 8) ++ [true] ++ sub f.d 120 126 ++ [true]

/-- O&M on 8k (TS 48.061 5.2.3), all but the last bit, which is a '1' in the standard -/
def layoutOam8 (f : Frame) : List Bool :=
  zeros 8 ++ [true] ++ sub f.c 0 5 ++ sub f.xc 0 2 ++ [false, true] ++ sub f.xc 2 6 ++ sub f.d 0 2 ++
    sync 7 16 (f.d.drop 2) ++ [true] ++ sub f.d 114 120

/-- C1..C5 of an 8k speech frame (TS 48.061 5.2.4.1): 0001P up-link, 000UP down-link, odd parity P -/
def speech8Code : Dir → Bool → List Bool
  | .ul, _ => [false, false, false, true, false]
  | .dl, ufi => [false, false, false, ufi, !ufi]

/-- the bits of a frame on the wire as the standard has them (types with a correct encoder) -/
def wire (f : Frame) : List Bool :=
  match f.type with
  | .fr => layoutFr (code .fr f.dir) f
  | .efr => layoutFr (code .efr f.dir) f
  | .hr => layoutHr (code .hr f.dir) f
  | .amr => layoutAmr (code .amr f.dir) f
  | .data => layoutData (code .data f.dir) f
  | .dataHr => layoutDataHr (code .dataHr f.dir) f
  | .d145 => layoutD145 (code .d145 f.dir) f
  | .edata => layoutEdata (code .edata f.dir) f
  | .speech8 => layoutHr8 (speech8Code f.dir (f.c.getD 3 false)) f
  | .amrLow8 => layoutLow8 f
  | .amr74 => layout74 f
  | .data8 => layoutData8 f
  | _ => []

/-- the frame types for which `wire` is defined -/
def wired : List FT :=
  [.fr, .efr, .hr, .amr, .data, .dataHr, .d145, .edata, .speech8, .amrLow8, .amr74, .data8]

/-- all frame types -/
def allTypes : List FT :=
  [.fr, .efr, .hr, .amr, .oam, .idle, .data, .dataHr, .d145, .edata,
   .speech8, .amrLow8, .amr67, .amr74, .data8, .oam8]

/-- the frame types transmitted on 16k sub-slots -/
def types16 : List FT := [.fr, .efr, .hr, .amr, .oam, .idle, .data, .dataHr, .d145, .edata]

/-- bits per 20 ms: 320 on 16k, 160 on 8k -/
def frameBits (t : FT) : Nat := if t ∈ types16 then 320 else 160

/-- value of a bit string, most significant bit first -/
def val (l : List Bool) : Nat := l.foldl (fun a x => 2 * a + x.toNat) 0

/-- time alignment requested by C6..C11 (TS 48.060 5.5.1.1.1), in microseconds: N x 500 for N = 0..39, +250,
-250; unused codes mean no change -/
def request16 (n : Nat) : Int :=
  if n ≤ 39 then 500 * n else if n = 62 then 250 else if n = 63 then -250 else 0

/-- time alignment requested by C6..C8 on 8k (TS 48.061 table 6.1), indexed by the value of C6..C8 -/
def request8 (n : Nat) : Int := [9000, 6000, 2000, 500, 1000, 250, -250, 0].getD n 0

/-- `b` shows the given bits at the given places -/
def Shows (b : List Bool) (l : List (Nat × Bool)) : Prop := ∀ p ∈ l, b[p.1]? = some p.2

/-- synchronisation pattern of 8k speech, data and O&M frames (TS 48.061 6.8.2.1.1) -/
def syncHr8 : List (Nat × Bool) :=
  (List.range 8).map (fun i => (i, false)) ++ [(8, true), (16, false), (17, true)] ++
    (List.range 17).map fun k => (24 + 8 * k, true)

/-- synchronisation pattern of 8k AMR no-speech / low rate frames (6.8.2.1.2) -/
def syncLow8 : List (Nat × Bool) :=
  (List.range 8).map (fun i => (i, false)) ++ [(8, true), (16, true), (24, false), (25, true)] ++
    (List.range 16).map fun k => (32 + 8 * k, true)

/-- synchronisation pattern of 8k AMR 6.7 frames (6.8.2.1.3), as far as it is checked -/
def sync67 : List (Nat × Bool) :=
  (List.range 8).map (fun i => (i, false)) ++
    [(8, true), (16, true), (24, true), (32, true), (40, false)] ++
    (List.range 7).map fun k => (48 + 16 * k, true)

/-- synchronisation pattern of 8k AMR 7.4 frames (6.8.2.1.4) -/
def sync74 : List (Nat × Bool) := [(0, false), (1, false), (2, true), (8, false), (16, true), (24, false)]

/-- the bits `l` starting at place `i` -/
def bitsAt (i : Nat) (l : List Bool) : List (Nat × Bool) := (List.range l.length).map fun k => (i + k, l.getD k false)

/-- How a frame on an 8k sub-slot is recognised (TS 48.061 6.8.2.1 and table 5.3): synchronisation pattern,
and for speech, data and O&M frames the control bits C1..C5 (up-link) or C1..C3 (down-link). -/
def rows8 : Dir → List (List (Nat × Bool) × FT)
  | .ul => [(syncHr8 ++ bitsAt 9 [false, false, false, true, false], .speech8),
      (syncHr8 ++ bitsAt 9 [false, false, true, true, true], .data8),
      (syncHr8 ++ bitsAt 9 [false, true, false, true, true], .oam8),
      (syncLow8, .amrLow8), (sync67, .amr67), (sync74, .amr74)]
  | .dl => [(syncHr8 ++ bitsAt 9 [false, false, false], .speech8),
      (syncHr8 ++ bitsAt 9 [false, false, true], .data8),
      (syncHr8 ++ bitsAt 9 [false, true, false], .oam8),
      (syncLow8, .amrLow8), (sync67, .amr67), (sync74, .amr74)]

end Verif.Spec.Trau
