import Verif.Base
/-!
# Model of `src/trau/trau_sync.c`

`ubit_t` values are octets (`Byte`).  The contents of the uninitialised stack array `tmp[]` in
`rx_history_align` are given by a parameter `g`: `g k i` is what `tmp[i]` happens to contain in the
`k`-th execution of that function; the theorems hold for every `g`.

Not modelled: calls of the API from within the frame call-back, the internal event `RESET` (nothing
dispatches it), allocation failure.  The FSM core (libosmocore `osmo_fsm_inst_state_chg`,
`osmo_fsm_inst_dispatch`) is modelled as far as used: a state change outside `out_state_mask` is
refused without effect, otherwise it stops the timer, starts a new one if a timeout is given, and
runs the `onenter` action.
-/
namespace Verif.TrauSync
open Verif

/-- trau_sync.c:40-51 `struct sync_pattern` after expand_sync_pattern() (292-296), which unpacks the
octets MSB first (libosmocore `osmo_pbit2ubit`); `bits`/`mask` have `byte_len * 8` elements -/
structure Pat where
  byteLen : Nat
  bits : List Byte
  mask : List Byte
  deriving DecidableEq, Repr

/-- `osmo_pbit2ubit` (libosmocore): unpack, MSB first -/
def pbit2ubit (bs : List Byte) : List Byte :=
  bs.flatMap fun b => (List.range 8).map fun i => if b.getLsbD (7 - i) then 1 else 0

/-- trau_sync.c:292-296 `expand_sync_pattern` -/
def mkPat (len : Nat) (pattern mask : List Byte) : Pat :=
  { byteLen := len
    bits := (pbit2ubit (pattern ++ List.replicate (160 - pattern.length) 0)).take (len * 8)
    mask := (pbit2ubit (mask ++ List.replicate (160 - mask.length) 0)).take (len * 8) }

/-- `n` times the octets `l` -/
def rep (n : Nat) (l : List Byte) : List Byte := (List.replicate n l).flatten

/-- trau_sync.c:53-290 `sync_patterns`, in the order of `enum osmo_trau_sync_pat_id`
(include/osmocom/trau/trau_sync.h:8-19).  Trailing zero octets are filled in by `mkPat`. -/
def syncPatterns : List Pat := [
  -- 54-73 FR/EFR
  mkPat 40 ([0x00, 0x00] ++ rep 19 [0x80, 0x00]) ([0xff, 0xff] ++ rep 19 [0x80, 0x00]),
  -- 74-93 HR8
  mkPat 20 ([0x00, 0x80, 0x40, 0x80] ++ rep 16 [0x80]) ([0xff, 0x80, 0xc0, 0x80] ++ rep 16 [0x80]),
  -- 94-114 AMR8_LOW
  mkPat 20 ([0x00, 0x80, 0x80, 0x40] ++ rep 16 [0x80]) ([0xff, 0x80, 0x80, 0xc0] ++ rep 16 [0x80]),
  -- 115-134 AMR8_67
  mkPat 20 ([0x00, 0x80, 0x80, 0x80] ++ rep 8 [0x80, 0x00])
    ([0xff, 0x80, 0x80, 0x80, 0x80, 0x80] ++ rep 7 [0x80, 0x00]),
  -- 135-154 AMR8_74
  mkPat 20 [0x20, 0x00, 0x80, 0x00] [0xe0, 0x80, 0x80, 0x80],
  -- 155-167 V110
  mkPat 10 ([0x00] ++ rep 9 [0x80]) ([0xff] ++ rep 9 [0x80]),
  -- 168-180 Ericsson CCU 16 kbps
  mkPat 40 [0x00, 0x00, 0x80] [0xff, 0xff, 0x80],
  -- 181-228 Ericsson CCU 64 kbps
  mkPat 160 (rep 8 [0x00] ++ [0x80]) (rep 8 [0xff] ++ [0x80]),
  -- 229-276 Ericsson CCU 64 kbps MCS9
  mkPat 160 [0x00, 0x00, 0x80] [0xff, 0xff, 0x80],
  -- 277-289 FA
  mkPat 8 [0x3e, 0x37, 0x50, 0x96, 0xc1, 0xc8, 0xaf, 0x69] (rep 8 [0xff])]

/-- trau_sync.c:446-451 `enum trau_sync_state` -/
inductive Fsm where
  | wait | aligned | lost
  deriving DecidableEq, Repr

/-- trau_sync.c:341-356 `struct trau_rx_sync_state` and the FSM instance.  `timer` says whether the
FSM timer is running; `nAlign` counts the executions of rx_history_align (index into `g`). -/
structure St where
  hist : List Byte
  idx : Nat
  pats : List (Option Pat)
  errs : Nat
  fsm : Fsm
  timer : Bool
  nAlign : Nat
  deriving DecidableEq, Repr

/-- A call-back: `some bits` for a frame, `none` for the NULL frame signalling loss of alignment -/
abbrev Ev := Option (List Byte)

/-- trau_sync.c:34,349 `ARRAY_SIZE(tss->history)` -/
def HIST : Nat := 160 * 8 + 1

/-- `tss->pattern[i]` dereferenced -/
def patAt (s : St) (i : Nat) : M Pat := do
  match ← rd s.pats i with
  | some p => .ok p
  | none => .error .badptr

/-- the loop of trau_sync.c:369-377, iterations `i .. i+n-1` -/
def corrLoop (hist : List Byte) (p : Pat) (start : Nat) : Nat → Nat → Nat → M Nat
  | 0, _, wrong => .ok wrong
  | n + 1, i, wrong => do
    let pos := (start + i) % HIST
    let m ← rd p.mask i
    if m = 0 then corrLoop hist p start n (i + 1) wrong
    else
      let h ← rd hist pos
      let b ← rd p.bits i
      corrLoop hist p start n (i + 1) (if h ≠ b then wrong + 1 else wrong)

/-- trau_sync.c:359-380 `correlate_history_against_pattern`.  (`history_idx` is below 1281 and
`byte_len*8` at most 1280, so the unsigned subtraction does not wrap.) -/
def correlate (s : St) (p : Pat) : M Nat := do
  let start := (HIST + s.idx - p.byteLen * 8) % HIST
  cassert (p.byteLen * 8 ≤ HIST)
  corrLoop s.hist p start (p.byteLen * 8) 0 0

/-- the loop of trau_sync.c:389-404 over the pattern pointers -/
def corrPats (s : St) : List (Option Pat) → Nat → M Nat
  | [], best => .ok best
  | none :: ps, best => corrPats s ps best
  | some p :: ps, best => do
    let w ← correlate s p
    if w = 0 then .ok 0
    else corrPats s ps (if w < best then w else best)

/-- trau_sync.c:383-407 `correlate_history_against_patterns` -/
def correlateAll (s : St) : M Nat := corrPats s s.pats (160 * 8)

/-- trau_sync.c:410-415 `rx_history_add_bit` -/
def addBit (s : St) (b : Byte) : M St := do
  let h ← wr s.hist s.idx b
  .ok { s with hist := h, idx := (s.idx + 1) % HIST }

/-- `byte_len*8 - history_idx` as `unsigned int` (trau_sync.c:420, 514) -/
def remaining (p : Pat) (idx : Nat) : Nat := (2 ^ 32 + p.byteLen * 8 - idx) % 2 ^ 32

/-- trau_sync.c:418-424 `rx_history_add_bits` -/
def addBits (s : St) (bits : List Byte) : M St := do
  let p ← patAt s 0
  cassert (bits.length ≤ remaining p s.idx)
  let h ← blit s.hist s.idx bits
  .ok { s with hist := h, idx := s.idx + bits.length }

/-- the loop of trau_sync.c:439-440: `n` elements from `i` on -/
def copyLoop (hist : List Byte) (first : Nat) : Nat → Nat → M (List Byte)
  | 0, _ => .ok []
  | n + 1, i => do
    let x ← rd hist ((first + i) % HIST)
    let r ← copyLoop hist first n (i + 1)
    .ok (x :: r)

/-- trau_sync.c:427-444 `rx_history_align`; the elements of `tmp` from `pattern_bits` on are not
initialised -/
def align (g : Nat → Nat → Byte) (s : St) : M St := do
  let p ← patAt s 0
  let first := (HIST + s.idx - p.byteLen * 8) % HIST
  let l ← copyLoop s.hist first (p.byteLen * 8) 0
  let tail := (List.range (HIST - p.byteLen * 8)).map fun i => g s.nAlign (p.byteLen * 8 + i)
  .ok { s with hist := l ++ tail, idx := 0, nAlign := s.nAlign + 1 }

/-- trau_sync.c:589-609 `out_state_mask` -/
def allowed : Fsm → Fsm → Bool
  | .wait, .aligned => true
  | .aligned, .lost => true
  | .aligned, .wait => true
  | .lost, .wait => true
  | .lost, .aligned => true
  | _, _ => false

/-- trau_sync.c:496-502 `trau_sync_aligned_onenter` -/
def onenterAligned (g : Nat → Nat → Byte) (s : St) : M (St × List Ev) := do
  let s ← align g s
  let p ← patAt s 0
  let f ← slice s.hist 0 (p.byteLen * 8)
  .ok (s, [some f])

/-- `osmo_fsm_inst_state_chg(fi, to, timeout, T)` (libosmocore) on trau_sync_fsm -/
def stateChg (g : Nat → Nat → Byte) (s : St) (to : Fsm) (timeout : Bool) : M (St × List Ev) :=
  if allowed s.fsm to then
    let s := { s with fsm := to, timer := timeout }
    match to with
    | .aligned => onenterAligned g s
    | _ => .ok (s, [])
  else .ok (s, [])

/-- `osmo_fsm_inst_dispatch(fi, TRAUSYNC_E_RX_BITS, ubb)`: trau_sync.c:466-494
`trau_sync_wait_align` (states WAIT_FRAME_ALIGN and, through 550-561, FRAME_ALIGNMENT_LOST) and
504-548 `trau_sync_aligned`.  One unit of `fuel` is used per loop iteration or nested dispatch;
running out of it is a fault and shown never to happen. -/
def dispatch (g : Nat → Nat → Byte) : Nat → St → List Byte → M (St × List Ev)
  | _, s, [] => .ok (s, [])
  | 0, _, _ => .error .assert
  | fuel + 1, s, b :: bs =>
    match s.fsm with
    | .wait | .lost => do
      let s ← addBit s b
      let p ← patAt s 0
      let rc ← correlate s p
      if rc = 0 then
        let (s, e1) ← stateChg g s .aligned false
        let (s, e2) ← dispatch g fuel s bs
        .ok (s, e1 ++ e2)
      else dispatch g fuel s bs
    | .aligned => do
      let p ← patAt s 0
      let rem := remaining p s.idx
      if (b :: bs).length < rem then
        let s ← addBits s (b :: bs)
        .ok (s, [])
      else
        let s ← addBits s ((b :: bs).take rem)
        let rest := (b :: bs).drop rem
        let rc ← correlateAll s
        let errs := if rc > 0 then (s.errs + 1) % 2 ^ 32 else 0
        let s := { s with errs := errs }
        if rc > 0 ∧ errs ≥ 3 then
          let (s, e1) ← stateChg g { s with idx := 0 } .lost true
          let (s, e2) ← dispatch g fuel s rest
          .ok (s, none :: e1 ++ e2)
        else
          let f ← slice s.hist 0 s.idx
          let (s, e2) ← dispatch g fuel { s with idx := 0 } rest
          .ok (s, some f :: e2)

/-- trau_sync.c:682-687 `osmo_trau_sync_rx_ubits` -/
def rxUbits (g : Nat → Nat → Byte) (s : St) (bits : List Byte) : M (St × List Ev) :=
  dispatch g bits.length s bits

/-- trau_sync.c:623-654 `osmo_trau_sync_alloc` (`none`: NULL returned) -/
def alloc (patId : Nat) : Option St :=
  match syncPatterns[patId]? with
  | none => none
  | some p => some
    { hist := List.replicate HIST 1, idx := 0, pats := some p :: List.replicate 7 none, errs := 0,
      fsm := .wait, timer := false, nAlign := 0 }

/-- trau_sync.c:656-666 `osmo_trau_sync_set_pat`; there is no check of the pattern number -/
def setPat (g : Nat → Nat → Byte) (s : St) (patId : Nat) : M (St × List Ev) := do
  let p ← rd syncPatterns patId
  stateChg g { s with pats := some p :: List.replicate 7 none } .lost false

/-- trau_sync.c:668-680 `osmo_trau_sync_set_secondary_pat` -/
def setSecondary (g : Nat → Nat → Byte) (s : St) (patId patIndex : Nat) : M (St × List Ev) := do
  cassert (patIndex > 0)
  cassert (patIndex < s.pats.length)
  let p0 ← patAt s 0
  let p ← rd syncPatterns patId
  cassert (p0.byteLen = p.byteLen)
  let ps ← wr s.pats patIndex (some p)
  stateChg g { s with pats := ps } .lost false

/-- Expiry of the FSM timer (trau_sync.c:574-587 `trau_sync_timeout`; T_SYNC is the only timer).
libosmocore stops the timer before running the call-back. -/
def timeout (g : Nat → Nat → Byte) (s : St) : M (St × List Ev) :=
  if s.timer then stateChg g { s with timer := false } .wait false else .ok (s, [])

end Verif.TrauSync
