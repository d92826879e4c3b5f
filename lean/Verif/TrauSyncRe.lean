import Verif.TrauSync
/-!
# Model of `src/trau/trau_sync.c` with a user who changes the patterns from within the call-back

`Verif/TrauSync.lean` leaves out calls of the API from within the frame call-back.  Here the user is a
parameter `U`: after each call-back it returns the calls of `osmo_trau_sync_set_pat` and
`osmo_trau_sync_set_secondary_pat` made before the call-back returns, as a function of all call-backs made so
far (the current one last) and of the state of the instance.  These two functions change to the state
FRAME_ALIGNMENT_LOST only, which has no `onenter` action, so there are no nested call-backs.

Not modelled: feeding further bits or freeing the instance from within the call-back.
-/
namespace Verif.TrauSync
open Verif

/-- what the user may call from within the call-back (trau_sync.c:656-680) -/
inductive UOp where
  | setPat (patId : Nat)
  | setSecondary (patId patIndex : Nat)
  deriving DecidableEq, Repr

/-- the user of an instance -/
abbrev User := List Ev → St → List UOp

/-- the calls made by the user within one call-back -/
def applyOps (g : Nat → Nat → Byte) : St → List UOp → M St
  | s, [] => .ok s
  | s, .setPat i :: os => do
    let (s, _) ← setPat g s i
    applyOps g s os
  | s, .setSecondary i j :: os => do
    let (s, _) ← setSecondary g s i j
    applyOps g s os

/-- `tss->out_cb(tss->user_data, …)` (trau_sync.c:501, 532, 540); `es` are the call-backs made before -/
def callU (g : Nat → Nat → Byte) (U : User) (s : St) (es : List Ev) (e : Ev) : M (St × List Ev) := do
  let s ← applyOps g s (U (es ++ [e]) s)
  .ok (s, es ++ [e])

/-- `osmo_fsm_inst_state_chg(fi, FRAME_ALIGNED, 0, 0)` in trau_sync_wait_align (trau_sync.c:484) with the
`onenter` action trau_sync_aligned_onenter (496-502) -/
def enterAligned (g : Nat → Nat → Byte) (U : User) (s : St) (es : List Ev) : M (St × List Ev) :=
  if allowed s.fsm .aligned then do
    let s := { s with fsm := .aligned, timer := false }
    let s ← align g s
    let p ← patAt s 0
    let f ← slice s.hist 0 (p.byteLen * 8)
    callU g U s es (some f)
  else .ok (s, es)

/-- The loops of trau_sync_wait_align (trau_sync.c:474-489; `al = false`) and of trau_sync_aligned (513-543;
`al = true`).  Which loop is running is a matter of the program counter: the state variable `fsm` may be
changed by the user within the call-back, and selects the loop only when bits are dispatched (486, 534 and
the start of `osmo_trau_sync_rx_ubits`).  One unit of `fuel` per iteration; running out of it is a fault. -/
def loopU (g : Nat → Nat → Byte) (U : User) : Nat → Bool → St → List Byte → List Ev → M (St × List Ev)
  | _, _, s, [], es => .ok (s, es)
  | 0, _, _, _ :: _, _ => .error .assert
  | fuel + 1, false, s, b :: bs, es => do
    let s ← addBit s b
    let p ← patAt s 0
    let rc ← correlate s p
    if rc = 0 then
      let (s, es) ← enterAligned g U s es
      loopU g U fuel (s.fsm == .aligned) s bs es
    else loopU g U fuel false s bs es
  | fuel + 1, true, s, b :: bs, es => do
    let p ← patAt s 0
    let rem := remaining p s.idx
    if (b :: bs).length < rem then
      let s ← addBits s (b :: bs)
      .ok (s, es)
    else
      let s ← addBits s ((b :: bs).take rem)
      let rest := (b :: bs).drop rem
      let rc ← correlateAll s
      let errs := if rc > 0 then (s.errs + 1) % 2 ^ 32 else 0
      let s := { s with errs := errs }
      if rc > 0 ∧ errs ≥ 3 then
        let (s, es) ← callU g U { s with idx := 0 } es none
        let (s, _) ← stateChg g s .lost true
        loopU g U fuel (s.fsm == .aligned) s rest es
      else
        let f ← slice s.hist 0 s.idx
        let (s, es) ← callU g U s es (some f)
        loopU g U fuel true { s with idx := 0 } rest es

/-- trau_sync.c:682-687 `osmo_trau_sync_rx_ubits`; `es` are the call-backs made before, the result has the new
ones appended -/
def rxUbitsU (g : Nat → Nat → Byte) (U : User) (s : St) (bits : List Byte) (es : List Ev) : M (St × List Ev) :=
  loopU g U bits.length (s.fsm == .aligned) s bits es

end Verif.TrauSync
