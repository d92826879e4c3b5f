import Verif.Demux
/-!
# Model of `src/subchan_demux.c` with a frame call-back that uses the demultiplexer

`out_cb` may call `subch_demux_activate`, `subch_demux_deactivate` and `subch_demux_init` on the demultiplexer it is called for.
(A call of `subch_demux_in` from the call-back is not modelled.)
-/
namespace Verif.Demux.Re

/-- what the call-back does with the demultiplexer; sub-channel numbers are not negative (see C10) -/
inductive CbOp where
  | activate (n : Nat)
  | deactivate (n : Nat)
  | init
  deriving DecidableEq, Repr

/-- the history: frames handed to the call-back, and what it does then -/
inductive Ent where
  | frame (c : Nat) (f : List Byte)
  | op (o : CbOp)
  deriving DecidableEq, Repr

/-- a call-back with a state of its own -/
abbrev Cb (U : Type) := U → Nat → List Byte → U × List CbOp

/-- subchan_demux.c:82-93, 168-192: one call from the call-back -/
def apply (d : Dmx) : CbOp → M Dmx
  | .activate n => do let (d, _) ← activate d n; .ok d
  | .deactivate n => do let (d, _) ← deactivate d n; .ok d
  | .init => .ok (init d)

def applyAll (d : Dmx) : List CbOp → M Dmx
  | [] => .ok d
  | o :: os => do let d ← apply d o; applyAll d os

/-- subchan_demux.c:95-116 `append_bit_resync_out`: `in_sync` and `out_idx` are cleared after the call-back has returned -/
def feed {U : Type} (cb : Cb U) (u : U) (d : Dmx) (c : Nat) (bit : Bool) : M (U × Dmx × List Ent) := do
  let s ← appendBit (d.subch c) bit
  let (s, complete) := syncHdrComplete s bit
  let s ← if complete then resyncToHere s else .ok s
  if s.outIdx ≥ TRAU_FRAME_BITS then
    if s.inSync then do
      let data ← slice s.outBitbuf 0 s.outIdx
      let r := cb u c data
      let d ← applyAll (setSub d c s) r.2
      .ok (r.1, setSub d c { d.subch c with inSync := false, outIdx := 0 }, .frame c data :: r.2.map .op)
    else .ok (u, setSub d c { s with outIdx := 0 }, [])
  else .ok (u, setSub d c s, [])

/-- subchan_demux.c:133-157: body of the inner loop; the activity is looked at for each sub-channel in turn -/
def demuxSub {U : Type} (cb : Cb U) (u : U) (d : Dmx) (inbyte : Byte) (c : Nat) : M (U × Dmx × List Ent) := do
  if !active d.chanActiv c then .ok (u, d, [])
  else
    let (b0, b1) := inbits inbyte c
    let (u, d, e0) ← feed cb u d c b0
    let (u, d, e1) ← feed cb u d c b1
    .ok (u, d, e0 ++ e1)

/-- subchan_demux.c:133 -/
def demuxSubs {U : Type} (cb : Cb U) (u : U) (d : Dmx) (inbyte : Byte) : List Nat → M (U × Dmx × List Ent)
  | [] => .ok (u, d, [])
  | c :: cs => do
    let (u, d, e) ← demuxSub cb u d inbyte c
    let (u, d, e') ← demuxSubs cb u d inbyte cs
    .ok (u, d, e ++ e')

/-- subchan_demux.c:126-158 `subch_demux_in` -/
def demuxIn {U : Type} (cb : Cb U) (u : U) (d : Dmx) : List Byte → M (U × Dmx × List Ent)
  | [] => .ok (u, d, [])
  | b :: bs => do
    let (u, d, e) ← demuxSubs cb u d b (List.range NR_SUBCH)
    let (u, d, e') ← demuxIn cb u d bs
    .ok (u, d, e ++ e')

end Verif.Demux.Re
