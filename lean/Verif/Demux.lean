import Verif.Base
/-!
# Model of the de-multiplexer half of `src/subchan_demux.c`

`ubit_t` values are octets (`Byte`); the buffers really hold `0xff` after `subch_demux_init`.
-/
namespace Verif.Demux

/-- include/osmocom/abis/subchan_demux.h:35 `NR_SUBCH` -/
def NR_SUBCH : Nat := 4
/-- include/osmocom/abis/subchan_demux.h:39 `TRAU_FRAME_BITS` -/
def TRAU_FRAME_BITS : Nat := 320
/-- subchan_demux.c:48 `SYNC_HDR_BITS` -/
def SYNC_HDR_BITS : Nat := 16

/-- value stored for a received bit -/
def ub (b : Bool) : Byte := if b then 1 else 0

/-- subchan_demux.h:46-55 `struct demux_subch`.  `out_idx` is an `uint16_t` which never exceeds 320
(shown below, as otherwise the store would fault), `consecutive_zeros` is an `unsigned int` and
wraps at 2^32. -/
structure Sch where
  outBitbuf : List Byte
  outIdx : Nat
  consecutiveZeros : Nat
  inSync : Bool
  deriving DecidableEq, Repr

/-- subchan_demux.h:58-70 `struct subch_demux` without callback pointer and private data; callbacks
are returned as a list of events. -/
structure Dmx where
  chanActiv : Byte
  subch : Nat → Sch

/-- a call `out_cb(dmx, ch, data, len, ...)`; `len` is the length of the list -/
abbrev Ev := Nat × List Byte

/-- subchan_demux.c:43-46 `append_bit` -/
def appendBit (s : Sch) (bit : Bool) : M Sch := do
  let buf ← wr s.outBitbuf s.outIdx (ub bit)
  .ok { s with outBitbuf := buf, outIdx := s.outIdx + 1 }

/-- subchan_demux.c:52-65 `sync_hdr_complete` -/
def syncHdrComplete (s : Sch) (bit : Bool) : Sch × Bool :=
  if !bit then
    ({ s with consecutiveZeros := (s.consecutiveZeros + 1) % 2 ^ 32 }, false)
  else if s.consecutiveZeros ≥ SYNC_HDR_BITS then
    ({ s with consecutiveZeros := 0 }, true)
  else
    ({ s with consecutiveZeros := 0 }, false)

/-- subchan_demux.c:68-77 `resync_to_here` -/
def resyncToHere (s : Sch) : M Sch := do
  let buf ← blit s.outBitbuf 0 (List.replicate SYNC_HDR_BITS 0)
  let buf ← wr buf SYNC_HDR_BITS 1
  .ok { s with outBitbuf := buf, outIdx := SYNC_HDR_BITS + 1, inSync := true }

/-- subchan_demux.c:95-116 `append_bit_resync_out`, returning the delivered frame if any -/
def appendBitResyncOut (s : Sch) (bit : Bool) : M (Sch × Option (List Byte)) := do
  let s ← appendBit s bit
  let (s, complete) := syncHdrComplete s bit
  let s ← if complete then resyncToHere s else .ok s
  if s.outIdx ≥ TRAU_FRAME_BITS then
    if s.inSync then do
      let data ← slice s.outBitbuf 0 s.outIdx
      .ok ({ s with inSync := false, outIdx := 0 }, some data)
    else .ok ({ s with outIdx := 0 }, none)
  else .ok (s, none)

/-- `dmx->chan_activ & (1 << c)` (subchan_demux.c:138) -/
def active (activ : Byte) (c : Nat) : Bool := activ &&& ((1 : Byte) <<< c) != 0

/-- subchan_demux.c:141-157: the two bits of sub-channel `c` in octet `inbyte` -/
def inbits (inbyte : Byte) (c : Nat) : Bool × Bool :=
  let inbits := inbyte >>> (c <<< 1)
  (inbits &&& 0x01 != 0, inbits &&& 0x02 != 0)

/-- update of array element `c` -/
def setSub (d : Dmx) (c : Nat) (s : Sch) : Dmx :=
  { d with subch := fun i => if i = c then s else d.subch i }

/-- one call of `append_bit_resync_out(dmx, c, bit)` on the whole structure -/
def feed (d : Dmx) (c : Nat) (bit : Bool) : M (Dmx × List Ev) := do
  let (s, o) ← appendBitResyncOut (d.subch c) bit
  .ok (setSub d c s, o.toList.map fun f => (c, f))

/-- subchan_demux.c:133-157: body of the inner loop for sub-channel `c` -/
def demuxSub (d : Dmx) (inbyte : Byte) (c : Nat) : M (Dmx × List Ev) := do
  if !active d.chanActiv c then .ok (d, [])
  else
    let (b0, b1) := inbits inbyte c
    let (d, e0) ← feed d c b0
    let (d, e1) ← feed d c b1
    .ok (d, e0 ++ e1)

/-- subchan_demux.c:133: `for (c = 0; c < NR_SUBCH; c++)` over the given sub-channel numbers -/
def demuxSubs (d : Dmx) (inbyte : Byte) : List Nat → M (Dmx × List Ev)
  | [] => .ok (d, [])
  | c :: cs => do
    let (d, e) ← demuxSub d inbyte c
    let (d, e') ← demuxSubs d inbyte cs
    .ok (d, e ++ e')

/-- subchan_demux.c:126-158 `subch_demux_in` (the return value is the number of octets) -/
def demuxIn (d : Dmx) : List Byte → M (Dmx × List Ev)
  | [] => .ok (d, [])
  | b :: bs => do
    let (d, e) ← demuxSubs d b (List.range NR_SUBCH)
    let (d, e') ← demuxIn d bs
    .ok (d, e ++ e')

/-- subchan_demux.c:82-93 `subch_demux_init`: note that `consecutive_zeros` and `in_sync` keep
their values. -/
def init (d : Dmx) : Dmx :=
  { chanActiv := 0,
    subch := fun i => { d.subch i with outIdx := 0,
                                       outBitbuf := List.replicate TRAU_FRAME_BITS 0xff } }

/-- a zeroed (static or `talloc_zero`ed) structure -/
def zeroed : Dmx :=
  { chanActiv := 0,
    subch := fun _ => { outBitbuf := List.replicate TRAU_FRAME_BITS 0, outIdx := 0,
                        consecutiveZeros := 0, inSync := false } }

/-- subchan_demux.c:168-175 `subch_demux_activate`.  A negative `subch` passes the check and
shifts by a negative amount: undefined behaviour, `Fault.oob`. -/
def activate (d : Dmx) (subch : Int) : M (Dmx × Int) :=
  if subch ≥ 4 then .ok (d, -EINVAL)
  else if subch < 0 then .error .oob
  else .ok ({ d with chanActiv := d.chanActiv ||| ((1 : Byte) <<< subch.toNat) }, 0)

/-- subchan_demux.c:185-192 `subch_demux_deactivate` -/
def deactivate (d : Dmx) (subch : Int) : M (Dmx × Int) :=
  if subch ≥ 4 then .ok (d, -EINVAL)
  else if subch < 0 then .error .oob
  else .ok ({ d with chanActiv := d.chanActiv &&& ~~~((1 : Byte) <<< subch.toNat) }, 0)

end Verif.Demux
