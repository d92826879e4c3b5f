import Verif.OldTrauFrame
/-!
# Model of the multiplexer half of `src/subchan_demux.c`

`talloc` is assumed not to fail (the only way `subchan_mux_enqueue` returns an error).
-/
namespace Verif.Mux
open Verif

/-- include/osmocom/abis/subchan_demux.h:81-89 `struct subch_txq_entry`; `bit_len` is the length of
`bits` -/
structure Entry where
  bits : List Bool
  nextBit : Nat
  deriving DecidableEq, Repr

/-- subchan_demux.h:92-101: the transmit queues of the four sub-channels, oldest entry first -/
structure Mux where
  queue : Nat → List Entry

/-- update of one queue -/
def setQ (m : Mux) (c : Nat) (q : List Entry) : Mux :=
  { queue := fun i => if i = c then q else m.queue i }

/-- subchan_demux.c:297-310 `tx_queue_evict` -/
def evict (q : List Entry) : Nat → List Entry
  | 0 => q
  | n + 1 =>
    match q with
    | [] => []
    | _ :: q => evict q n

/-- subchan_demux.c:319-338 `subchan_mux_enqueue` on the queue of the addressed sub-channel -/
def enqueueQ (q : List Entry) (data : List Bool) : List Entry :=
  let q' := if q.length > 2 then evict q (q.length - 2) else q
  q' ++ [{ bits := data, nextBit := 0 }]

/-- subchan_demux.c:319-338 `subchan_mux_enqueue`; an `s_nr` outside of the array is an invalid
access (there is no check) -/
def enqueue (m : Mux) (c : Nat) (data : List Bool) : M Mux :=
  if c < 4 then .ok (setQ m c (enqueueQ (m.queue c) data)) else .error .oob

/-- subchan_demux.c:204-246 `get_subch_bits(mx, subch, bits + off, num_requested)`: the `while` loop.
`scratch` is the caller's `bits[8]` array, `idle` the bits of `trau_idle_frame()`.  `fuel` bounds the
iterations; running out of it is a fault and shown never to happen. -/
def getSubchBits (idle : List Bool) (off req : Nat) :
    Nat → List (Option Bool) → List Entry → Nat → M (List (Option Bool) × List Entry)
  | 0, _, _, _ => .error .assert
  | fuel + 1, scratch, q, numBits => do
    if numBits < req then
      match (if q.isEmpty then enqueueQ q idle else q) with
      | [] => .error .assert
      | e :: rest =>
        let left := e.bits.length - e.nextBit
        let thistime := if left < req then left else req
        let src ← slice e.bits e.nextBit thistime
        let scratch ← blit scratch (off + numBits) (src.map some)
        let e' := { e with nextBit := e.nextBit + thistime }
        let q' := if e'.nextBit ≥ e'.bits.length then rest else e' :: rest
        getSubchBits idle off req fuel scratch q' (numBits + thistime)
    else .ok (scratch, q)

/-- one call `get_subch_bits(mx, c, &bits[2*c], 2)` on the whole structure -/
def getBits2 (idle : List Bool) (m : Mux) (scratch : List (Option Bool)) (c : Nat) :
    M (List (Option Bool) × Mux) := do
  let (s, q) ← getSubchBits idle (2 * c) 2 ((m.queue c).length + 2) scratch (m.queue c) 0
  .ok (s, setQ m c q)

/-- subchan_demux.c:249-258 `compact_bits`; an unwritten element is an uninitialised read -/
def compactBits (bits : List (Option Bool)) : M Byte :=
  match bits with
  | [some b0, some b1, some b2, some b3, some b4, some b5, some b6, some b7] =>
    .ok (((((((((0 : Byte) ||| (if b0 then 1 else 0) <<< 0) ||| (if b1 then 1 else 0) <<< 1)
      ||| (if b2 then 1 else 0) <<< 2) ||| (if b3 then 1 else 0) <<< 3)
      ||| (if b4 then 1 else 0) <<< 4) ||| (if b5 then 1 else 0) <<< 5)
      ||| (if b6 then 1 else 0) <<< 6) ||| (if b7 then 1 else 0) <<< 7)
  | _ => .error .uninit

/-- subchan_demux.c:261-275 `mux_output_byte` -/
def muxOutputByte (idle : List Bool) (m : Mux) : M (Byte × Mux) := do
  let (s, m) ← getBits2 idle m (List.replicate 8 none) 0
  let (s, m) ← getBits2 idle m s 1
  let (s, m) ← getBits2 idle m s 2
  let (s, m) ← getBits2 idle m s 3
  let b ← compactBits s
  .ok (b, m)

/-- subchan_demux.c:283-294: the loop of `subchan_mux_out` (`n` octets left) -/
def muxOutLoop (idle : List Bool) (m : Mux) : Nat → M (List Byte × Mux)
  | 0 => .ok ([], m)
  | n + 1 => do
    let (b, m) ← muxOutputByte idle m
    let (bs, m) ← muxOutLoop idle m n
    .ok (b :: bs, m)

/-- subchan_demux.c:283-294 `subchan_mux_out`: the octets filled in (their number is the return
value) -/
def muxOut (m : Mux) (len : Nat) : M (List Byte × Mux) := do
  let idle ← OldTrau.trauIdleFrame
  muxOutLoop idle m len

/-- subchan_demux.c:344-355 `subchan_mux_init` -/
def init : Mux := { queue := fun _ => [] }

end Verif.Mux
