import Verif.Gateway
import Verif.TrauSync
/-!
# Model of the TRAU/RTP gateway with its frame synchronisers

/repo/contrib/trau2rtp/trau2rtp.c: the bits of the sub-slots, as the I.460 demultiplexer (libosmocore) delivers them, go through the synchronisers
(model of trau_sync.c) to the call-backs (Verif.Gw).
-/
namespace Verif.Gw.Line
open Verif Verif.Trau Verif.RtpConv

/-- what a call of `sync_frame_out_cb` finds: the stack, the history behind the frame, the buffer of the message, and whether oRTP can allocate -/
structure Aux where
  f0 : Frame
  after : List Bool
  buf : List Bool
  alloc : Bool

/-- trau2rtp.c:47-60: the gateway and the synchronisers of the two sub-channels -/
structure L where
  g : G
  y1 : TrauSync.St
  y2 : TrauSync.St

def L.sync (l : L) (n : Nat) : TrauSync.St := if n = 1 then l.y1 else l.y2
def L.setSync (l : L) (n : Nat) (s : TrauSync.St) : L := if n = 1 then { l with y1 := s } else { l with y2 := s }

/-- what happens: bits from the demultiplexer (with what the call-backs find), a poll, an empty queue -/
inductive Op where
  | bits (n : Nat) (xs : List Byte) (aux : Nat → Aux)
  | poll (n : Nat) (p : Option Ortp.Pkt) (buf : List Bool)
  | empty (n : Nat) (buf : List Bool)

/-- the calls of `sync_frame_out_cb` for the events of the synchroniser, the first of them being number `i` -/
def evOps (n : Nat) (aux : Nat → Aux) : Nat → List TrauSync.Ev → List Gw.Op
  | _, [] => []
  | i, e :: es => .frame n (e.map fun f => f.map (· != 0) ++ (aux i).after) (aux i).f0 (aux i).buf (aux i).alloc :: evOps n aux (i + 1) es

/-- trau2rtp.c:78-84 `i460_demux_bits_cb`, 313-314 and 277-299.  The call-backs are made from within `osmo_trau_sync_rx_ubits`; they do not touch
the synchroniser, so the model makes them afterwards.  `gar n`: the garbage of the synchroniser of the sub-channel (see Verif.TrauSync) -/
def step (K : Codec) (gar : Nat → Nat → Nat → Byte) (l : L) : Op → M (L × List Act)
  | .bits n xs aux => do
    let (s, es) ← TrauSync.rxUbits (gar n) (l.sync n) xs
    let r ← Gw.run K l.g (evOps n aux 0 es)
    .ok ({ l with g := r.1 }.setSync n s, r.2)
  | .poll n p buf => do
    let r ← Gw.step K l.g (.poll n p buf)
    .ok ({ l with g := r.1 }, r.2)
  | .empty n buf => do
    let r ← Gw.step K l.g (.empty n buf)
    .ok ({ l with g := r.1 }, r.2)

def run (K : Codec) (gar : Nat → Nat → Nat → Byte) (l : L) : List Op → M (L × List Act)
  | [] => .ok (l, [])
  | op :: ops => do
    let r ← step K gar l op
    let q ← run K gar r.1 ops
    .ok (q.1, r.2 ++ q.2)

/-- trau2rtp.c:244-273: `osmo_trau_sync_alloc` with `OSMO_TRAU_SYNCP_16_FR_EFR` (0) for both; `none`: the assertion that it succeeds fails -/
def init (loop : Bool) (r1 r2 : BitVec 32) (c1 c2 : Bool) : Option (Except Ortp.Err L) :=
  (TrauSync.alloc 0).map fun s => (Gw.init loop r1 r2 c1 c2).map fun g => ⟨g, s, s⟩

end Verif.Gw.Line
