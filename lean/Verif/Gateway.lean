import Verif.RtpConv
import Verif.Ortp
/-!
# Model of the TRAU/RTP gateway

/repo/contrib/trau2rtp/trau2rtp.c: what connects the frame synchroniser, the two RTP sockets and the sub-slot multiplexer.
The frame codec, the conversion to RTP and the RTP sockets are the models of those files.
-/
namespace Verif.Gw
open Verif Verif.Trau Verif.RtpConv

/-- trau2rtp.c:47-53 `struct sc_state` (number, the multiplexer and the synchroniser are implicit) -/
structure Sub where
  rs : Ortp.Rs
  t2r : State
  deriving DecidableEq, Repr

/-- trau2rtp.c:28 `g_local_loop` and the two used elements of `g_st.sc` (line 60) -/
structure G where
  loop : Bool
  s1 : Sub
  s2 : Sub
  deriving DecidableEq, Repr

/-- what the callbacks do, with the number of the sub-channel: an action of the RTP socket, or bits handed to `osmo_i460_mux_enqueue()` -/
inductive Act where
  | rtp (n : Nat) (a : Ortp.Act)
  | enq (n : Nat) (bits : List Bool)
  deriving DecidableEq, Repr

/-- trau2rtp.c:38 `g_ftype` -/
def ftype : FT := .efr

def G.sub (g : G) (n : Nat) : Sub := if n = 1 then g.s1 else g.s2
def G.set (g : G) (n : Nat) (s : Sub) : G := if n = 1 then { g with s1 := s } else { g with s2 := s }

/-- trau2rtp.c:64-75 `opposite_schan` -/
def opposite (n : Nat) : M Nat :=
  if n = 1 then .ok 2 else if n = 2 then .ok 1 else .error .assert

/-- trau2rtp.c:124-126, 215-217, 294-296: encoding into the buffer of a message, whose length becomes the result -/
def encodeMsg (buf : List Bool) (f : Frame) : M (List Bool) := do
  let (rc, b) ← encode buf f
  if rc < 0 then .error .assert
  else .ok (b.take rc.toNat)

/-- trau2rtp.c:148-150 `skip` -/
def skipFrame (g : G) (n : Nat) : M (G × List Act) :=
  if g.loop then .ok (g, []) else .ok (g.set n { g.sub n with rs := Ortp.skipped (g.sub n).rs 160 }, [])

/-- trau2rtp.c:116-127: the frame sent back on the other sub-slot -/
def mirror (f : Frame) : M Frame := do
  let c ← wr f.c 11 true
  let c ← blit c 12 (List.replicate 3 true)
  let c ← wr c 15 true
  let c ← blit c 5 (List.replicate 6 false)
  .ok { f with c := c, dir := .dl }

/-- trau2rtp.c:130-146: conversion to RTP; `alloc`: oRTP can allocate the packet.  The result of `osmo_rtp_send_frame_ext()` is not used.
A negative result would be converted to a huge length. -/
def toRtp (K : Codec) (g : G) (n : Nat) (f : Frame) (alloc : Bool) : M (G × List Act) :=
  if f.type ≠ .fr ∧ f.type ≠ .efr then skipFrame g n
  else do
    let (rc, out) ← trau2rtp K { type := f.type, twts001 := false, twts002 := false, interm16k := false } (List.replicate 35 0) f
    if rc < 0 then .error .oob
    else if rc ≠ 0 then do
      let pl ← slice out 0 rc.toNat
      let (rs, a, _) := Ortp.sendFrame (g.sub n).rs pl 160 false alloc 0
      .ok (g.set n { g.sub n with rs := rs }, a.map (.rtp n))
    else .ok (g.set n { g.sub n with rs := Ortp.skipped (g.sub n).rs 160 }, [])

/-- trau2rtp.c:87-151 `sync_frame_out_cb`; `bits`: what the pointer points to, if it is not null; `f0`: what is on the stack before,
`buf`: what is in the buffer of the message before.  Allocating the message succeeds. -/
def frameOut (K : Codec) (g : G) (n : Nat) (bits : Option (List Bool)) (f0 : Frame) (buf : List Bool) (alloc : Bool) : M (G × List Act) :=
  match bits with
  | none => skipFrame g n
  | some b => do
    let (rc, f) ← decode16k f0 b .ul
    if rc ≠ 0 then skipFrame g n
    else if g.loop then do
      let p ← opposite n
      let f ← mirror f
      let m ← encodeMsg buf f
      .ok (g, [.enq p m])
    else toRtp K g n f alloc

/-- a zeroed `struct osmo_trau_frame` (line 206) with the given type and direction down-link -/
def zeroFrame (ty : FT) : Frame :=
  { type := ty, dir := .dl, ta := 0, c := List.replicate 25 false, d := List.replicate 288 false, t := List.replicate 4 false,
    s := List.replicate 6 false, m := List.replicate 2 false, ufi := false, crc := List.replicate 3 false, xc := List.replicate 6 false }

/-- trau2rtp.c:195-219 `ortp_rx_cb` -/
def rtpRx (K : Codec) (g : G) (n : Nat) (pl : List Byte) (buf : List Bool) : M (G × List Act) := do
  let t2r := { (g.sub n).t2r with type := ftype }
  let g := g.set n { g.sub n with t2r := t2r }
  let (rc, f) ← rtp2trau K t2r (zeroFrame .none) pl
  if rc < 0 then .ok (g, [])
  else do
    let m ← encodeMsg buf f
    .ok (g, [.enq n m])

/-- trau2rtp.c:313-314: `osmo_rtp_socket_poll` (osmo_ortp.c:197-210, with `ortp_rx_cb` as `rx_cb`) and the advance of the time stamp; `p`: the packet received -/
def poll (K : Codec) (g : G) (n : Nat) (p : Option Ortp.Pkt) (buf : List Bool) : M (G × List Act) := do
  let r : G × List Act ←
    if (g.sub n).rs.disabled then .ok (g, [])
    else match p with
      | none => .ok (g, [])
      | some p => if (g.sub n).rs.hasCb && decide (0 < p.payload.length) then rtpRx K g n p.payload buf else .ok (g, [])
  let a : List Act := (Ortp.pollSock (g.sub n).rs p).1.map (.rtp n)
  let s := r.1.sub n
  .ok (r.1.set n { s with rs := { s.rs with rxTs := s.rs.rxTs + 160 } }, a ++ r.2)

/-- trau2rtp.c:277-299 `mux_q_empty_cb` -/
def queueEmpty (g : G) (n : Nat) (buf : List Bool) : M (G × List Act) := do
  let f := zeroFrame ftype
  let f ← if f.type = .efr then do
      let c ← wr f.c 11 true
      let c ← wr c 15 true
      .ok { f with c := c }
    else .ok f
  let m ← encodeMsg buf f
  .ok (g, [.enq n m])

/-- trau2rtp.c:252-253, 266-272: the sub-channel `n`, with `osmo_rtp_socket_create` (with `OSMO_RTP_F_POLL`), `rx_cb` set and `osmo_rtp_socket_connect`,
whose result is not used; `r`: the result of `random()`; `remote`: setting the remote address succeeds -/
def initSub (n : Nat) (r : BitVec 32) (remote : Bool) : Except Ortp.Err Sub := do
  let (rs, _) ← Ortp.connect (Ortp.create true true r) (9000 + n * 2) remote true true
  .ok ⟨rs, { type := .none, twts001 := false, twts002 := false, interm16k := false }⟩

/-- trau2rtp.c:221-275 `init` -/
def init (loop : Bool) (r1 r2 : BitVec 32) (c1 c2 : Bool) : Except Ortp.Err G := do
  let s1 ← initSub 1 r1 c1
  let s2 ← initSub 2 r2 c2
  .ok ⟨loop, s1, s2⟩

/-- the callbacks and the loop (trau2rtp.c:301-328) -/
inductive Op where
  | frame (n : Nat) (bits : Option (List Bool)) (f0 : Frame) (buf : List Bool) (alloc : Bool)
  | poll (n : Nat) (p : Option Ortp.Pkt) (buf : List Bool)
  | empty (n : Nat) (buf : List Bool)
  deriving DecidableEq, Repr

def step (K : Codec) (g : G) : Op → M (G × List Act)
  | .frame n bits f0 buf alloc => frameOut K g n bits f0 buf alloc
  | .poll n p buf => poll K g n p buf
  | .empty n buf => queueEmpty g n buf

def run (K : Codec) (g : G) : List Op → M (G × List Act)
  | [] => .ok (g, [])
  | op :: ops => do
    let r ← step K g op
    let q ← run K r.1 ops
    .ok (q.1, r.2 ++ q.2)

end Verif.Gw
