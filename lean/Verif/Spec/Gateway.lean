import Verif.Gateway
import Verif.Spec.RtpConv
import Verif.Spec.TrauFrame
import Verif.Spec.Sync
/-!
# Specification vocabulary for the TRAU/RTP gateway
-/
namespace Verif.Gw.Spec
open Verif Verif.Trau Verif.Spec.Trau Verif.Spec.Rtp

/-- TS 48.060 5.5.1.1: D1 … D260 of a full rate or enhanced full rate frame -/
def dBits (w : List Bool) : List Bool :=
  (List.range 17).flatMap (fun k => (w.drop (33 + 16 * k)).take 15) ++ (w.drop 305).take 5

/-- C1 … C5 -/
def cCode (w : List Bool) : List Bool := (w.drop 17).take 5

/-- C1 … C21 of a full rate or enhanced full rate frame -/
def cBits (w : List Bool) : List Bool := (w.drop 17).take 15 ++ (w.drop 310).take 6

/-- T1 … T4 -/
def tBits (w : List Bool) : List Bool := (w.drop 316).take 4

/-- the content of a received RTP packet, with or without the header of TW-TS-001: 244 bits of speech, or none -/
inductive Content (data : List Byte) : Option (List Bool) → Prop where
  | speech {pl : List Byte} {s : List Bool} (h : data = pl ∨ ∃ x : Byte, x >>> 4 = 0xE ∧ data = x :: pl) (hp : IsEfr pl s) : Content data (some s)
  | nodata (h : data = [] ∨ ∃ x : Byte, x >>> 4 = 0xE ∧ data = [x]) : Content data none

/-- the down-link enhanced full rate frame for a content: C6 … C11 zero, all other control bits one, with the possible exception of C16, which tells
speech from SID; the speech bits and their check bits, or ones only -/
structure IsDl (c : Option (List Bool)) (m : List Bool) : Prop where
  frame : Verif.Spec.IsFrame m
  ctl : ∃ sp : Bool, cBits m = code .efr .dl ++ List.replicate 6 false ++ List.replicate 4 true ++ [sp] ++ List.replicate 5 true
  tb : tBits m = List.replicate 4 true
  speech : ∀ s, c = some s → EfrChecksOk (dBits m) ∧ efrSpeechBits (dBits m) = s
  nodata : c = none → dBits m = List.replicate 260 true

/-- the RTP payload for a TRAU frame received: full rate or enhanced full rate, not marked bad (C12), and, for the latter, with right check bits -/
inductive Sends (w : List Bool) (pl : List Byte) : Prop where
  | fr (dir : Dir) (hc : cCode w = code .fr dir) (good : w[28]? = some false) (hp : IsFr pl (reverseEach frWidths (dBits w)))
  | efr (hc : cCode w = code .efr .ul) (good : w[28]? = some false) (chk : EfrChecksOk (dBits w)) (hp : IsEfr pl (efrSpeechBits (dBits w)))

/-- the time stamps and payloads sent for the frames (`none`: no synchronisation), starting at a time stamp -/
inductive Stream : BitVec 32 → List (Option (List Bool)) → List Ortp.Act → Prop where
  | nil (ts : BitVec 32) : Stream ts [] []
  | send {ts : BitVec 32} {w : List Bool} {pl : List Byte} {ws : List (Option (List Bool))} {as : List Ortp.Act} (h : Sends w pl)
      (t : Stream (ts + 160) ws as) : Stream ts (some w :: ws) (.send ts false pl :: as)
  | skip {ts : BitVec 32} {w : Option (List Bool)} {ws : List (Option (List Bool))} {as : List Ortp.Act} (h : ∀ b, w = some b → ∀ pl, ¬ Sends b pl)
      (t : Stream (ts + 160) ws as) : Stream ts (w :: ws) as

/-- the frames received on a sub-slot -/
def framesOf (n : Nat) : List Op → List (Option (List Bool))
  | [] => []
  | .frame m w _ _ _ :: ops => if m = n then w :: framesOf n ops else framesOf n ops
  | _ :: ops => framesOf n ops

/-- the packets sent for a sub-slot -/
def sentOf (n : Nat) : List Act → List Ortp.Act
  | [] => []
  | .rtp m (.send ts mk pl) :: as => if m = n then .send ts mk pl :: sentOf n as else sentOf n as
  | _ :: as => sentOf n as

/-- the bits handed to the multiplexer for a sub-slot -/
def enqOf (n : Nat) : List Act → List (List Bool)
  | [] => []
  | .enq m b :: as => if m = n then b :: enqOf n as else enqOf n as
  | _ :: as => enqOf n as

/-- sub-slots 1 and 2 exist; the synchroniser's buffer is longer than a frame, the message's buffer has 640 bits -/
def OkOp : Op → Prop
  | .frame n w f0 buf _ => (n = 1 ∨ n = 2) ∧ (∀ b, w = some b → 321 ≤ b.length) ∧ f0.WF ∧ buf.length = 640
  | .poll n _ buf => (n = 1 ∨ n = 2) ∧ buf.length = 640
  | .empty n buf => (n = 1 ∨ n = 2) ∧ buf.length = 640

/-- oRTP can allocate the packets -/
def AllocOk (ops : List Op) : Prop := ∀ n w f0 buf, Op.frame n w f0 buf false ∉ ops

/-- a full rate or enhanced full rate frame and what the local loop makes of it: a down-link frame of the same type with the same data and
T bits, C6 … C11 zero, C12 … C16 one, and the same C17 … C21 -/
inductive IsMirror (w m : List Bool) : Prop where
  | intro (ty : FT) (ht : ty = .fr ∨ ty = .efr) (dir : Dir) (hc : cCode w = code ty dir) (frame : Verif.Spec.IsFrame m)
      (ctl : cBits m = code ty .dl ++ List.replicate 6 false ++ List.replicate 5 true ++ (cBits w).drop 16) (data : dBits m = dBits w) (tb : tBits m = tBits w)

/-- the frame sent if there is nothing to send: a down-link enhanced full rate frame of zeros, but for C12 and C16 -/
structure IsFill (m : List Bool) : Prop where
  frame : Verif.Spec.IsFrame m
  ctl : cBits m = code .efr .dl ++ List.replicate 6 false ++ [true] ++ List.replicate 3 false ++ [true] ++ List.replicate 5 false
  data : dBits m = List.replicate 260 false
  tb : tBits m = List.replicate 4 false

/-- the bits to be queued for the sub-slot `n` -/
inductive Makes (loop : Bool) (n : Nat) : Op → List Bool → Prop where
  | rtp {p : Ortp.Pkt} {buf m : List Bool} {c : Option (List Bool)} (hl : p.payload ≠ []) (hc : Content p.payload c) (hm : IsDl c m) :
      Makes loop n (.poll n (some p) buf) m
  | fill {buf m : List Bool} (hm : IsFill m) : Makes loop n (.empty n buf) m
  | mirror {o : Nat} {w m : List Bool} {f0 : Frame} {buf : List Bool} {alloc : Bool} (hl : loop = true) (ho : o ≠ n) (hm : IsMirror w m) :
      Makes loop n (.frame o (some w) f0 buf alloc) m
  | other {o : Nat} {w m : List Bool} {f0 : Frame} {buf : List Bool} {alloc : Bool} (hl : loop = true) (ho : o ≠ n) (ty : FT) (dir : Dir)
      (ht : ty ∈ types16 ∧ ty ≠ .fr ∧ ty ≠ .efr) (hc : cCode w = code ty dir) (hm : m.length = 320) :
      Makes loop n (.frame o (some w) f0 buf alloc) m

/-- everything queued for a sub-slot: what the operations make, in their order -/
inductive Queued (loop : Bool) (n : Nat) : List Op → List (List Bool) → Prop where
  | nil : Queued loop n [] []
  | make {op : Op} {m : List Bool} {ops : List Op} {ms : List (List Bool)} (h : Makes loop n op m) (t : Queued loop n ops ms) : Queued loop n (op :: ops) (m :: ms)
  | skip {op : Op} {ops : List Op} {ms : List (List Bool)} (h : ∀ m, ¬ Makes loop n op m) (t : Queued loop n ops ms) : Queued loop n (op :: ops) ms

end Verif.Gw.Spec
