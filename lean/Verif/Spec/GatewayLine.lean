import Verif.GatewayLine
import Verif.Spec.Gateway
import Verif.Spec.TrauSync
/-!
# Specification vocabulary for the gateway with its synchronisers
-/
namespace Verif.Gw.Line.Spec
open Verif Verif.Trau Verif.TrauSync

/-- the bits received on a sub-slot -/
def bitsOf (n : Nat) : List Line.Op → List Byte
  | [] => []
  | .bits m xs _ :: ops => if m = n then xs ++ bitsOf n ops else bitsOf n ops
  | _ :: ops => bitsOf n ops

/-- the polls and the empty queues -/
def rtpOps : List Line.Op → List Gw.Op
  | [] => []
  | .bits _ _ _ :: ops => rtpOps ops
  | .poll n p buf :: ops => .poll n p buf :: rtpOps ops
  | .empty n buf :: ops => .empty n buf :: rtpOps ops

/-- a frame of octets as one of bits -/
def frameBits (f : List Byte) : List Bool := f.map (· != 0)

/-- sub-slots 1 and 2 exist, there is memory behind the frame, the buffer of a message has 640 bits -/
def OkOp : Line.Op → Prop
  | .bits n _ aux => (n = 1 ∨ n = 2) ∧ ∀ i, (aux i).f0.WF ∧ (aux i).after ≠ [] ∧ (aux i).buf.length = 640
  | .poll n _ buf => (n = 1 ∨ n = 2) ∧ buf.length = 640
  | .empty n buf => (n = 1 ∨ n = 2) ∧ buf.length = 640

/-- oRTP can allocate the packets -/
def AllocOk : Line.Op → Prop
  | .bits _ _ aux => ∀ i, (aux i).alloc = true
  | _ => True

/-- the alignment bits of a full rate or enhanced full rate frame: 16 zeros, and every 16th bit from there on a one -/
def Aligned (b : List Byte) : Prop := b.length = 320 ∧ (∀ i < 16, b[i]? = some 0) ∧ ∀ k < 19, b[16 + 16 * k]? = some 1

/-- bits before the first frame, in which (and in the beginning of the frame that follows) no alignment is seen -/
def Quiet (pre b : List Byte) : Prop := ∀ k < pre.length, ¬ Aligned (((pre ++ b).drop k).take 320)

/-- no three frames in a row have wrong alignment bits -/
def NoLoss (bs : List (List Byte)) : Prop := NoTriple (fun b => ¬ Aligned b) bs

end Verif.Gw.Line.Spec
