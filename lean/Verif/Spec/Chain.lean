import Verif.Spec.TrauSync
import Verif.Spec.TrauFrame
/-!
# Specification vocabulary for chains of coder, synchroniser and multiplexer
-/
namespace Verif.Chain
open Verif Verif.Trau Verif.Spec.Trau Verif.TrauSync

/-- the bits received in the order of the elements of a list: one call of `osmo_trau_sync_rx_ubits()` for each -/
def feed (g : Nat → Nat → Byte) (s : St) : List (List Byte) → M (St × List Ev)
  | [] => .ok (s, [])
  | c :: cs =>
    match rxUbits g s c with
    | .error e => .error e
    | .ok (s, a) =>
      match feed g s cs with
      | .error e => .error e
      | .ok (s, b) => .ok (s, a ++ b)

/-- `w` are the bits the encoder produces for the frame, which has its standard length (no time alignment) -/
def Sent (f : Frame) (w : List Bool) : Prop :=
  ∃ b e, minBits f.type ≤ b.length ∧ encode b f = .ok (frameBits f.type, e) ∧ w = e.take (frameBits f.type)

/-- two lists of the same length whose elements are related one by one -/
inductive Each {α β : Type} (R : α → β → Prop) : List α → List β → Prop
  | nil : Each R [] []
  | cons {a b as bs} : R a b → Each R as bs → Each R (a :: as) (b :: bs)

/-- unpacked bits -/
def ubs (w : List Bool) : List Byte := w.map fun x => if x then 1 else 0

end Verif.Chain
