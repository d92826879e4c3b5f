/-!
# Specification vocabulary for the sub-channel multiplexer

Nothing in here refers to a model of the code.
-/
namespace Verif.Spec

/-- The bits of 16k sub-channel `c` in a sequence of octets of a 64k timeslot: bits `2c` and `2c+1`
(counted from the least significant one) of every octet, in this order. -/
def chanBits (c : Nat) (octets : List (BitVec 8)) : List Bool :=
  octets.flatMap fun b => [b.getLsbD (2 * c), b.getLsbD (2 * c + 1)]

/-- The frames delivered on sub-channel `c`, in order, in a log of deliveries. -/
def evOf {α : Type} (c : Nat) (log : List (Nat × α)) : List α :=
  (log.filter (fun e => e.1 == c)).map (·.2)

/-- An unpacked bit as stored in a `ubit_t`. -/
def ubits (f : List Bool) : List (BitVec 8) := f.map fun b => if b then 1 else 0

end Verif.Spec
