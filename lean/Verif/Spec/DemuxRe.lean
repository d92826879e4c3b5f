import Verif.DemuxRe
/-! Specification for C159: which sub-channels are active after a history. -/
namespace Verif.Demux.Re

/-- the set of active sub-channels after one entry of the history -/
def act1 (a : Nat → Bool) : Ent → Nat → Bool
  | .op (.activate n), i => if n < 4 ∧ i = n then true else a i
  | .op (.deactivate n), i => if i = n then false else a i
  | .op .init, _ => false
  | .frame _ _, i => a i

/-- the set of active sub-channels after a history -/
def actAll (a : Nat → Bool) : List Ent → Nat → Bool
  | [] => a
  | e :: es => actAll (act1 a e) es

/-- the frames of sub-channel `c` -/
def framesOf (c : Nat) : List Ent → List (List Byte)
  | [] => []
  | .frame i f :: es => if i = c then f :: framesOf c es else framesOf c es
  | .op _ :: es => framesOf c es

/-- the entry changes the activity of `c` or re-initialises the demultiplexer -/
def touches (c : Nat) : Ent → Bool
  | .op (.activate n) => decide (n = c)
  | .op (.deactivate n) => decide (n = c)
  | .op .init => true
  | .frame _ _ => false

end Verif.Demux.Re
