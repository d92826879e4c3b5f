import Verif.Spec.Demux
/-!
# What the multiplexer does with frames of any length

A queue is a list of frames (the bits of them that have not been sent).  For two bits of the output the multiplexer takes bits from the
front of the queue; behind the last frame there is an idle frame.  If the first frame has one bit left and the next one more than one, it
takes three bits, of which the third is not sent.
-/
namespace Verif.Spec.MuxAny

/-- the frames that have bits left, an idle frame if there are none -/
def front (idle : List Bool) (q : List (List Bool)) : List Bool × List (List Bool) :=
  match q with
  | [] => (idle, [])
  | [] :: r => front idle r
  | (b :: f) :: r => (b :: f, r)

/-- a frame of which `f` is left, in front of a queue -/
def keep (f : List Bool) (r : List (List Bool)) : List (List Bool) := if f = [] then r else f :: r

/-- the two bits sent, the bit lost if there is one, and what is left -/
structure Pulled where
  fst : Bool
  snd : Bool
  lost : Option Bool
  left : List (List Bool)
  deriving DecidableEq, Repr

def pull2 (idle : List Bool) (a : Bool) (q : List (List Bool)) : Pulled :=
  match front idle q with
  | (b :: c :: f, r) => ⟨a, b, some c, keep f r⟩
  | ([b], r) => ⟨a, b, none, r⟩
  | ([], r) => ⟨a, false, none, r⟩

def pull (idle : List Bool) (q : List (List Bool)) : Pulled :=
  match front idle q with
  | (a :: b :: f, r) => ⟨a, b, none, keep f r⟩
  | ([a], r) => pull2 idle a r
  | ([], r) => ⟨false, false, none, r⟩

/-- `n` pairs of bits: the bits sent, what is left, and whether a bit was lost -/
def pulls (idle : List Bool) (q : List (List Bool)) : Nat → List Bool × List (List Bool) × Bool
  | 0 => ([], q, false)
  | n + 1 =>
    let p := pull idle q
    let r := pulls idle p.left n
    (p.fst :: p.snd :: r.1, r.2.1, p.lost.isSome || r.2.2)

/-- what concerns one sub-channel: a new frame, or a number of octets of the output -/
inductive COp where
  | frame (f : List Bool)
  | out (n : Nat)

/-- a history of one sub-channel: the bits sent, what is left, and whether a bit was lost.  Of the frames queued only the last two are
kept when a new one is added. -/
def history (idle : List Bool) (q : List (List Bool)) : List COp → List Bool × List (List Bool) × Bool
  | [] => ([], q, false)
  | .frame f :: os => history idle (q.drop (q.length - 2) ++ [f]) os
  | .out n :: os =>
    let p := pulls idle q n
    let r := history idle p.2.1 os
    (p.1 ++ r.1, r.2.1, p.2.2 || r.2.2)

end Verif.Spec.MuxAny
