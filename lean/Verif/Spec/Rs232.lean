import Verif.Rs232
/-!
# Specification: frames of the serial line
-/
namespace Verif.Rs232

/-- octet by octet: a frame is complete when it has two octets of length and that many octets more -/
def rxByte (s : List Byte × List (List Byte)) (b : Byte) : List Byte × List (List Byte) :=
  let d := s.1 ++ [b]
  if 2 ≤ d.length ∧ d.length = 2 + hdrLen d then ([], s.2 ++ [d]) else (d, s.2)

/-- the incomplete frame at the end and the complete frames of a stream -/
def frames (s : List Byte) : List Byte × List (List Byte) := s.foldl rxByte ([], [])

/-- every frame of the stream has at least one octet behind the length, and fits into the buffer -/
def Fits (s : List Byte) : Prop :=
  ∀ p r, s = p ++ r → (2 ≤ (frames p).1.length → 1 ≤ hdrLen (frames p).1 ∧ hdrLen (frames p).1 ≤ 298) ∧
    ∀ f ∈ (frames p).2, 3 ≤ f.length

/-- every frame of the stream has at least one octet behind the length -/
def Positive (s : List Byte) : Prop :=
  ∀ p r, s = p ++ r → (2 ≤ (frames p).1.length → 1 ≤ hdrLen (frames p).1) ∧ ∀ f ∈ (frames p).2, 3 ≤ f.length

/-- no frame of the stream, complete or not, has more than 300 octets -/
def Short (s : List Byte) : Prop := (frames s).1.length ≤ 300 ∧ ∀ f ∈ (frames s).2, f.length ≤ 300

/-- reads that return no more than asked for, and no errors -/
def AdmReads (sh : Sh) : List (Except Unit (List Byte)) → Prop
  | [] => True
  | r :: rs => (∃ bs, r = .ok bs ∧ bs.length ≤ want sh) ∧ ∀ sh' rc a, serRead sh r = .ok (sh', rc, a) → AdmReads sh' rs

/-- all octets read -/
def octets (rs : List (Except Unit (List Byte))) : List Byte :=
  rs.flatMap fun r => match r with | .ok bs => bs | .error _ => []

/-- what the application gets: the octets of the frame, and the payload behind the header of 10 octets, if any -/
def delivery (f : List Byte) : Act := .deliver f (if 10 < f.length then some 10 else none)

end Verif.Rs232
