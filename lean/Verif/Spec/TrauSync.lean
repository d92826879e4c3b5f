import Verif.TrauSync
/-!
# Specification vocabulary for the TRAU frame synchroniser

Of the model only the table of patterns (`Pat`: the expanded bits and mask) is used.
-/
namespace Verif.TrauSync

/-- `w` agrees with the pattern in every bit selected by the mask -/
def Matches (p : Pat) (w : List Byte) : Prop :=
  ∀ i < p.byteLen * 8, p.mask[i]? ≠ some 0 → w[i]? = p.bits[i]?

instance (p : Pat) (w : List Byte) : Decidable (Matches p w) := by unfold Matches; infer_instance

/-- frame length of a pattern in bits -/
def Pat.nbits (p : Pat) : Nat := p.byteLen * 8

/-- The `n` bits of the stream `xs` received last when `k` bits have been received (`n ≤ k`). -/
def window (xs : List Byte) (n k : Nat) : List Byte := (xs.take k).drop (k - n)

/-- No three consecutive elements of the list satisfy `bad`. -/
def NoTriple (bad : List Byte → Prop) (l : List (List Byte)) : Prop :=
  ∀ pre a b c post, l = pre ++ a :: b :: c :: post → ¬ (bad a ∧ bad b ∧ bad c)

end Verif.TrauSync
