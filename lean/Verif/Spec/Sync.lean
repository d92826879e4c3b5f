/-!
# Specification vocabulary shared by several properties

Nothing in here refers to a model of the code.
-/
namespace Verif.Spec

/-- A receiver looking for the TRAU frame alignment (3GPP TS 08.60 / 48.060, 4.8.1) sees it at
position `i` of the bit stream `s`: a one preceded by (at least) 16 zeros. -/
def SyncAt (s : List Bool) (i : Nat) : Prop :=
  16 ≤ i ∧ s[i]? = some true ∧ ∀ j, i - 16 ≤ j → j < i → s[j]? = some false

/-- A TRAU frame: 320 bits beginning with 16 zeros and a one. -/
structure IsFrame (f : List Bool) : Prop where
  len : f.length = 320
  hdr : f.take 17 = List.replicate 16 false ++ [true]

/-- A frame in which the alignment pattern is seen nowhere but at its start. -/
structure IsCleanFrame (f : List Bool) : Prop extends IsFrame f where
  noEmul : ∀ i, SyncAt f i → i = 16

/-- A back-to-back sequence of TRAU frames in which the alignment pattern is seen nowhere but at
the frame starts. -/
structure CleanStream (fs : List (List Bool)) : Prop where
  frames : ∀ f ∈ fs, IsFrame f
  noEmul : ∀ i, SyncAt fs.flatten i → i % 320 = 16

end Verif.Spec
