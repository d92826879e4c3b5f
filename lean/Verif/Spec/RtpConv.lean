import Verif.Base
/-!
# Specification vocabulary for RTP payloads and their contents

Nothing in here refers to a model of the code.
-/
namespace Verif.Spec.Rtp

/-- the bits of an octet string, most significant bit first -/
def bitsOf : List Byte → List Bool
  | [] => []
  | b :: l => [b.getLsbD 7, b.getLsbD 6, b.getLsbD 5, b.getLsbD 4,
      b.getLsbD 3, b.getLsbD 2, b.getLsbD 1, b.getLsbD 0] ++ bitsOf l

/-- GSM 06.10: widths of the 76 parameters of a full rate speech frame, in transmission order: eight LARs,
then for each of four sub-frames lag, gain, grid position, block amplitude and 13 pulses -/
def frWidths : List Nat :=
  let sub := [7, 2, 2, 6] ++ List.replicate 13 3
  [6, 6, 5, 5, 4, 4, 3, 3] ++ sub ++ sub ++ sub ++ sub

/-- the parameters of the given widths, each with its bits in opposite order -/
def reverseEach : List Nat → List Bool → List Bool
  | [], _ => []
  | w :: ws, l => (l.take w).reverse ++ reverseEach ws (l.drop w)

/-- RFC 3551 4.5.8.1: a full rate payload is 33 octets: signature 0xD and the parameters, most significant
bit first -/
structure IsFr (pl : List Byte) (speech : List Bool) : Prop where
  len : pl.length = 33
  nspeech : speech.length = 260
  bits : bitsOf pl = [true, true, false, true] ++ speech

/-- RFC 3551 4.5.9: an enhanced full rate payload is 31 octets: signature 0xC and the 244 bits -/
structure IsEfr (pl : List Byte) (speech : List Bool) : Prop where
  len : pl.length = 31
  nspeech : speech.length = 244
  bits : bitsOf pl = [true, true, false, false] ++ speech

/-- TW-TS-001 5.2: the TRAU-like extension header octet -/
def tw001Hdr (dtxd bfi taf : Bool) : Byte :=
  BitVec.ofNat 8 (0xE0 + 8 * dtxd.toNat + 2 * bfi.toNat + taf.toNat)

/-- TS 48.060 5.5.1.1.3 (EFR): the data bits D1..D260 are a spare bit (1) and the speech bits in five
blocks, each followed by three check bits -/
def efrData (s x1 x2 x3 x4 x5 : List Bool) : List Bool :=
  [true] ++ s.take 38 ++ x1 ++ (s.drop 38).take 53 ++ x2 ++ (s.drop 91).take 50 ++ x3 ++
    (s.drop 141).take 53 ++ x4 ++ (s.drop 194).take 50 ++ x5

/-- TS 48.060 5.5.1.1.3: start, length and protected positions (relative to the start) of the five blocks
of D bits; the check bits follow the block -/
def efrBlocks : List (Nat × Nat × List Nat) :=
  let a := (List.range 22) ++ [24, 25, 26, 28]
  let b := (List.range 10) ++ [48, 49]
  let c := (List.range 5) ++ [6, 45, 46]
  [(0, 39, a), (42, 53, b), (98, 50, c), (151, 53, b), (207, 50, c)]

/-- the elements of `l` at the given positions -/
def pick (l : List Bool) (ps : List Nat) : List Bool := ps.map fun i => l.getD i false

/-- one bit into a shift register dividing by x³ + x + 1 (most significant bit first) -/
def divStep : Bool × Bool × Bool → Bool → Bool × Bool × Bool
  | (a, b, c), x => (b, Bool.xor c a, Bool.xor x a)

/-- remainder of the polynomial with coefficients `l` (most significant first) modulo x³ + x + 1 -/
def remainder (l : List Bool) : List Bool :=
  let r := l.foldl divStep (false, false, false)
  [r.1, r.2.1, r.2.2]

/-- TS 48.060 / 48.061: three check bits so that the protected bits followed by the check bits give remainder
x² + x + 1 -/
def checkBitsOk (prot chk : List Bool) : Prop := chk.length = 3 ∧ remainder (prot ++ chk) = [true, true, true]

/-- positions (in D1..D260, counted from 0) of the protected bits of a block -/
def efrProtPos (blk : Nat × Nat × List Nat) : List Nat := blk.2.2.map (blk.1 + ·)
/-- positions of the check bits of a block -/
def efrChkPos (blk : Nat × Nat × List Nat) : List Nat := [blk.1 + blk.2.1, blk.1 + blk.2.1 + 1, blk.1 + blk.2.1 + 2]
/-- the check bits of all five blocks are right -/
def EfrChecksOk (d : List Bool) : Prop :=
  ∀ blk ∈ efrBlocks, checkBitsOk (pick d (efrProtPos blk)) (pick d (efrChkPos blk))
/-- the 244 speech bits among D1..D260: all but the spare bit and the check bits -/
def efrSpeechBits (d : List Bool) : List Bool :=
  (d.drop 1).take 38 ++ (d.drop 42).take 53 ++ (d.drop 98).take 50 ++ (d.drop 151).take 53 ++ (d.drop 207).take 50

/-- TS 101 318: a half rate payload is the 112 speech bits -/
structure IsHr (pl : List Byte) (speech : List Bool) : Prop where
  len : pl.length = 14
  bits : bitsOf pl = speech

/-- TW-TS-002 / RFC 5993 frame type for the BFI and SID bits of a good (CRC) 16k frame -/
def hr16Ft (bfi s1 s0 : Bool) : Nat :=
  match s1, s0, bfi with
  | true, true, _ => 7
  | true, false, false => 2
  | true, false, true => 1
  | false, true, _ => 1
  | false, false, false => 0
  | false, false, true => 6

/-- header octet: frame type, DTXd, UFI, TAF -/
def tw002Hdr (ft : Nat) (dtxd ufi taf : Bool) : Byte :=
  BitVec.ofNat 8 (16 * ft + 8 * dtxd.toNat + 2 * ufi.toNat + taf.toNat)

/-- XC1..XC6 of an 8k speech frame: frame type; 7 for reserved codes and parity errors -/
def hr8Ft (xc : List Bool) : Nat :=
  match xc with
  | [x1, x2, x3, x4, x5, x6] =>
    if (x1.toNat + x2.toNat + x3.toNat + x4.toNat + x5.toNat + x6.toNat) % 2 = 1 then
      match x1, x2, x3, x4 with
      | false, false, false, false => 0
      | false, false, false, true => 2
      | false, true, false, _ => 1
      | false, true, true, _ => 6
      | _, _, _, _ => 7
    else 7
  | _ => 7

/-- ITU-T V.110 table 2: a frame of ten octets, the first all zeros, the others starting with a one -/
structure IsV110 (fr : List Bool) : Prop where
  len : fr.length = 80
  zeros : fr.take 8 = List.replicate 8 false
  ones : ∀ k < 9, fr[8 * (k + 1)]? = some true

instance (fr : List Bool) : Decidable (IsV110 fr) :=
  decidable_of_iff (fr.length = 80 ∧ fr.take 8 = List.replicate 8 false ∧ ∀ k < 9, fr[8 * (k + 1)]? = some true)
    ⟨fun h => ⟨h.1, h.2.1, h.2.2⟩, fun h => ⟨h.1, h.2, h.3⟩⟩

/-- the 63 bits of a V.110 frame that are not fixed -/
def v110Data (fr : List Bool) : List Bool :=
  (List.range 9).flatMap fun k => (fr.drop (8 * (k + 1) + 1)).take 7

/-- the `k`-th group of `n` elements -/
def group {α : Type} (n : Nat) (l : List α) (k : Nat) : List α := (l.drop (n * k)).take n

/-- RFC 4040 with ITU-T V.110 RA2: one bit of user data per octet (8 kbit/s), in the most significant bit -/
def bits8 (pl : List Byte) : List Bool := pl.map fun b => b.getLsbD 7
/-- two bits per octet (16 kbit/s) -/
def bits16 (pl : List Byte) : List Bool := pl.flatMap fun b => [b.getLsbD 7, b.getLsbD 6]

/-- the payload carries exactly the V.110 frames with the given contents, one bit per octet, all other bits one -/
structure Carries8 (pl : List Byte) (xs : List (List Bool)) : Prop where
  len : pl.length = 80 * xs.length
  frames : ∀ k (h : k < xs.length), IsV110 (group 80 (bits8 pl) k) ∧
    v110Data (group 80 (bits8 pl) k) = xs[k]
  rest : ∀ o ∈ pl, ∀ i < 7, o.getLsbD i = true
/-- … two bits per octet -/
structure Carries16 (pl : List Byte) (xs : List (List Bool)) : Prop where
  len : pl.length = 40 * xs.length
  frames : ∀ k (h : k < xs.length), IsV110 (group 80 (bits16 pl) k) ∧
    v110Data (group 80 (bits16 pl) k) = xs[k]
  rest : ∀ o ∈ pl, ∀ i < 6, o.getLsbD i = true

end Verif.Spec.Rtp
