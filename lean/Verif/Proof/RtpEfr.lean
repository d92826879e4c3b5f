import Verif.Proof.RtpFr
/-!
# Enhanced full rate: CRC and conversion, in terms of bits
-/
namespace Verif.RtpConv
open Verif Verif.Trau Verif.Spec.Rtp
open Verif.RaaPrime (bind_ok bind_err)
set_option maxRecDepth 10000

/-! ### CRC -/

/-- the state of the division after appending three zeros -/
def T3 (s : Bool × Bool × Bool) : Bool × Bool × Bool := [false, false, false].foldl divStep s

theorem crcStep_T3 : ∀ (s : Bool × Bool × Bool) (x : Bool), crcStep (T3 s) x = T3 (divStep s x) := by
  rintro ⟨a, b, c⟩; revert a b c; decide

theorem foldl_T3 : ∀ (l : List Bool) (s : Bool × Bool × Bool), l.foldl crcStep (T3 s) = T3 (l.foldl divStep s)
  | [], _ => rfl
  | x :: l, s => by rw [List.foldl_cons, List.foldl_cons, crcStep_T3, foldl_T3 l]

theorem chk_aux : ∀ (s : Bool × Bool × Bool) (x y z : Bool),
    (([x, y, z].foldl divStep s).1 = true ∧ ([x, y, z].foldl divStep s).2.1 = true ∧
      ([x, y, z].foldl divStep s).2.2 = true) ↔
     (x = !(T3 s).1) ∧ (y = !(T3 s).2.1) ∧ z = !(T3 s).2.2 := by
  rintro ⟨a, b, c⟩; revert a b c; decide

theorem crc3_eq (l : List Bool) : crc3 l =
    [!(T3 (l.foldl divStep (false, false, false))).1, !(T3 (l.foldl divStep (false, false, false))).2.1,
      !(T3 (l.foldl divStep (false, false, false))).2.2] := by
  rw [← foldl_T3]; rfl

/-- the check bits computed by the code are those of the standard, and the only ones -/
theorem checkBits_iff (prot chk : List Bool) : checkBitsOk prot chk ↔ chk = crc3 prot := by
  rw [crc3_eq]
  unfold checkBitsOk remainder
  rw [List.foldl_append]
  constructor
  · rintro ⟨hl, h⟩
    match chk, hl with
    | [x, y, z], _ =>
      simp only [List.cons.injEq, and_true] at h
      have := (chk_aux _ _ _ _).1 h
      simp only [List.cons.injEq, and_true]
      exact this
  · rintro rfl
    refine ⟨rfl, ?_⟩
    simp only [List.cons.injEq, and_true]
    exact (chk_aux _ _ _ _).2 ⟨rfl, rfl, rfl⟩

theorem divStep_inj : ∀ (s t : Bool × Bool × Bool) (x : Bool), divStep s x = divStep t x → s = t := by
  rintro ⟨a, b, c⟩ ⟨a', b', c'⟩; revert a b c a' b' c'; decide
theorem foldl_inj : ∀ (l : List Bool) (s t : Bool × Bool × Bool), l.foldl divStep s = l.foldl divStep t → s = t
  | [], _, _, h => h
  | x :: l, s, t, h => divStep_inj s t x (foldl_inj l _ _ h)

theorem burst3 : ∀ (s : Bool × Bool × Bool) (x y z x' y' z' : Bool),
    [x, y, z].foldl divStep s = [x', y', z'].foldl divStep s → x = x' ∧ y = y' ∧ z = z' := by
  rintro ⟨a, b, c⟩; revert a b c; decide
theorem burst2 : ∀ (s : Bool × Bool × Bool) (y z y' z' : Bool),
    [y, z].foldl divStep s = [y', z'].foldl divStep s → y = y' ∧ z = z' := by
  rintro ⟨a, b, c⟩; revert a b c; decide
theorem burst1 : ∀ (s : Bool × Bool × Bool) (z z' : Bool),
    [z].foldl divStep s = [z'].foldl divStep s → z = z' := by
  rintro ⟨a, b, c⟩; revert a b c; decide

/-- errors confined to three consecutive positions change the remainder -/
theorem remainder_burst {a m m' b : List Bool} (hl : m.length = m'.length) (h3 : m.length ≤ 3) (hne : m ≠ m') :
    remainder (a ++ m ++ b) ≠ remainder (a ++ m' ++ b) := by
  intro h
  apply hne
  unfold remainder at h
  simp only [List.cons.injEq, and_true, ← Prod.ext_iff] at h
  rw [List.foldl_append, List.foldl_append, List.foldl_append, List.foldl_append] at h
  have h : m.foldl divStep (a.foldl divStep (false, false, false)) = m'.foldl divStep (a.foldl divStep (false, false, false)) :=
    foldl_inj b _ _ h
  match m, m', hl, h3, h with
  | [], [], _, _, _ => rfl
  | [z], [z'], _, _, h => rw [burst1 _ _ _ h]
  | [y, z], [y', z'], _, _, h => obtain ⟨h1, h2⟩ := burst2 _ _ _ _ _ h; rw [h1, h2]
  | [x, y, z], [x', y', z'], _, _, h => obtain ⟨h1, h2, h3⟩ := burst3 _ _ _ _ _ _ _ h; rw [h1, h2, h3]
  | _ :: _ :: _ :: _ :: _, _, _, h3, _ => simp at h3

/-! ### blocks -/
/-- the protected bits of block `k` -/
def prot (d : List Bool) (k : Nat) : List Bool :=
  match efrBlocks[k]? with
  | some (st, _, ps) => pick d (ps.map (st + ·))
  | none => []
/-- the check bits of block `k` -/
def chk (d : List Bool) (k : Nat) : List Bool :=
  match efrBlocks[k]? with
  | some (st, n, _) => pick d [st + n, st + n + 1, st + n + 2]
  | none => []

theorem par1 (d : Nat → Bool) : parity1 (L 288 d) = .ok (prot (L 288 d) 0) := by kernel_rfl
theorem par2 (d : Nat → Bool) : parity2 (L 288 d) = .ok (prot (L 288 d) 1) := by kernel_rfl
theorem par3 (d : Nat → Bool) : parity3 (L 288 d) = .ok (prot (L 288 d) 2) := by kernel_rfl
theorem par4 (d : Nat → Bool) : parity4 (L 288 d) = .ok (prot (L 288 d) 3) := by kernel_rfl
theorem par5 (d : Nat → Bool) : parity5 (L 288 d) = .ok (prot (L 288 d) 4) := by kernel_rfl
theorem chk1 (d : Nat → Bool) : slice (L 288 d) 39 3 = .ok (chk (L 288 d) 0) := by kernel_rfl
theorem chk2 (d : Nat → Bool) : slice (L 288 d) 95 3 = .ok (chk (L 288 d) 1) := by kernel_rfl
theorem chk3 (d : Nat → Bool) : slice (L 288 d) 148 3 = .ok (chk (L 288 d) 2) := by kernel_rfl
theorem chk4 (d : Nat → Bool) : slice (L 288 d) 204 3 = .ok (chk (L 288 d) 3) := by kernel_rfl
theorem chk5 (d : Nat → Bool) : slice (L 288 d) 257 3 = .ok (chk (L 288 d) 4) := by kernel_rfl

/-- the speech bits carried by the D bits -/
def efrSpeech (d : List Bool) : List Bool :=
  (d.drop 1).take 38 ++ (d.drop 42).take 53 ++ (d.drop 98).take 50 ++ (d.drop 151).take 53 ++ (d.drop 207).take 50

/-- signature only -/
def efrB0 : List Bool := [true, true, false, false] ++ List.replicate 244 false
theorem efr1 (d : Nat → Bool) : orB efrB0 (L 288 d) (span 1 4 38) =
  .ok ([true, true, false, false] ++ (efrSpeech (L 288 d)).take 38 ++ List.replicate 206 false) := by kernel_rfl
theorem efr2 (d : Nat → Bool) : orB ([true, true, false, false] ++ (efrSpeech (L 288 d)).take 38 ++ List.replicate 206 false)
  (L 288 d) (span 42 42 53) = .ok ([true, true, false, false] ++ (efrSpeech (L 288 d)).take 91 ++ List.replicate 153 false) := by kernel_rfl
theorem efr3 (d : Nat → Bool) : orB ([true, true, false, false] ++ (efrSpeech (L 288 d)).take 91 ++ List.replicate 153 false)
  (L 288 d) (span 98 95 50) = .ok ([true, true, false, false] ++ (efrSpeech (L 288 d)).take 141 ++ List.replicate 103 false) := by kernel_rfl
theorem efr4 (d : Nat → Bool) : orB ([true, true, false, false] ++ (efrSpeech (L 288 d)).take 141 ++ List.replicate 103 false)
  (L 288 d) (span 151 145 53) = .ok ([true, true, false, false] ++ (efrSpeech (L 288 d)).take 194 ++ List.replicate 50 false) := by kernel_rfl
theorem efr5 (d : Nat → Bool) : orB ([true, true, false, false] ++ (efrSpeech (L 288 d)).take 194 ++ List.replicate 50 false)
  (L 288 d) (span 207 198 50) = .ok ([true, true, false, false] ++ efrSpeech (L 288 d)) := by kernel_rfl
theorem efrBlockOut_eq {pre rest : List Byte} {d bits bits' l x : List Bool} {ps : List (Nat × Nat)}
    {par : M (List Bool)} {c : Nat} (hl : bits.length = 8 * 31) (ho : orB bits d ps = .ok bits')
    (hp : par = .ok l) (hx : slice d c 3 = .ok x) :
    efrBlockOut (PB 31 pre bits rest) pre.length d ps par c = .ok (PB 31 pre bits' rest, x == crc3 l) ∧
      bits'.length = 8 * 31 := by
  obtain ⟨h1, h2⟩ := orBits_PB ps (pre := pre) (rest := rest) hl ho
  exact ⟨by rw [efrBlockOut, h1, bind_ok, hp, bind_ok, hx, bind_ok], h2⟩

/-- all five check fields are right -/
def efrGood (d : List Bool) : Prop := ∀ k < 5, chk d k = crc3 (prot d k)

theorem efrOut_eq {d : List Bool} (hd : d.length = 288) (pre rest : List Byte) :
    ∃ bits ok, efrOut (PB 31 pre efrB0 rest) pre.length d = .ok (PB 31 pre bits rest, ok) ∧ bits.length = 8 * 31 ∧
      (ok = true ↔ efrGood d) ∧ (ok = true → bits = [true, true, false, false] ++ efrSpeech d) := by
  obtain ⟨d, rfl⟩ := exists_L' hd
  obtain ⟨b1, l1⟩ := efrBlockOut_eq (pre := pre) (rest := rest) (bits := efrB0) (by rfl) (efr1 d) (par1 d) (chk1 d)
  obtain ⟨b2, l2⟩ := efrBlockOut_eq (pre := pre) (rest := rest) l1 (efr2 d) (par2 d) (chk2 d)
  obtain ⟨b3, l3⟩ := efrBlockOut_eq (pre := pre) (rest := rest) l2 (efr3 d) (par3 d) (chk3 d)
  obtain ⟨b4, l4⟩ := efrBlockOut_eq (pre := pre) (rest := rest) l3 (efr4 d) (par4 d) (chk4 d)
  obtain ⟨b5, l5⟩ := efrBlockOut_eq (pre := pre) (rest := rest) l4 (efr5 d) (par5 d) (chk5 d)
  generalize L 288 d = d at *
  unfold efrOut
  simp only [b1, b2, b3, b4, b5, bind_ok]
  rcases Decidable.em (chk d 0 = crc3 (prot d 0)) with g1 | g1; rotate_left
  · exact ⟨_, false, by simp [g1], l1, ⟨by simp, fun h => absurd (h 0 (by decide)) g1⟩, by simp⟩
  rcases Decidable.em (chk d 1 = crc3 (prot d 1)) with g2 | g2; rotate_left
  · exact ⟨_, false, by simp [g1, g2], l2, ⟨by simp, fun h => absurd (h 1 (by decide)) g2⟩, by simp⟩
  rcases Decidable.em (chk d 2 = crc3 (prot d 2)) with g3 | g3; rotate_left
  · exact ⟨_, false, by simp [g1, g2, g3], l3, ⟨by simp, fun h => absurd (h 2 (by decide)) g3⟩, by simp⟩
  rcases Decidable.em (chk d 3 = crc3 (prot d 3)) with g4 | g4; rotate_left
  · exact ⟨_, false, by simp [g1, g2, g3, g4], l4, ⟨by simp, fun h => absurd (h 3 (by decide)) g4⟩, by simp⟩
  rcases Decidable.em (chk d 4 = crc3 (prot d 4)) with g5 | g5; rotate_left
  · exact ⟨_, false, by simp [g1, g2, g3, g4, g5], l5, ⟨by simp, fun h => absurd (h 4 (by decide)) g5⟩, by simp⟩
  refine ⟨_, true, by simp only [g1, g2, g3, g4, g5, BEq.rfl, Bool.not_true, Bool.false_eq_true, if_false], l5,
    ⟨fun _ k hk => ?_, fun _ => rfl⟩, fun _ => rfl⟩
  match k, hk with
  | 0, _ => exact g1
  | 1, _ => exact g2
  | 2, _ => exact g3
  | 3, _ => exact g4
  | 4, _ => exact g5

theorem crc3_L (l : List Bool) : ∃ x, crc3 l = L 3 x := exists_L' rfl

/-- D bits while being assembled -/
def eA1 (p d : Nat → Bool) : List Bool := [true] ++ (L 244 p).take 38 ++ (L 288 d).drop 39
@[inherit_doc eA1] def eB1 (p d x1 : Nat → Bool) : List Bool := [true] ++ (L 244 p).take 38 ++ L 3 x1 ++ (L 288 d).drop 42
@[inherit_doc eA1] def eA2 (p d x1 : Nat → Bool) : List Bool :=
  [true] ++ (L 244 p).take 38 ++ L 3 x1 ++ ((L 244 p).drop 38).take 53 ++ (L 288 d).drop 95
@[inherit_doc eA1] def eB2 (p d x1 x2 : Nat → Bool) : List Bool :=
  [true] ++ (L 244 p).take 38 ++ L 3 x1 ++ ((L 244 p).drop 38).take 53 ++ L 3 x2 ++ (L 288 d).drop 98
@[inherit_doc eA1] def eA3 (p d x1 x2 : Nat → Bool) : List Bool :=
  [true] ++ (L 244 p).take 38 ++ L 3 x1 ++ ((L 244 p).drop 38).take 53 ++ L 3 x2 ++ ((L 244 p).drop 91).take 50 ++
    (L 288 d).drop 148
@[inherit_doc eA1] def eB3 (p d x1 x2 x3 : Nat → Bool) : List Bool :=
  [true] ++ (L 244 p).take 38 ++ L 3 x1 ++ ((L 244 p).drop 38).take 53 ++ L 3 x2 ++ ((L 244 p).drop 91).take 50 ++
    L 3 x3 ++ (L 288 d).drop 151
@[inherit_doc eA1] def eA4 (p d x1 x2 x3 : Nat → Bool) : List Bool :=
  [true] ++ (L 244 p).take 38 ++ L 3 x1 ++ ((L 244 p).drop 38).take 53 ++ L 3 x2 ++ ((L 244 p).drop 91).take 50 ++
    L 3 x3 ++ ((L 244 p).drop 141).take 53 ++ (L 288 d).drop 204
@[inherit_doc eA1] def eB4 (p d x1 x2 x3 x4 : Nat → Bool) : List Bool :=
  [true] ++ (L 244 p).take 38 ++ L 3 x1 ++ ((L 244 p).drop 38).take 53 ++ L 3 x2 ++ ((L 244 p).drop 91).take 50 ++
    L 3 x3 ++ ((L 244 p).drop 141).take 53 ++ L 3 x4 ++ (L 288 d).drop 207
@[inherit_doc eA1] def eA5 (p d x1 x2 x3 x4 : Nat → Bool) : List Bool :=
  [true] ++ (L 244 p).take 38 ++ L 3 x1 ++ ((L 244 p).drop 38).take 53 ++ L 3 x2 ++ ((L 244 p).drop 91).take 50 ++
    L 3 x3 ++ ((L 244 p).drop 141).take 53 ++ L 3 x4 ++ ((L 244 p).drop 194).take 50 ++ (L 288 d).drop 257
@[inherit_doc eA1] def eF (p d x1 x2 x3 x4 x5 : Nat → Bool) : List Bool :=
  efrData (L 244 p) (L 3 x1) (L 3 x2) (L 3 x3) (L 3 x4) (L 3 x5) ++ (L 288 d).drop 260

/-- the protected bits of block 0, as speech bits -/
def eQ1 (p : Nat → Bool) : List Bool :=
  [true, p 0, p 1, p 2, p 3, p 4, p 5, p 6, p 7, p 8, p 9, p 10, p 11, p 12,
   p 13, p 14, p 15, p 16, p 17, p 18, p 19, p 20, p 23, p 24, p 25, p 27]
/-- the protected bits of block 1, as speech bits -/
def eQ2 (p : Nat → Bool) : List Bool :=
  [p 38, p 39, p 40, p 41, p 42, p 43, p 44, p 45, p 46, p 47, p 86, p 87]
/-- the protected bits of block 2, as speech bits -/
def eQ3 (p : Nat → Bool) : List Bool :=
  [p 91, p 92, p 93, p 94, p 95, p 97, p 136, p 137]
/-- the protected bits of block 3, as speech bits -/
def eQ4 (p : Nat → Bool) : List Bool :=
  [p 141, p 142, p 143, p 144, p 145, p 146, p 147, p 148, p 149, p 150, p 189, p 190]
/-- the protected bits of block 4, as speech bits -/
def eQ5 (p : Nat → Bool) : List Bool :=
  [p 194, p 195, p 196, p 197, p 198, p 200, p 239, p 240]

theorem efrBlockIn_eq {data : List Byte} {bs d a b q : List Bool} {ps : List (Nat × Nat)} {c : Nat} {x : Nat → Bool}
    {par : List Bool → M (List Bool)} (hb : pbit2ubit data = bs) (hg : getB bs d ps = .ok a) (hp : par a = .ok q)
    (hx : crc3 q = L 3 x) (hbl : blit a c (L 3 x) = .ok b) : efrBlockIn data d ps par c = .ok b := by
  rw [efrBlockIn, getPbits_eq, hb, hg, bind_ok, hp, bind_ok, hx, hbl]

theorem efrIn_eq {data : List Byte} {p d : Nat → Bool} (hb : pbit2ubit data = [true, true, false, false] ++ L 244 p) :
    ∃ x1 x2 x3 x4 x5, efrIn data (L 288 d) = .ok (eF p d x1 x2 x3 x4 x5) ∧ efrGood (eF p d x1 x2 x3 x4 x5) := by
  obtain ⟨x1, h1⟩ := crc3_L (eQ1 p)
  obtain ⟨x2, h2⟩ := crc3_L (eQ2 p)
  obtain ⟨x3, h3⟩ := crc3_L (eQ3 p)
  obtain ⟨x4, h4⟩ := crc3_L (eQ4 p)
  obtain ⟨x5, h5⟩ := crc3_L (eQ5 p)
  refine ⟨x1, x2, x3, x4, x5, ?_, ?_⟩
  · unfold efrIn
    have h0 : wr (L 288 d) 0 true = .ok (true :: (L 288 d).drop 1) := by kernel_rfl
    have b1 := efrBlockIn_eq (d := true :: (L 288 d).drop 1) (a := eA1 p d) (b := eB1 p d x1) (ps := span 1 4 38)
      (par := parity1) (c := 39) hb (by kernel_rfl) (by kernel_rfl) h1 (by kernel_rfl)
    have b2 := efrBlockIn_eq (d := eB1 p d x1) (a := eA2 p d x1) (b := eB2 p d x1 x2) (ps := span 42 42 53)
      (par := parity2) (c := 95) hb (by kernel_rfl) (by kernel_rfl) h2 (by kernel_rfl)
    have b3 := efrBlockIn_eq (d := eB2 p d x1 x2) (a := eA3 p d x1 x2) (b := eB3 p d x1 x2 x3) (ps := span 98 95 50)
      (par := parity3) (c := 148) hb (by kernel_rfl) (by kernel_rfl) h3 (by kernel_rfl)
    have b4 := efrBlockIn_eq (d := eB3 p d x1 x2 x3) (a := eA4 p d x1 x2 x3) (b := eB4 p d x1 x2 x3 x4)
      (ps := span 151 145 53) (par := parity4) (c := 204) hb (by kernel_rfl) (by kernel_rfl) h4 (by kernel_rfl)
    have b5 := efrBlockIn_eq (d := eB4 p d x1 x2 x3 x4) (a := eA5 p d x1 x2 x3 x4) (b := eF p d x1 x2 x3 x4 x5)
      (ps := span 207 198 50) (par := parity5) (c := 257) hb (by kernel_rfl) (by kernel_rfl) h5 (by kernel_rfl)
    rw [h0, bind_ok, b1, bind_ok, b2, bind_ok, b3, bind_ok, b4, bind_ok, b5]
  · have c0 : chk (eF p d x1 x2 x3 x4 x5) 0 = L 3 x1 := by kernel_rfl
    have c1 : chk (eF p d x1 x2 x3 x4 x5) 1 = L 3 x2 := by kernel_rfl
    have c2 : chk (eF p d x1 x2 x3 x4 x5) 2 = L 3 x3 := by kernel_rfl
    have c3 : chk (eF p d x1 x2 x3 x4 x5) 3 = L 3 x4 := by kernel_rfl
    have c4 : chk (eF p d x1 x2 x3 x4 x5) 4 = L 3 x5 := by kernel_rfl
    have p0 : prot (eF p d x1 x2 x3 x4 x5) 0 = eQ1 p := by kernel_rfl
    have p1 : prot (eF p d x1 x2 x3 x4 x5) 1 = eQ2 p := by kernel_rfl
    have p2 : prot (eF p d x1 x2 x3 x4 x5) 2 = eQ3 p := by kernel_rfl
    have p3 : prot (eF p d x1 x2 x3 x4 x5) 3 = eQ4 p := by kernel_rfl
    have p4 : prot (eF p d x1 x2 x3 x4 x5) 4 = eQ5 p := by kernel_rfl
    intro k hk
    match k, hk with
    | 0, _ => rw [c0, p0, h1]
    | 1, _ => rw [c1, p1, h2]
    | 2, _ => rw [c2, p2, h3]
    | 3, _ => rw [c3, p3, h4]
    | 4, _ => rw [c4, p4, h5]

theorem efrSpeech_eF (p d x1 x2 x3 x4 x5 : Nat → Bool) : efrSpeech (eF p d x1 x2 x3 x4 x5) = L 244 p := by kernel_rfl
/-! ### the whole functions -/

/-- the payload with the given speech bits -/
def efrPayload (s : List Bool) : List Byte := ubit2pbit 31 ([true, true, false, false] ++ s)
theorem efrPayload_isEfr {s : List Bool} (h : s.length = 244) : IsEfr (efrPayload s) s where
  len := by simp [efrPayload]
  nspeech := h
  bits := by rw [bitsOf_eq, efrPayload, pbit2ubit_ubit2pbit _ _ (by simp [h])]
theorem IsEfr.unique {a b : List Byte} {s : List Bool} (ha : IsEfr a s) (hb : IsEfr b s) : a = b :=
  pbit2ubit_inj (by rw [← bitsOf_eq, ← bitsOf_eq, ha.bits, hb.bits])

theorem nibC : ∀ b : Byte, b.getLsbD 7 = true ∧ b.getLsbD 6 = true ∧ b.getLsbD 5 = false ∧ b.getLsbD 4 = false →
   b &&& 0xF0 = 0xC0 := by decide +kernel

theorem isEfr_hd {pl s} (h : IsEfr pl s) : ∃ b rest, pl = b :: rest ∧ rest.length = 30 ∧ b &&& 0xF0 = 0xC0 := by
  match pl, h with
  | [], h => cases h.len
  | b :: rest, h =>
    refine ⟨b, rest, rfl, by simpa using h.len, nibC b ?_⟩
    have := h.bits
    simp only [bitsOf, List.cons_append, List.cons.injEq, List.nil_append] at this
    exact ⟨this.1, this.2.1, this.2.2.1, this.2.2.2.1⟩

/-- C1..C21 of an enhanced full rate frame made of an RTP payload -/
def efrC (K : Codec) (dir : Dir) (dtxd bfi taf : Bool) (pl : List Byte) : List Bool :=
  match dir with
  | .ul => [true, true, false, true, false] ++ List.replicate 6 false ++
      [bfi, K.efrSidClassify pl / 2 % 2 == 1, K.efrSidClassify pl % 2 == 1, taf, true, dtxd] ++ List.replicate 4 true
  | .dl => [true, true, false, true, false] ++ List.replicate 6 false ++
      [true, true, true, true, !K.efrCheckSid pl, true] ++ List.replicate 4 true

theorem rtp2trauEfr_eq (K : Codec) {tf : Frame} (h : tf.WF) {data pl : List Byte} {dtxd bfi taf s}
    (hs : stripTwts001 data = (dtxd, bfi, taf, pl)) (hp : IsEfr pl s) :
    ∃ x1 x2 x3 x4 x5, x1.length = 3 ∧ x2.length = 3 ∧ x3.length = 3 ∧ x4.length = 3 ∧ x5.length = 3 ∧
    efrGood (efrData s x1 x2 x3 x4 x5 ++ tf.d.drop 260) ∧
    efrSpeech (efrData s x1 x2 x3 x4 x5 ++ tf.d.drop 260) = s ∧
    rtp2trauEfr K tf data = .ok (0, { tf with
      type := .efr
      c := efrC K tf.dir dtxd bfi taf pl ++ tf.c.drop 21
      t := List.replicate 4 true
      d := efrData s x1 x2 x3 x4 x5 ++ tf.d.drop 260 }) := by
  obtain ⟨b, rest, hpl, hrest, hb⟩ := isEfr_hd hp
  obtain ⟨p, rfl⟩ := exists_L' hp.nspeech
  obtain ⟨dd, hdd⟩ := exists_L' h.d
  obtain ⟨x1, x2, x3, x4, x5, hin, hgood⟩ := efrIn_eq (d := dd) (by rw [← bitsOf_eq]; exact hp.bits)
  rw [← hdd] at hin
  have hF : eF p dd x1 x2 x3 x4 x5 = efrData (L 244 p) (L 3 x1) (L 3 x2) (L 3 x3) (L 3 x4) (L 3 x5) ++ tf.d.drop 260 := by
    rw [hdd]; rfl
  refine ⟨L 3 x1, L 3 x2, L 3 x3, L 3 x4, L 3 x5, rfl, rfl, rfl, rfl, rfl, hF ▸ hgood,
    by rw [← hF]; exact efrSpeech_eF p dd x1 x2 x3 x4 x5, ?_⟩
  rw [← hF]
  generalize eF p dd x1 x2 x3 x4 x5 = D at *
  unfold rtp2trauEfr
  rw [hs]
  dsimp only
  have hl : pl.length = EFR_BYTES := hp.len
  have hl0 : ¬ (pl.length = 0) := by rw [hp.len]; decide
  have hr : rd pl 0 = .ok b := by rw [hpl]; rfl
  rw [if_pos hl, hr, bind_ok, if_neg (fun hc => hc.1 hl), if_neg (fun hc => hc hb)]
  simp only [hl0, bind_ok, hin, if_false, decide_false, Bool.or_false, false_and]
  obtain ⟨ty, dir, ta, c, d, t, s, m, ufi, crc, xc⟩ := tf
  obtain ⟨h1, h2, h3, h4, h5, h6, h7⟩ := h
  simp only at h1 h3
  obtain ⟨c, rfl⟩ := exists_L' h1
  obtain ⟨t, rfl⟩ := exists_L' h3
  cases dir
  · show _ = _
    kernel_rfl
  · show _ = _
    kernel_rfl

theorem efrBody_k {d : List Bool} (h : d.length = 288) {pre mid rest : List Byte} (hm : mid.length = 31) :
    ∃ bits ok, bits.length = 8 * 31 ∧ (ok = true ↔ efrGood d) ∧
      (ok = true → bits = [true, true, false, false] ++ efrSpeech d) ∧
    ∀ (f : List Byte × Bool → M (Int × List Byte)),
    (do
      let out ← wr (pre ++ mid ++ rest) pre.length 0xc0
      let out ← blit out (pre.length + 1) (List.replicate (EFR_BYTES - 1) 0)
      let r ← efrOut out pre.length d
      f r) = f (PB 31 pre bits rest, ok) := by
  obtain ⟨bits, ok, h1, h2, h3, h4⟩ := efrOut_eq h pre rest
  refine ⟨bits, ok, h2, h3, h4, fun f => ?_⟩
  have hi := init_PB (pre := pre) (rest := rest) 30 0xc0 hm
  have := congrArg (· >>= fun out => efrOut out pre.length d >>= f) hi
  simp only [bind_assoc, bind_ok] at this
  have e0 : pre ++ ((0xc0 : Byte) :: List.replicate 30 (0 : Byte)) ++ rest = PB 31 pre efrB0 rest := by
    rw [PB_of (n := 31) (by simp),
      show pbit2ubit ((0xc0 : Byte) :: List.replicate 30 (0 : Byte)) = efrB0 by decide +kernel]
  rw [e0, h1, bind_ok] at this
  exact this

theorem efrSpeech_length {d : List Bool} (h : d.length = 288) : (efrSpeech d).length = 244 := by
  simp [efrSpeech, h]

theorem PB_efr {d : List Bool} {pre rest : List Byte} :
    PB 31 pre ([true, true, false, false] ++ efrSpeech d) rest = pre ++ efrPayload (efrSpeech d) ++ rest := rfl

/-- plain RTP: good frame, BFI, CRC error -/
theorem trau2rtpEfr_plain (K : Codec) {tf : Frame} (h : tf.WF) (ht : tf.type = .efr) {mid rest : List Byte}
    (hm : mid.length = 31) (hb : tf.c[11]? = some false) :
    (efrGood tf.d → trau2rtpEfr K (mid ++ rest) tf false = .ok (31, efrPayload (efrSpeech tf.d) ++ rest)) ∧
    (¬ efrGood tf.d → ∃ mid', mid'.length = 31 ∧ trau2rtpEfr K (mid ++ rest) tf false = .ok (0, mid' ++ rest)) := by
  obtain ⟨bits, ok, hl, hok, hbits, hk⟩ := efrBody_k h.d (pre := []) (rest := rest) hm
  obtain ⟨x12, h12⟩ : ∃ x, rd tf.c 12 = .ok x := ⟨_, rd_ok (by rw [h.c]; decide)⟩
  obtain ⟨x13, h13⟩ : ∃ x, rd tf.c 13 = .ok x := ⟨_, rd_ok (by rw [h.c]; decide)⟩
  have h11 : rd tf.c 11 = .ok false := by unfold rd; rw [hb]
  obtain ⟨pl, hsl⟩ : ∃ x, slice (PB 31 [] bits rest) 0 EFR_BYTES = .ok x :=
    ⟨_, slice_ok (by simp [PB, EFR_BYTES])⟩
  have key : trau2rtpEfr K (mid ++ rest) tf false =
      if ok then .ok (31, PB 31 [] bits rest) else .ok (0, PB 31 [] bits rest) := by
    unfold trau2rtpEfr
    simp only [ht, ne_eq, not_true_eq_false, if_false, Bool.false_eq_true, h11, bind_ok, false_and]
    rw [if_neg (by simp [EFR_BYTES]; omega)]
    simp only [List.nil_append, List.length_nil] at hk
    rw [hk]
    dsimp only
    simp only [h12, h13, hsl, bind_ok]
    rfl
  constructor
  · intro hg
    have hok := hok.2 hg
    rw [key, hok, if_pos rfl, hbits hok]; rfl
  · intro hg
    have : ok = false := by
      cases ok
      · rfl
      · exact absurd (hok.1 rfl) hg
    subst this
    exact ⟨ubit2pbit 31 bits, by simp, by rw [key]; rfl⟩

theorem trau2rtpEfr_tw (K : Codec) {tf : Frame} (h : tf.WF) (ht : tf.type = .efr) {mid rest : List Byte} {x : Byte}
    {dtxd bfi taf s1 s0 : Bool} (h16 : tf.c[16]? = some dtxd) (h11 : tf.c[11]? = some bfi)
    (h14 : tf.c[14]? = some taf) (h12 : tf.c[12]? = some s1) (h13 : tf.c[13]? = some s0)
    (hm : mid.length = 31)  :
    (efrGood tf.d →
      let pl := efrPayload (efrSpeech tf.d)
      trau2rtpEfr K (x :: mid ++ rest) tf true =
        if bfi ∧ s1 = false ∧ s0 = false ∧ K.efrIsAnySid pl then
          makeEfrBfiNonsid (tw001Hdr dtxd bfi taf :: pl ++ rest) 1 >>= fun out => .ok (32, out)
        else .ok (32, tw001Hdr dtxd bfi taf :: pl ++ rest)) ∧
    (¬ efrGood tf.d → ∃ mid', mid'.length = 31 ∧
      trau2rtpEfr K (x :: mid ++ rest) tf true = .ok (1, (tw001Hdr dtxd bfi taf ||| 0x06) :: mid' ++ rest)) := by
  obtain ⟨bits, ok, hl, hok, hbits, hk⟩ := efrBody_k h.d (pre := [tw001Hdr dtxd bfi taf]) (rest := rest) hm
  have r11 : rd tf.c 11 = .ok bfi := by unfold rd; rw [h11]
  have r12 : rd tf.c 12 = .ok s1 := by unfold rd; rw [h12]
  have r13 : rd tf.c 13 = .ok s0 := by unfold rd; rw [h13]
  have hw : wr (x :: mid ++ rest) 0 (tw001Hdr dtxd bfi taf) = .ok ([tw001Hdr dtxd bfi taf] ++ mid ++ rest) := by
    simp [wr]
  have key : trau2rtpEfr K (x :: mid ++ rest) tf true =
      if ok then do
        let c12 ← rd tf.c 12
        let c13 ← rd tf.c 13
        let pl ← slice (PB 31 [tw001Hdr dtxd bfi taf] bits rest) 1 EFR_BYTES
        if bfi ∧ ¬ c12 ∧ ¬ c13 ∧ K.efrIsAnySid pl then
          (makeEfrBfiNonsid (PB 31 [tw001Hdr dtxd bfi taf] bits rest) 1 >>= fun out => .ok (32, out))
        else .ok (32, (PB 31 [tw001Hdr dtxd bfi taf] bits rest))
      else (orByte (PB 31 [tw001Hdr dtxd bfi taf] bits rest) 0 0x06 >>= fun out => .ok (1, out)) := by
    unfold trau2rtpEfr
    simp only [ht, ne_eq, not_true_eq_false, if_false, if_true, r11, bind_ok, and_false, twts001Hdr_eq h16 h11 h14]
    rw [if_neg (by simp [EFR_BYTES]; omega)]
    simp only [List.length_cons, List.length_nil] at hk
    rw [hw, bind_ok, hk]
    rfl
  constructor
  · intro hg pl
    have hok := hok.2 hg
    have hsl : slice (tw001Hdr dtxd bfi taf :: pl ++ rest) 1 EFR_BYTES = .ok pl := by
      rw [slice_ok (by simp [pl, efrPayload, EFR_BYTES])]
      exact congrArg Except.ok (List.take_left' (by simp [pl, efrPayload, EFR_BYTES]))
    rw [key, hok, if_pos rfl, hbits hok, PB_efr, r12, r13, bind_ok, bind_ok]
    rw [show [tw001Hdr dtxd bfi taf] ++ efrPayload (efrSpeech tf.d) ++ rest = tw001Hdr dtxd bfi taf :: pl ++ rest from rfl,
      hsl, bind_ok]
    simp only [Bool.not_eq_true]
  · intro hg
    have : ok = false := by
      cases ok
      · rfl
      · exact absurd (hok.1 rfl) hg
    subst this
    exact ⟨ubit2pbit 31 bits, by simp, by rw [key]; rfl⟩

end Verif.RtpConv
