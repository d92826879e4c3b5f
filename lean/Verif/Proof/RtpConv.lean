import Verif.RtpConv
import Verif.Proof.Sym
import Verif.Proof.TrauFrame
/-!
# Proof infrastructure for `Verif/RtpConv.lean`: octet buffers as bit lists
-/
namespace Verif.RtpConv
open Verif Verif.Trau
open Verif.RaaPrime (bind_ok bind_err)
set_option maxRecDepth 10000

/-! ### octets and bits -/

theorem pbit2ubit_nil : pbit2ubit [] = [] := rfl
theorem pbit2ubit_cons (b : Byte) (l : List Byte) :
    pbit2ubit (b :: l) = ((List.range 8).map fun i => b.getLsbD (7 - i)) ++ pbit2ubit l := rfl
theorem pbit2ubit_append (a b : List Byte) : pbit2ubit (a ++ b) = pbit2ubit a ++ pbit2ubit b := by
  simp [pbit2ubit]

@[simp] theorem pbit2ubit_length (l : List Byte) : (pbit2ubit l).length = 8 * l.length := by
  induction l with
  | nil => rfl
  | cons b l ih => rw [pbit2ubit_cons]; simp [ih]; omega

theorem byteBits_inj {a b : Byte}
    (h : ((List.range 8).map fun i => a.getLsbD (7 - i)) = (List.range 8).map fun i => b.getLsbD (7 - i)) :
    a = b := by
  apply BitVec.eq_of_getLsbD_eq
  intro i hi
  have := List.map_inj_left.1 h (7 - i) (by simp; omega)
  rwa [show 7 - (7 - i) = i by omega] at this

theorem pbit2ubit_inj : ∀ {a b : List Byte}, pbit2ubit a = pbit2ubit b → a = b
  | [], [], _ => rfl
  | [], b :: bs, h => by have := congrArg List.length h; simp at this
  | a :: as, [], h => by have := congrArg List.length h; simp at this
  | a :: as, b :: bs, h => by
    rw [pbit2ubit_cons, pbit2ubit_cons] at h
    have := List.append_inj h (by simp)
    rw [byteBits_inj this.1, pbit2ubit_inj this.2]

theorem packByte_bits : ∀ x0 x1 x2 x3 x4 x5 x6 x7 : Bool,
    ((List.range 8).map fun i => (packByte [x0, x1, x2, x3, x4, x5, x6, x7]).getLsbD (7 - i)) =
      [x0, x1, x2, x3, x4, x5, x6, x7] := by decide +kernel

theorem pbit2ubit_ubit2pbit : ∀ (n : Nat) (l : List Bool), l.length = 8 * n → pbit2ubit (ubit2pbit n l) = l
  | 0, l, h => by
    have : l = [] := List.length_eq_zero_iff.1 (by omega)
    subst this; rfl
  | n + 1, l, h => by
    rw [ubit2pbit, pbit2ubit_cons, pbit2ubit_ubit2pbit n (l.drop 8) (by simp; omega)]
    obtain ⟨f, hf⟩ := exists_L' (l := l.take 8) (n := 8) (by simp; omega)
    have : l.take 8 = [f 0, f 1, f 2, f 3, f 4, f 5, f 6, f 7] := hf
    rw [this, packByte_bits, ← this, List.take_append_drop]

@[simp] theorem ubit2pbit_length : ∀ (n : Nat) (l : List Bool), (ubit2pbit n l).length = n
  | 0, _ => rfl
  | n + 1, l => by simp [ubit2pbit, ubit2pbit_length n]

theorem ubit2pbit_pbit2ubit {n : Nat} {l : List Byte} (h : l.length = n) : ubit2pbit n (pbit2ubit l) = l := by
  apply pbit2ubit_inj
  rw [pbit2ubit_ubit2pbit _ _ (by simp [h])]

theorem pbit_bit : ∀ (x : Byte) (k : Nat), k < 8 → (((x >>> (7 - k)) &&& 1) == 1) = x.getLsbD (7 - k) := by
  decide +kernel

theorem getElem?_pbit2ubit : ∀ (l : List Byte) (j : Nat),
    (pbit2ubit l)[j]? = (l[j / 8]?).map fun x => x.getLsbD (7 - j % 8)
  | [], j => by simp [pbit2ubit_nil]
  | b :: l, j => by
    rw [pbit2ubit_cons]
    by_cases h : j < 8
    · rw [List.getElem?_append_left (by simpa using h)]
      have h0 : j / 8 = 0 := by omega
      have h1 : j % 8 = j := by omega
      rw [h0, h1]
      simp [h]
    · rw [List.getElem?_append_right (by simp; omega)]
      simp only [List.length_map, List.length_range]
      rw [getElem?_pbit2ubit l (j - 8)]
      have h0 : j / 8 = (j - 8) / 8 + 1 := by omega
      have h1 : (j - 8) % 8 = j % 8 := by omega
      rw [h0, h1, List.getElem?_cons_succ]

theorem pbit_eq (data : List Byte) (j : Nat) : pbit data j = rd (pbit2ubit data) j := by
  unfold pbit rd
  rw [getElem?_pbit2ubit]
  cases h : data[j / 8]? with
  | none => rfl
  | some x =>
    simp only [bind_ok, Option.map_some]
    rw [pbit_bit x (j % 8) (by omega)]

/-- `getPbits` on bits -/
def getB (bs : List Bool) (d : List Bool) : List (Nat × Nat) → M (List Bool)
  | [] => .ok d
  | (j, i) :: ps => do
    let b ← rd bs j
    let d ← wr d i b
    getB bs d ps

theorem getPbits_eq (data : List Byte) : ∀ ps d, getPbits data d ps = getB (pbit2ubit data) d ps
  | [], _ => rfl
  | (j, i) :: ps, d => by
    rw [getPbits, getB, pbit_eq]
    cases rd (pbit2ubit data) j with
    | error e => rfl
    | ok b =>
      simp only [bind_ok]
      cases wr d i b with
      | error e => rfl
      | ok d' => simp only [bind_ok]; exact getPbits_eq data ps d'

/-- `orBits` on bits -/
def orB (bs : List Bool) (d : List Bool) : List (Nat × Nat) → M (List Bool)
  | [] => .ok bs
  | (j, i) :: ps => do
    let b ← rd d i
    let x ← rd bs j
    let bs ← wr bs j (x || b)
    orB bs d ps

theorem or_bit : ∀ (x : Byte) (k : Nat), k < 8 → ∀ b : Bool,
    ((List.range 8).map fun i => (x ||| ((if b then 1 else 0) <<< (7 - k))).getLsbD (7 - i)) =
      ((List.range 8).map fun i => x.getLsbD (7 - i)).set k (x.getLsbD (7 - k) || b) := by
  decide +kernel

theorem pbit2ubit_set : ∀ (l : List Byte) (j : Nat) (x : Byte) (b : Bool), l[j / 8]? = some x →
    pbit2ubit (l.set (j / 8) (x ||| ((if b then 1 else 0) <<< (7 - j % 8)))) =
      (pbit2ubit l).set j (x.getLsbD (7 - j % 8) || b)
  | [], j, x, b, h => by simp at h
  | y :: l, j, x, b, h => by
    by_cases hj : j < 8
    · have h0 : j / 8 = 0 := by omega
      have h1 : j % 8 = j := by omega
      rw [h0] at h ⊢
      rw [h1]
      simp only [List.getElem?_cons_zero, Option.some.injEq] at h
      subst h
      rw [List.set_cons_zero, pbit2ubit_cons, pbit2ubit_cons, or_bit y j hj b, List.set_append_left _ _ (by simpa using hj)]
    · have h0 : j / 8 = (j - 8) / 8 + 1 := by omega
      have h1 : j % 8 = (j - 8) % 8 := by omega
      rw [h0, List.getElem?_cons_succ] at h
      rw [h0, h1, List.set_cons_succ, pbit2ubit_cons, pbit2ubit_cons, pbit2ubit_set l (j - 8) x b h,
        List.set_append_right _ _ (by simp; omega)]
      simp

/-- `pre ++ octets ++ rest`, where the octets in the middle are given by their bits -/
def PB (n : Nat) (pre : List Byte) (bits : List Bool) (rest : List Byte) : List Byte :=
  pre ++ ubit2pbit n bits ++ rest

theorem orBits_PB {n : Nat} {pre rest : List Byte} {d : List Bool} : ∀ (ps : List (Nat × Nat))
    {bits bits' : List Bool}, bits.length = 8 * n → orB bits d ps = .ok bits' →
    orBits (PB n pre bits rest) pre.length d ps = .ok (PB n pre bits' rest) ∧ bits'.length = 8 * n
  | [], bits, bits', hl, h => by
    cases h; exact ⟨rfl, hl⟩
  | (j, i) :: ps, bits, bits', hl, h => by
    rw [orB] at h
    cases hb : rd d i with
    | error e => rw [hb] at h; cases h
    | ok b =>
      rw [hb, bind_ok] at h
      have hj : j < bits.length := by
        refine Nat.lt_of_not_le fun hc => ?_
        have : rd bits j = .error .oob := by
          unfold rd; rw [List.getElem?_eq_none (by omega)]
        rw [this] at h; cases h
      rw [rd_ok hj, bind_ok] at h
      have hw : wr bits j (bits[j] || b) = .ok (bits.set j (bits[j] || b)) := by simp [wr, hj]
      rw [hw, bind_ok] at h
      obtain ⟨ih1, ih2⟩ := orBits_PB ps (pre := pre) (rest := rest) (by simpa using hl) h
      refine ⟨?_, ih2⟩
      rw [orBits, hb, bind_ok]
      have hk : j / 8 < (ubit2pbit n bits).length := by simp; omega
      have hx : (ubit2pbit n bits)[j / 8]? = some (ubit2pbit n bits)[j / 8] := List.getElem?_eq_getElem hk
      have hbit : (ubit2pbit n bits)[j / 8].getLsbD (7 - j % 8) = bits[j] := by
        have := getElem?_pbit2ubit (ubit2pbit n bits) j
        rw [pbit2ubit_ubit2pbit _ _ hl, hx, List.getElem?_eq_getElem hj] at this
        simpa using this.symm
      have ho : orBit (PB n pre bits rest) pre.length j b = .ok (PB n pre (bits.set j (bits[j] || b)) rest) := by
        unfold orBit
        have hrd : rd (PB n pre bits rest) (pre.length + j / 8) = .ok (ubit2pbit n bits)[j / 8] := by
          unfold PB rd
          rw [List.append_assoc, List.getElem?_append_right (by omega), Nat.add_sub_cancel_left,
            List.getElem?_append_left hk, hx]
        rw [hrd, bind_ok]
        unfold wr
        rw [if_pos (by simp only [PB, List.length_append]; omega)]
        congr 1
        unfold PB
        rw [List.append_assoc, List.set_append_right _ _ (by omega), Nat.add_sub_cancel_left,
          List.set_append_left _ _ hk, List.append_assoc]
        congr 2
        apply pbit2ubit_inj
        rw [pbit2ubit_set _ _ _ _ hx, pbit2ubit_ubit2pbit _ _ hl, pbit2ubit_ubit2pbit _ _ (by simpa using hl), hbit]
      rw [ho, bind_ok]
      exact ih1

end Verif.RtpConv
