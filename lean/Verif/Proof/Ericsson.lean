import Verif.Spec.Ericsson
import Verif.Proof.Sym
import Verif.Proof.Safe
import Verif.Proof.RaaPrime
/-! Proof infrastructure for the Ericsson GPRS TRAU frames. -/
namespace Verif.Ericsson
open Verif Spec
open Verif.RaaPrime (bind_ok bind_err)
set_option maxRecDepth 10000

/-! ### numbers and bits -/

theorem lsbBits_eq (n v : Nat) : lsbBits n v = lsb n v := rfl

theorem msbBits_eq (n v : Nat) : msbBits n v = msb n v := by
  unfold msbBits msb lsb
  apply List.ext_getElem
  · simp
  · intro i h1 h2
    simp [List.getElem_reverse]

@[simp] theorem lsb_length (n v : Nat) : (lsb n v).length = n := by simp [lsb]
@[simp] theorem msb_length (n v : Nat) : (msb n v).length = n := by simp [msb]

theorem lsb_succ (n v : Nat) : lsb (n + 1) v = (v % 2 == 1) :: lsb n (v / 2) := by
  unfold lsb
  rw [List.range_succ_eq_map]
  simp only [List.map_cons, List.map_map]
  congr 1
  · rw [Nat.testBit_zero]; rcases Nat.mod_two_eq_zero_or_one v with h | h <;> simp [h]
  · apply List.map_congr_left
    intro i _
    simp [Function.comp, Nat.testBit_succ]

theorem lsbVal_lsb (n : Nat) : ∀ v, v < 2 ^ n → lsbVal (lsb n v) = v := by
  induction n with
  | zero => intro v h; simp [lsb, lsbVal] at *; omega
  | succ n ih =>
    intro v h
    rw [lsb_succ, lsbVal, ih (v / 2) (by rw [Nat.pow_succ] at h; omega)]
    rcases Nat.mod_two_eq_zero_or_one v with h | h <;> simp [h] <;> omega

theorem lsb_lsbVal (l : List Bool) : lsb l.length (lsbVal l) = l := by
  induction l with
  | nil => rfl
  | cons b l ih =>
    rw [List.length_cons, lsb_succ, lsbVal]
    have h2 : (b.toNat + 2 * lsbVal l) / 2 = lsbVal l := by cases b <;> simp <;> omega
    rw [h2, ih]
    cases b <;> simp <;> omega

theorem lsbVal_lt (l : List Bool) : lsbVal l < 2 ^ l.length := by
  induction l with
  | nil => simp [lsbVal]
  | cons b l ih =>
    rw [List.length_cons, Nat.pow_succ, lsbVal]
    cases b <;> simp <;> omega

theorem msbVal_append (l : List Bool) (b : Bool) : msbVal (l ++ [b]) = 2 * msbVal l + b.toNat := by
  simp [msbVal]

theorem msbVal_reverse (l : List Bool) : msbVal l.reverse = lsbVal l := by
  induction l with
  | nil => rfl
  | cons b l ih => rw [List.reverse_cons, msbVal_append, ih, lsbVal]; omega

theorem msbVal_eq (l : List Bool) : msbVal l = lsbVal l.reverse := by rw [← msbVal_reverse, List.reverse_reverse]

theorem msbVal_msb (n v : Nat) (h : v < 2 ^ n) : msbVal (msb n v) = v := by
  rw [msb, msbVal_reverse, lsbVal_lsb n v h]

theorem msb_msbVal (l : List Bool) : msb l.length (msbVal l) = l := by
  rw [msbVal_eq, msb]
  have := lsb_lsbVal l.reverse
  rw [List.length_reverse] at this
  rw [this, List.reverse_reverse]

theorem msbVal_lt (l : List Bool) : msbVal l < 2 ^ l.length := by
  rw [msbVal_eq]; have := lsbVal_lt l.reverse; simpa using this

/-- a field of `n` bits has value `v` iff it is the encoding of `v` -/
theorem lsbVal_iff {l : List Bool} {n v : Nat} (hl : l.length = n) : lsbVal l = v ↔ v < 2 ^ n ∧ l = lsb n v := by
  constructor
  · rintro rfl
    subst hl
    exact ⟨lsbVal_lt l, (lsb_lsbVal l).symm⟩
  · rintro ⟨h, rfl⟩
    exact lsbVal_lsb n v h

theorem msbVal_iff {l : List Bool} {n v : Nat} (hl : l.length = n) : msbVal l = v ↔ v < 2 ^ n ∧ l = msb n v := by
  constructor
  · rintro rfl
    subst hl
    exact ⟨msbVal_lt l, (msb_msbVal l).symm⟩
  · rintro ⟨h, rfl⟩
    exact msbVal_msb n v h

/-! ### parity -/

theorem foldl_bne (l : List Bool) (p : Bool) : l.foldl (fun p x => p != x) p = (p != (l.count true % 2 == 1)) := by
  induction l generalizing p with
  | nil => simp
  | cons b l ih =>
    rw [List.foldl_cons, ih]
    rcases Nat.mod_two_eq_zero_or_one (l.count true) with h | h <;> cases b <;> cases p <;>
      simp [List.count_cons, h, Nat.add_mod]

theorem calcParity_eq (l : List Bool) : calcParity l = odd l := by
  unfold calcParity odd
  rw [foldl_bne]
  rcases Nat.mod_two_eq_zero_or_one (l.count true) with h | h <;> simp [h]

/-! ### CRC -/

theorem addFront_length (g l : List Bool) : (addFront g l).length = l.length := by
  induction g generalizing l with
  | nil => rfl
  | cons x g ih => cases l with
    | nil => rfl
    | cons y l => simp [addFront, ih]

theorem addFront_zipWith (a b l : List Bool) (h : a.length = b.length) :
    addFront (a.zipWith (fun x y => x != y) b) l = addFront b (addFront a l) := by
  induction a generalizing b l with
  | nil => cases b with
    | nil => rfl
    | cons => simp at h
  | cons x a ih => cases b with
    | nil => simp at h
    | cons y b => cases l with
      | nil => rfl
      | cons z l =>
        simp only [List.zipWith_cons_cons, addFront]
        rw [ih b l (by simpa using h)]
        congr 1
        cases x <;> cases y <;> cases z <;> rfl

theorem addFront_append_false (a l : List Bool) : addFront (a ++ [false]) l = addFront a l := by
  induction a generalizing l with
  | nil => cases l with
    | nil => rfl
    | cons y l => cases y <;> rfl
  | cons x a ih => cases l with
    | nil => rfl
    | cons y l => simp [addFront, ih]

theorem crcStep_length (r : List Bool) (x : Bool) (h : r.length = 16) : (crcStep r x).length = 16 := by
  unfold crcStep
  dsimp only
  split
  · simp [h]
  · simp [h]

theorem crc_loop (d : List Bool) : ∀ r : List Bool, r.length = 16 →
    longDiv d.length (addFront r (d ++ zeros 16)) = d.foldl crcStep r := by
  induction d with
  | nil =>
    intro r h
    obtain ⟨f, rfl⟩ := exists_L' h
    show addFront (L 16 f) (zeros 16) = L 16 f
    simp [L, List.range_succ, zeros, List.replicate, addFront]
  | cons x d ih =>
    intro r h
    cases r with
    | nil => simp at h
    | cons r0 rt =>
      rw [List.foldl_cons, ← ih _ (crcStep_length _ _ h)]
      simp only [List.cons_append, addFront, List.length_cons, longDiv]
      congr 1
      have h16 : (rt ++ [false]).length = 16 := by simpa using h
      have hs : crcStep (r0 :: rt) x = if (r0 != x) = true then (rt ++ [false]).zipWith (fun a b => a != b) poly
          else rt ++ [false] := rfl
      rw [hs]
      cases r0 != x
      · simp only [Bool.false_eq_true, if_false]; rw [addFront_append_false]
      · simp only [if_true]; rw [addFront_zipWith _ _ _ (by rw [h16]; rfl), addFront_append_false]

theorem addFront_zero (n : Nat) (l : List Bool) : addFront (zeros n) l = l := by
  induction n generalizing l with
  | zero => rfl
  | succ n ih => cases l with
    | nil => rfl
    | cons y l => show (false != y) :: addFront (zeros n) l = _; rw [ih]; cases y <;> rfl

/-- the CRC of libosmocore is the remainder of the polynomial division -/
theorem crc16_eq (d : List Bool) : crc16 d = crc d := by
  unfold crc16 crc
  rw [show List.replicate 16 false = zeros 16 from rfl, ← crc_loop d (zeros 16) (by simp [zeros]), addFront_zero]

theorem crc16_length (d : List Bool) : (crc16 d).length = 16 := by
  unfold crc16
  rw [List.length_map]
  have : ∀ r : List Bool, r.length = 16 → (d.foldl crcStep r).length = 16 := by
    induction d with
    | nil => intro r h; exact h
    | cons x d ih => intro r h; exact ih _ (crcStep_length r x h)
  exact this _ (by simp)

/-! ### data octets -/

theorem bitsOf_length (d : List Byte) : (bitsOf d).length = 8 * d.length := by
  induction d with
  | nil => rfl
  | cons x d ih =>
    have h : bitsOf (x :: d) = lsb 8 x.toNat ++ bitsOf d := rfl
    rw [h, List.length_append, ih, lsb_length, List.length_cons]; omega

theorem bitsOf_getElem? (d : List Byte) (i : Nat) : (bitsOf d)[i]? = (d[i / 8]?).map fun x => x.getLsbD (i % 8) := by
  induction d generalizing i with
  | nil => simp [bitsOf]
  | cons x d ih =>
    have h : bitsOf (x :: d) = lsb 8 x.toNat ++ bitsOf d := rfl
    rw [h]
    by_cases hi : i < 8
    · rw [List.getElem?_append_left (by simpa using hi)]
      have : i / 8 = 0 := by omega
      have h8 : i % 8 = i := by omega
      rw [this, h8]
      simp [lsb, hi, BitVec.getLsbD]
    · rw [List.getElem?_append_right (by simp; omega), lsb_length, ih]
      have h1 : (i - 8) / 8 = i / 8 - 1 := by omega
      have h2 : (i - 8) % 8 = i % 8 := by omega
      have h3 : i / 8 = (i / 8 - 1) + 1 := by omega
      rw [h1, h2]
      conv => rhs; rw [h3, List.getElem?_cons_succ]

theorem dataBits_eq (d : List Byte) (n : Nat) : ∀ i, i + n ≤ 8 * d.length →
    dataBits d n i = .ok (((bitsOf d).drop i).take n) := by
  induction n with
  | zero => intro i _; simp [dataBits]
  | succ n ih =>
    intro i h
    have hlt : i / 8 < d.length := by omega
    have hl : i < (bitsOf d).length := by rw [bitsOf_length]; omega
    unfold dataBits
    rw [rd_ok hlt, bind_ok, ih (i + 1) (by omega), bind_ok]
    congr 1
    rw [List.drop_eq_getElem_cons hl, List.take_succ_cons]
    congr 1
    have := bitsOf_getElem? d i
    rw [List.getElem?_eq_getElem hl, List.getElem?_eq_getElem hlt] at this
    exact (Option.some.inj this).symm

theorem setBit_get (x : Byte) (k j : Nat) (b : Bool) (hk : k < 8) :
    (setBit x k b).getLsbD j = if j = k then b else x.getLsbD j := by
  have : ∀ (x : Byte) (k : Fin 8) (b : Bool) (j : Fin 8), (setBit x k b).getLsbD j = if j = k then b else x.getLsbD j := by
    decide +kernel
  by_cases hj : j < 8
  · have := this x ⟨k, hk⟩ b ⟨j, hj⟩
    simpa using this
  · rw [BitVec.getLsbD_of_ge _ _ (by omega), if_neg (by omega), BitVec.getLsbD_of_ge _ _ (by omega)]

theorem bitsOf_set (d : List Byte) (k j : Nat) (x : Byte) (b : Bool) (hj : j < 8) (hx : d[k]? = some x) :
    bitsOf (d.set k (setBit x j b)) = (bitsOf d).set (8 * k + j) b := by
  have hk : k < d.length := by
    rcases Nat.lt_or_ge k d.length with h | h
    · exact h
    · rw [List.getElem?_eq_none h] at hx; cases hx
  apply List.ext_getElem?
  intro i
  rw [bitsOf_getElem?, List.getElem?_set, List.getElem?_set]
  by_cases h1 : k = i / 8
  · rw [if_pos h1, if_pos (by omega)]
    simp only [Option.map_some]
    rw [setBit_get _ _ _ _ hj]
    by_cases h2 : i % 8 = j
    · rw [if_pos h2, if_pos (by omega), if_pos (by rw [bitsOf_length]; omega)]
    · rw [if_neg h2, if_neg (by omega), bitsOf_getElem?, ← h1, hx]; rfl
  · rw [if_neg h1, if_neg (by omega), bitsOf_getElem?]

theorem packLsb_eq (bs : List Bool) : ∀ (d : List Byte) (i : Nat), i + bs.length ≤ 8 * d.length →
    ∃ d', packLsb d i bs = .ok d' ∧ d'.length = d.length ∧
      bitsOf d' = (bitsOf d).take i ++ bs ++ (bitsOf d).drop (i + bs.length) := by
  induction bs with
  | nil => intro d i h; exact ⟨d, rfl, rfl, by simp⟩
  | cons b bs ih =>
    intro d i h
    rw [List.length_cons] at h
    have hlt : i / 8 < d.length := by omega
    unfold packLsb
    rw [rd_ok hlt, bind_ok]
    unfold wr
    rw [if_pos hlt, bind_ok]
    obtain ⟨d', h1, h2, h3⟩ := ih (d.set (i / 8) (setBit d[i / 8] (i % 8) b)) (i + 1) (by simp; omega)
    refine ⟨d', h1, by simpa using h2, ?_⟩
    rw [h3, bitsOf_set _ _ _ _ _ (Nat.mod_lt _ (by omega)) (List.getElem?_eq_getElem hlt),
      show 8 * (i / 8) + i % 8 = i from by omega]
    have hl : i < (bitsOf d).length := by rw [bitsOf_length]; omega
    have ht : ((bitsOf d).take i).length = i := by rw [List.length_take]; omega
    rw [List.set_eq_take_append_cons_drop, if_pos hl, List.length_cons]
    have e1 : ((bitsOf d).take i ++ b :: (bitsOf d).drop (i + 1)).take (i + 1) = (bitsOf d).take i ++ [b] := by
      rw [List.take_append, ht, List.take_of_length_le (by omega)]; simp
    have e2 : ((bitsOf d).take i ++ b :: (bitsOf d).drop (i + 1)).drop (i + 1 + bs.length) = (bitsOf d).drop (i + (bs.length + 1)) := by
      rw [List.drop_append, ht, List.drop_of_length_le (by omega), List.nil_append,
        show i + 1 + bs.length - i = bs.length + 1 from by omega, List.drop_succ_cons, List.drop_drop]
      congr 1; omega
    rw [e1, e2]; simp

theorem bitsOf_inj {d d' : List Byte} (h : bitsOf d = bitsOf d') : d = d' := by
  have hl : d.length = d'.length := by
    have := congrArg List.length h
    rw [bitsOf_length, bitsOf_length] at this; omega
  apply List.ext_getElem hl
  intro k h1 h2
  apply BitVec.eq_of_getLsbD_eq
  intro j hj
  have := congrArg (fun l => l[8 * k + j]?) h
  simp only [bitsOf_getElem?] at this
  rw [show (8 * k + j) / 8 = k from by omega, show (8 * k + j) % 8 = j from by omega,
    List.getElem?_eq_getElem h1, List.getElem?_eq_getElem h2] at this
  simpa using this

/-! ### fields of a frame -/

theorem fld_length (b : List Bool) (o n : Nat) (h : o + n ≤ b.length) : (fld b o n).length = n := by
  unfold fld; simp; omega

theorem slice_fld (b : List Bool) (o n : Nat) (h : o + n ≤ b.length) : slice b o n = .ok (fld b o n) := slice_ok h

theorem fld_one (b : List Bool) (i : Nat) (h : i < b.length) : fld b i 1 = [b[i]] := by
  unfold fld
  rw [List.drop_eq_getElem_cons h, List.take_succ_cons]; simp

theorem rd_fld (b : List Bool) (i : Nat) (h : i < b.length) : ∃ x, rd b i = .ok x ∧ fld b i 1 = [x] :=
  ⟨b[i], rd_ok h, fld_one b i h⟩

theorem bitsOf_data0 : bitsOf data0 = zeros (155 * 8) := by
  unfold data0 bitsOf zeros
  rw [List.map_replicate, show lsb 8 (0 : Byte).toNat = List.replicate 8 false from rfl, List.flatten_replicate_replicate]

theorem packData_eq (b : List Bool) (o n : Nat) (h : o + n ≤ b.length) (hn : n ≤ 1240) :
    ∃ d, packData data0 b o n = .ok d ∧ Delivers d (fld b o n) := by
  have hl := fld_length b o n h
  obtain ⟨d', h1, h2, h3⟩ := packLsb_eq (fld b o n) data0 0 (by rw [hl]; simp [data0]; omega)
  refine ⟨d', ?_, by rw [h2]; rfl, ?_⟩
  · unfold packData
    rw [slice_fld b o n h, bind_ok, h1]
  · rw [h3, bitsOf_data0, hl]
    unfold zeros
    rw [List.drop_replicate, List.take_zero, List.nil_append, Nat.zero_add]

theorem Delivers.inj {d d' : List Byte} {l : List Bool} (h : Delivers d l) (h' : Delivers d' l) : d = d' :=
  bitsOf_inj (h.2.trans h'.2.symm)

theorem allOnes_eq (b : List Bool) (is : List Nat) (h : ∀ i ∈ is, i < b.length) :
    allOnes b is = .ok (decide (∀ i ∈ is, fld b i 1 = [true])) := by
  induction is with
  | nil => simp [allOnes]
  | cons i is ih =>
    have hi := h i (by simp)
    unfold allOnes
    rw [rd_ok hi, bind_ok, ih (fun j hj => h j (by simp [hj]))]
    have := fld_one b i hi
    cases hb : b[i] with
    | true => rw [hb] at this; simp [this]
    | false => rw [hb] at this; simp [this]

end Verif.Ericsson
