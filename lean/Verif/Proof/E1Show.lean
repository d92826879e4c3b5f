import Verif.Spec.E1Show
import Verif.Spec.E1Vty
/-!
# Proofs for C167: texts
-/
namespace Verif.Vty
open Verif.E1 (TsType)

theorem txt_append (s t : String) : txt (s ++ t) = txt s ++ txt t := by simp [txt, String.toList_append]

theorem digitChar_toNat {n : Nat} (h : n < 10) : BitVec.ofNat 8 n.digitChar.toNat = BitVec.ofNat 8 (48 + n) := by
  have : ∀ m : Fin 10, BitVec.ofNat 8 m.val.digitChar.toNat = BitVec.ofNat 8 (48 + m.val) := by decide
  exact this ⟨n, h⟩

theorem decAux_eq : ∀ (k n : Nat), n < k → decAux k n = (Nat.toDigits 10 n).map (fun c => BitVec.ofNat 8 c.toNat) := by
  intro k
  induction k with
  | zero => intro n h; omega
  | succ k ih =>
    intro n h
    unfold decAux
    by_cases h10 : n < 10
    · rw [if_pos h10, Nat.toDigits_of_lt_base h10]; simp [digitChar_toNat h10]
    · rw [if_neg h10, Nat.toDigits_of_base_le (by omega) (by omega), ih (n / 10) (by omega)]
      simp [digitChar_toNat (Nat.mod_lt n (by omega : 0 < 10))]

theorem dec_eq (n : Nat) : dec n = txt (toString n) := by
  rw [dec, decAux_eq _ _ (Nat.lt_succ_self n), txt, Nat.toString_eq_repr, Nat.repr_eq_ofList_toDigits, String.toList_ofList]

/-- reading a number -/
def val (t : Text) : Nat := t.foldl (fun a d => 10 * a + (d.toNat - 48)) 0

theorem val_snoc (t : Text) (d : Byte) : val (t ++ [d]) = 10 * val t + (d.toNat - 48) := by simp [val, List.foldl_append]

theorem dig_toNat {n : Nat} (h : n < 10) : (BitVec.ofNat 8 (48 + n)).toNat = 48 + n := by
  rw [BitVec.toNat_ofNat]; omega

theorem val_decAux : ∀ (k n : Nat), n < k → val (decAux k n) = n := by
  intro k
  induction k with
  | zero => intro n h; omega
  | succ k ih =>
    intro n h
    unfold decAux
    by_cases h10 : n < 10
    · rw [if_pos h10]; simp only [val, List.foldl_cons, List.foldl_nil, dig_toNat h10]; omega
    · rw [if_neg h10, val_snoc, ih (n / 10) (by omega), dig_toNat (Nat.mod_lt n (by omega : 0 < 10))]; omega

theorem val_dec (n : Nat) : val (dec n) = n := val_decAux _ _ (Nat.lt_succ_self n)

theorem dec_inj {a b : Nat} (h : dec a = dec b) : a = b := by rw [← val_dec a, ← val_dec b, h]

def IsDig (b : Byte) : Prop := 48 ≤ b.toNat ∧ b.toNat ≤ 57

theorem decAux_dig : ∀ (k n : Nat), ∀ b ∈ decAux k n, IsDig b := by
  intro k
  induction k with
  | zero => intro n b hb; simp [decAux] at hb
  | succ k ih =>
    intro n b hb
    unfold decAux at hb
    by_cases h10 : n < 10
    · rw [if_pos h10] at hb; simp only [List.mem_singleton] at hb; subst hb; rw [IsDig, dig_toNat h10]; omega
    · rw [if_neg h10] at hb
      rcases List.mem_append.1 hb with hb | hb
      · exact ih _ b hb
      · simp only [List.mem_singleton] at hb; subst hb; rw [IsDig, dig_toNat (Nat.mod_lt n (by omega : 0 < 10))]; omega

theorem dec_dig (n : Nat) : ∀ b ∈ dec n, IsDig b := decAux_dig _ _

theorem dec_ne_nil (n : Nat) : dec n ≠ [] := by
  unfold dec decAux
  split <;> simp

/-- digits end where the first other octet is -/
theorem dig_split : ∀ {a b : Text} {c d : Byte} {s t : Text}, (∀ x ∈ a, IsDig x) → (∀ x ∈ b, IsDig x) → ¬ IsDig c → ¬ IsDig d →
    a ++ c :: s = b ++ d :: t → a = b ∧ c :: s = d :: t := by
  intro a
  induction a with
  | nil =>
    intro b c d s t _ hb hc hd h
    cases b with
    | nil => exact ⟨rfl, h⟩
    | cons y b =>
      rw [List.nil_append, List.cons_append] at h
      have := (List.cons.inj h).1
      subst this
      exact absurd (hb c (by simp)) hc
  | cons x a ih =>
    intro b c d s t ha hb hc hd h
    cases b with
    | nil =>
      rw [List.nil_append, List.cons_append] at h
      have := (List.cons.inj h).1
      subst this
      exact absurd (ha x (by simp)) hd
    | cons y b =>
      rw [List.cons_append, List.cons_append] at h
      obtain ⟨h1, h2⟩ := List.cons.inj h
      obtain ⟨h3, h4⟩ := ih (fun z hz => ha z (by simp [hz])) (fun z hz => hb z (by simp [hz])) hc hd h2
      exact ⟨by rw [h1, h3], h4⟩

end Verif.Vty
