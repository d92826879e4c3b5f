import Verif.Proof.EricssonCrc
import Verif.Props.Ericsson64Bugs
/-! # Ericsson GPRS TRAU frames: damaged frames (C38), safety (C76) -/
namespace Verif.Ericsson
open Verif Spec
open Verif.RaaPrime (bind_ok bind_err)
set_option maxRecDepth 10000

/-! ### damaged frames -/

theorem fld_flip (b e : List Bool) (o n : Nat) : fld (flip b e) o n = flip (fld b o n) (fld e o n) := by
  unfold fld flip
  rw [List.drop_zipWith, List.take_zipWith]

theorem flip_flip : ∀ (a x : List Bool), a.length = x.length → flip a (flip a x) = x
  | [], [], _ => rfl
  | p :: a, q :: x, h => by
    show (p != (p != q)) :: flip a (flip a x) = q :: x
    rw [flip_flip a x (by simpa using h)]
    cases p <;> cases q <;> rfl

theorem flip_ne {a x : List Bool} (h : a.length = x.length) (hx : x ≠ zeros x.length) : flip a x ≠ a := by
  intro e
  apply hx
  have := flip_flip a x h
  rw [e] at this
  rw [← this]
  have : ∀ l : List Bool, flip l l = zeros l.length := by
    intro l
    induction l with
    | nil => rfl
    | cons y l ih =>
      show (y != y) :: flip l l = false :: zeros l.length
      rw [ih]; cases y <;> rfl
  rw [this]; simp [zeros]

/-- a field followed by its parity bit has an odd number of ones -/
theorem parity_iff {b : List Bool} {o n : Nat} (h : o + n < b.length) : fld b (o + n) 1 = [odd (fld b o n)] ↔ odd (fld b o (n + 1)) = false := by
  have e : fld b o (n + 1) = fld b o n ++ fld b (o + n) 1 := by
    unfold fld
    rw [← List.drop_drop, ← List.take_add]
  obtain ⟨x, _, hx⟩ := rd_fld b (o + n) h
  rw [e, hx, singleton_inj]
  have : ∀ l : List Bool, odd (l ++ [x]) = (odd l != x) := by
    intro l
    induction l with
    | nil => cases x <;> rfl
    | cons y l ih => rw [List.cons_append, odd_cons, odd_cons, ih]; cases y <;> cases odd l <;> cases x <;> rfl
  rw [this]
  cases x <;> cases odd (fld b o n) <;> simp

/-- an odd number of errors in a field with odd parity -/
theorem parity_broken {b e : List Bool} {o n : Nat} (hl : e.length = b.length) (h : odd (fld b o n) = false)
    (he : (fld e o n).count true % 2 = 1) : odd (fld (flip b e) o n) = true := by
  rw [fld_flip, odd_flip _ _ (by unfold fld; simp [hl]), h]
  unfold odd
  rw [he]
  rfl

theorem count_fld_le (e : List Bool) (o n m : Nat) (h : n ≤ m) : (fld e o n).count true ≤ (fld e o m).count true := by
  unfold fld
  rw [show (e.drop o).take n = ((e.drop o).take m).take n from by rw [List.take_take, Nat.min_eq_left h]]
  exact List.Sublist.count_le _ (List.take_sublist _ _)

/-- another frame type is at least `d` bit errors away -/
theorem type_far {x : List Bool} (hx : x.length = 5) (s t d : Nat) (hd : (flip (lsb 5 s) (lsb 5 t)).count true = d) (h : x.count true < d) :
    flip (lsb 5 s) x ≠ lsb 5 t := by
  intro e
  have := flip_flip (lsb 5 s) x (by rw [lsb_length, hx])
  rw [e] at this
  rw [this] at hd
  omega

/-- refused, and the structure is zeroed -/
def Rejected16 (b : List Bool) : Prop := decode16 b = .ok (-EINVAL, .zero)

theorem rejected16 {b : List Bool} (hb : b.length = 320) (h1 : ∀ i, ¬ IsCcuSync16 b i) (h2 : ∀ i, ¬ IsCcuData16 b i) : Rejected16 b := by
  rcases decode16_cases b hb with ⟨i, _, h⟩ | ⟨i, _, h⟩ | ⟨h, _, _⟩
  · exact absurd h (h1 i)
  · exact absurd h (h2 i)
  · exact h

theorem accepted16 {b : List Bool} (hb : b.length = 320) {f : DecFrame} (h : decode16 b = .ok (0, f)) :
    (∃ i, f = .sync i ∧ IsCcuSync16 b i) ∨ (∃ i, f = .data i ∧ IsCcuData16 b i) := by
  rcases decode16_cases b hb with ⟨i, e, k⟩ | ⟨i, e, k⟩ | ⟨e, _, _⟩ <;> rw [e] at h <;> cases h
  · exact .inl ⟨i, rfl, k⟩
  · exact .inr ⟨i, rfl, k⟩

/-- **C38 (a)**, 16k: a frame with any error in the 17 synchronisation bits is refused, whatever else is damaged. -/
theorem C38_sync16 (b e : List Bool) (hb : b.length = 320) (he : e.length = 320) (f : DecFrame) (h : decode16 b = .ok (0, f))
    (hs : fld e 0 17 ≠ zeros 17) : Rejected16 (flip b e) := by
  have hb' : (flip b e).length = 320 := by rw [flip_length (by omega), he]
  have h17 : fld b 0 17 = zeros 16 ++ [true] := by
    rcases accepted16 hb h with ⟨i, _, k⟩ | ⟨i, _, k⟩
    · exact sync17' hb k
    · exact k.sync
  have hne : fld (flip b e) 0 17 ≠ zeros 16 ++ [true] := by
    rw [fld_flip, ← h17]
    have l := fld_length e 0 17 (by omega)
    have l' := fld_length b 0 17 (by omega)
    exact flip_ne (by omega) (by rwa [l])
  exact rejected16 hb' (fun i k => hne (sync17' hb' k)) (fun i k => hne k.sync)

/-- **C38 (b)**, 16k: one or three errors in the control bits C1..C8 and PC of a sync frame, or C1..C7 and PC of a data frame -/
theorem C38_control16 (b e : List Bool) (hb : b.length = 320) (he : e.length = 320) :
    (∀ i, IsCcuSync16 b i → (fld e 17 9).count true = 1 ∨ (fld e 17 9).count true = 3 → Rejected16 (flip b e)) ∧
    (∀ i, IsCcuData16 b i → (fld e 17 8).count true = 1 ∨ (fld e 17 8).count true = 3 → Rejected16 (flip b e)) := by
  have hb' : (flip b e).length = 320 := by rw [flip_length (by omega), he]
  have l5 := fld_length e 17 5 (by omega)
  constructor
  · intro i h hc
    have hp := parity_broken (o := 17) (n := 9) (e := e) (b := b) (by omega) ((parity_iff (o := 17) (n := 8) (by omega)).1 h.pc) (by omega)
    have h5 := count_fld_le e 17 5 9 (by omega)
    refine rejected16 hb' (fun j k => ?_) (fun j k => ?_)
    · have := (parity_iff (o := 17) (n := 8) (by omega)).1 k.pc
      rw [hp] at this; cases this
    · have := k.ft
      rw [fld_flip, h.ft] at this
      exact type_far l5 _ _ 4 (by decide) (by omega) this
  · intro i h hc
    have hp := parity_broken (o := 17) (n := 8) (e := e) (b := b) (by omega) ((parity_iff (o := 17) (n := 7) (by omega)).1 h.pc) (by omega)
    have h5 := count_fld_le e 17 5 8 (by omega)
    refine rejected16 hb' (fun j k => ?_) (fun j k => ?_)
    · have := k.ft
      rw [fld_flip, h.ft] at this
      exact type_far l5 _ _ 4 (by decide) (by omega) this
    · have := (parity_iff (o := 17) (n := 7) (by omega)).1 k.pc
      rw [hp] at this; cases this

theorem flip_zero (a x : List Bool) (h : a.length = x.length) (hx : x = zeros x.length) : flip a x = a := by
  induction a generalizing x with
  | nil => cases x <;> rfl
  | cons p a ih =>
    cases x with
    | nil => simp at h
    | cons q x =>
      simp only [zeros, List.length_cons, List.replicate_succ, List.cons.injEq] at hx
      show (p != q) :: flip a x = _
      rw [ih x (by simpa using h) hx.2, hx.1]
      cases p <;> rfl

/-- **C38 (c)**, 16k: an odd number of errors in the extended control bits (E1, PE of a sync frame, E1..E19, PE of a data frame), and none
in the frame type -/
theorem C38_extended16 (b e : List Bool) (hb : b.length = 320) (he : e.length = 320) (ht : fld e 17 5 = zeros 5) :
    (∀ i, IsCcuSync16 b i → (fld e 26 2).count true = 1 → Rejected16 (flip b e)) ∧
    (∀ i, IsCcuData16 b i → (fld e 25 20).count true % 2 = 1 → Rejected16 (flip b e)) := by
  have hb' : (flip b e).length = 320 := by rw [flip_length (by omega), he]
  have l5 := fld_length e 17 5 (by omega)
  have l5' := fld_length b 17 5 (by omega)
  have htype : fld (flip b e) 17 5 = fld b 17 5 := by
    rw [fld_flip, flip_zero _ _ (by omega) (by rw [l5, ht])]
  constructor
  · intro i h hc
    have hp := parity_broken (o := 26) (n := 2) (e := e) (b := b) (by omega) ((parity_iff (o := 26) (n := 1) (by omega)).1 h.pe) (by omega)
    refine rejected16 hb' (fun j k => ?_) (fun j k => ?_)
    · have := (parity_iff (o := 26) (n := 1) (by omega)).1 k.pe
      rw [hp] at this; cases this
    · have := k.ft
      rw [htype, h.ft] at this
      exact absurd this (by decide)
  · intro i h hc
    have hp := parity_broken (o := 25) (n := 20) (e := e) (b := b) (by omega) ((parity_iff (o := 25) (n := 19) (by omega)).1 h.pe) (by omega)
    refine rejected16 hb' (fun j k => ?_) (fun j k => ?_)
    · have := k.ft
      rw [htype, h.ft] at this
      exact absurd this (by decide)
    · have := (parity_iff (o := 25) (n := 19) (by omega)).1 k.pe
      rw [hp] at this; cases this

/-- **C38 (d)**, 16k: a sync frame with an error in one of the T bits, and none in the frame type -/
theorem C38_tbits16 (b e : List Bool) (hb : b.length = 320) (he : e.length = 320) (ht : fld e 17 5 = zeros 5)
    (i : CcuSync) (h : IsCcuSync16 b i) (k : Nat) (hk : k < 19) (hek : fld e (16 + 16 * k) 1 = [true]) : Rejected16 (flip b e) := by
  have hb' : (flip b e).length = 320 := by rw [flip_length (by omega), he]
  have l5 := fld_length e 17 5 (by omega)
  have l5' := fld_length b 17 5 (by omega)
  have htype : fld (flip b e) 17 5 = fld b 17 5 := by
    rw [fld_flip, flip_zero _ _ (by omega) (by rw [l5, ht])]
  refine rejected16 hb' (fun j w => ?_) (fun j w => ?_)
  · have := w.t k hk
    rw [fld_flip, h.t k hk, hek] at this
    cases this
  · have := w.ft
    rw [htype, h.ft] at this
    exact absurd this (by decide)

/-- errors which the CRC of CS-1 is known to detect: a burst (all errors within 16 consecutive bits), or an odd number -/
def Detectable (x : List Bool) : Prop :=
  (∃ a r, x = zeros a ++ r ++ zeros (184 - a) ∧ a ≤ 184 ∧ r.length = 16 ∧ r ≠ zeros 16) ∨ x.count true % 2 = 1

theorem crc_detects (d c x : List Bool) (hd : d.length = 184) (hc : c.length = 16) (hx : x.length = 200) (hok : c = crc d) (h : Detectable x) :
    flip c (x.drop 184) ≠ crc (flip d (x.take 184)) := by
  intro hbad
  have hdl : (flip d (x.take 184)).length = 184 := by rw [flip_length (by simp; omega)]; simp; omega
  have hcl : (flip c (x.drop 184)).length = 16 := by rw [flip_length (by simp; omega)]; simp; omega
  have v := (crc_valid d c hc).1 hok
  have v' := (crc_valid _ _ hcl).1 hbad
  have e : flip d (x.take 184) ++ flip c (x.drop 184) = flip (d ++ c) x := by
    have : flip (d ++ c) (x.take 184 ++ x.drop 184) = flip d (x.take 184) ++ flip c (x.drop 184) := by
      unfold flip
      rw [List.zipWith_append (by simp; omega)]
    rw [← this, List.take_append_drop]
  rw [hdl, e, longDiv_flip _ _ _ (by simp; omega)] at v'
  rw [hd] at v
  rw [v] at v'
  have hl : (longDiv 184 x).length = 16 := by rw [longDiv_length _ _ (by omega)]; omega
  have hz : longDiv 184 x = zeros 16 := by
    have := flip_flip (ones 16) (longDiv 184 x) (by rw [hl]; rfl)
    rw [v'] at this
    rw [← this]; rfl
  rcases h with ⟨a, r, hxa, ha, hr, hnz⟩ | hodd
  · rw [hxa] at hz
    exact hnz (burst_detected a 184 r hr ha hz)
  · have := longDiv_odd 184 x (by omega)
    rw [hz] at this
    unfold odd at this
    rw [hodd] at this
    exact absurd this (by decide)

/-- **C38 (e)**, 16k: the payload of a CS-1 frame with a burst of at most 16 bits, or any odd number of errors -/
theorem C38_crc16 (b e : List Bool) (hb : b.length = 320) (he : e.length = 320) (i : CcuData) (h : IsCcuData16 b i) (hcs : i.cs = .cs1)
    (hctl : fld e 17 28 = zeros 28) (hpay : Detectable (fld e 45 200)) : Rejected16 (flip b e) := by
  have hb' : (flip b e).length = 320 := by rw [flip_length (by omega), he]
  have hsub (o n : Nat) (h : 17 ≤ o ∧ o + n ≤ 45) : fld (flip b e) o n = fld b o n := by
    have : fld e o n = zeros n := by
      have := fld_fld e 17 28 (o - 17) n (by omega)
      rw [hctl, show 17 + (o - 17) = o from by omega] at this
      rw [← this]
      unfold fld zeros
      rw [List.drop_replicate, List.take_replicate]
      congr 1
      omega
    have l := fld_length e o n (by omega)
    have l' := fld_length b o n (by omega)
    rw [fld_flip, flip_zero _ _ (by omega) (by rw [l, this])]
  have htype := hsub 17 5 (by omega)
  refine rejected16 hb' (fun j k => ?_) (fun j k => ?_)
  · have := k.ft
    rw [htype, h.ft] at this
    exact absurd this (by decide)
  · have hcsj : j.cs = .cs1 := by
      obtain ⟨c, hc, hf⟩ := h.cs
      obtain ⟨c', hc', hf'⟩ := k.cs
      rw [hsub 26 3 (by omega), hf] at hf'
      rw [hcs] at hc
      cases hc
      cases hj : j.cs <;> rw [hj] at hc' <;> simp only [csUl16] at hc' <;> cases hc'
      all_goals first | rfl | exact absurd hf' (by decide)
    have := (k.cs1 hcsj).2.1
    rw [fld_flip, fld_flip] at this
    have l200 := fld_length e 45 200 (by omega)
    refine crc_detects (fld b 45 184) (fld b (45 + 184) 16) (fld e 45 200) (fld_length _ _ _ (by omega)) (fld_length _ _ _ (by omega)) l200
      (h.cs1 hcs).2.1 hpay ?_
    have e1 : (fld e 45 200).take 184 = fld e 45 184 := by unfold fld; rw [List.take_take]; rfl
    have e2 : (fld e 45 200).drop 184 = fld e (45 + 184) 16 := by unfold fld; rw [List.drop_take, List.drop_drop]
    rw [e1, e2]
    exact this

/-! ### 64k -/

/-- refused, and the structure is zeroed -/
def Rejected64 (g b : List Bool) : Prop := decode64 g b = .ok (-EINVAL, .zero)

theorem rejected64 {g b : List Bool} (hg : g.length = 1234) (hb : b.length = 1280) (h1 : ∀ i, ¬ IsCcuSync64 b i) (h2 : ∀ i, ¬ IsCcuData64 b i)
    (h3 : ∀ i, ¬ IsCcuMcs9 b i) : Rejected64 g b := by
  rcases decode64_cases g b hg hb with ⟨i, _, h⟩ | ⟨i, _, h⟩ | ⟨h, _, _⟩
  · exact absurd h (h1 i)
  · rcases h with ⟨j, h, _⟩ | ⟨j, h, _⟩
    · exact absurd h (h2 j)
    · exact absurd h (h3 j)
  · exact h

/-- **C38 (f)**, 64k: single errors in the control bits C1..C8, PC (sync), C1..C7, PC (data and MCS-9) -/
theorem C38_control64 (g b e : List Bool) (hg : g.length = 1234) (hb : b.length = 1280) (he : e.length = 1280) :
    (∀ i, IsCcuSync64 b i → (fld e 65 9).count true = 1 → Rejected64 g (flip b e)) ∧
    (∀ i, IsCcuData64 b i → (fld e 65 8).count true = 1 ∨ (fld e 65 8).count true = 3 → Rejected64 g (flip b e)) ∧
    (∀ i, IsCcuMcs9 b i → (fld e 65 8).count true = 1 → Rejected64 g (flip b e)) := by
  have hb' : (flip b e).length = 1280 := by rw [flip_length (by omega), he]
  have l5 := fld_length e 65 5 (by omega)
  refine ⟨?_, ?_, ?_⟩
  · intro i h hc
    have hp := parity_broken (o := 65) (n := 9) (e := e) (b := b) (by omega) ((parity_iff (o := 65) (n := 8) (by omega)).1 h.pc) (by omega)
    have h5 := count_fld_le e 65 5 9 (by omega)
    refine rejected64 hg hb' (fun j k => ?_) (fun j k => ?_) (fun j k => ?_)
    · have := (parity_iff (o := 65) (n := 8) (by omega)).1 k.pc
      rw [hp] at this; cases this
    · have := k.ft
      rw [fld_flip, h.ft] at this
      exact type_far l5 _ _ 4 (by decide) (by omega) this
    · have := k.ft
      rw [fld_flip, h.ft] at this
      exact type_far l5 _ _ 2 (by decide) (by omega) this
  · intro i h hc
    have hp := parity_broken (o := 65) (n := 8) (e := e) (b := b) (by omega) ((parity_iff (o := 65) (n := 7) (by omega)).1 h.pc) (by omega)
    have h5 := count_fld_le e 65 5 8 (by omega)
    refine rejected64 hg hb' (fun j k => ?_) (fun j k => ?_) (fun j k => ?_)
    · have := k.ft
      rw [fld_flip, h.ft] at this
      exact type_far l5 _ _ 4 (by decide) (by omega) this
    · have := (parity_iff (o := 65) (n := 7) (by omega)).1 k.pc
      rw [hp] at this; cases this
    · have := k.ft
      rw [fld_flip, h.ft] at this
      exact type_far l5 _ _ 4 (by decide) (by omega) this
  · intro i h hc
    have hp := parity_broken (o := 65) (n := 8) (e := e) (b := b) (by omega) ((parity_iff (o := 65) (n := 7) (by omega)).1 h.pc) (by omega)
    have h5 := count_fld_le e 65 5 8 (by omega)
    refine rejected64 hg hb' (fun j k => ?_) (fun j k => ?_) (fun j k => ?_)
    · have := k.ft
      rw [fld_flip, h.ft] at this
      exact type_far l5 _ _ 2 (by decide) (by omega) this
    · have := k.ft
      rw [fld_flip, h.ft] at this
      exact type_far l5 _ _ 4 (by decide) (by omega) this
    · have := (parity_iff (o := 65) (n := 7) (by omega)).1 k.pc
      rw [hp] at this; cases this

/-- **C38 (g)**, 64k: an odd number of errors in the extended control bits and none in the frame type -/
theorem C38_extended64 (g b e : List Bool) (hg : g.length = 1234) (hb : b.length = 1280) (he : e.length = 1280) (ht : fld e 65 5 = zeros 5) :
    (∀ i, IsCcuSync64 b i → (fld e 74 2).count true = 1 → Rejected64 g (flip b e)) ∧
    (∀ i, IsCcuData64 b i → (fld e 73 58).count true % 2 = 1 → Rejected64 g (flip b e)) ∧
    (∀ i, IsCcuMcs9 b i → (fld e 73 24).count true % 2 = 1 → Rejected64 g (flip b e)) := by
  have hb' : (flip b e).length = 1280 := by rw [flip_length (by omega), he]
  have l5 := fld_length e 65 5 (by omega)
  have l5' := fld_length b 65 5 (by omega)
  have htype : fld (flip b e) 65 5 = fld b 65 5 := by
    rw [fld_flip, flip_zero _ _ (by omega) (by rw [l5, ht])]
  refine ⟨?_, ?_, ?_⟩
  · intro i h hc
    have hp := parity_broken (o := 74) (n := 2) (e := e) (b := b) (by omega) ((parity_iff (o := 74) (n := 1) (by omega)).1 h.pe) (by omega)
    refine rejected64 hg hb' (fun j k => ?_) (fun j k => ?_) (fun j k => ?_)
    · have := (parity_iff (o := 74) (n := 1) (by omega)).1 k.pe
      rw [hp] at this; cases this
    · have := k.ft
      rw [htype, h.ft] at this
      exact absurd this (by decide)
    · have := k.ft
      rw [htype, h.ft] at this
      exact absurd this (by decide)
  · intro i h hc
    have hp := parity_broken (o := 73) (n := 58) (e := e) (b := b) (by omega) ((parity_iff (o := 73) (n := 57) (by omega)).1 h.pe) (by omega)
    refine rejected64 hg hb' (fun j k => ?_) (fun j k => ?_) (fun j k => ?_)
    · have := k.ft
      rw [htype, h.ft] at this
      exact absurd this (by decide)
    · have := (parity_iff (o := 73) (n := 57) (by omega)).1 k.pe
      rw [hp] at this; cases this
    · have := k.ft
      rw [htype, h.ft] at this
      exact absurd this (by decide)
  · intro i h hc
    have hp := parity_broken (o := 73) (n := 24) (e := e) (b := b) (by omega) ((parity_iff (o := 73) (n := 23) (by omega)).1 h.pe) (by omega)
    refine rejected64 hg hb' (fun j k => ?_) (fun j k => ?_) (fun j k => ?_)
    · have := k.ft
      rw [htype, h.ft] at this
      exact absurd this (by decide)
    · have := k.ft
      rw [htype, h.ft] at this
      exact absurd this (by decide)
    · have := (parity_iff (o := 73) (n := 23) (by omega)).1 k.pe
      rw [hp] at this; cases this

/-- **C38 (h)**, 64k: any error in the synchronisation bits (65 of them; 17 in an MCS-9 frame), with the frame type intact -/
theorem C38_sync64 (g b e : List Bool) (hg : g.length = 1234) (hb : b.length = 1280) (he : e.length = 1280) (ht : fld e 65 5 = zeros 5) :
    (∀ i, IsCcuSync64 b i → fld e 0 65 ≠ zeros 65 → Rejected64 g (flip b e)) ∧
    (∀ i, IsCcuData64 b i → fld e 0 65 ≠ zeros 65 → Rejected64 g (flip b e)) ∧
    (∀ i, IsCcuMcs9 b i → fld e 0 17 ≠ zeros 17 → Rejected64 g (flip b e)) := by
  have hb' : (flip b e).length = 1280 := by rw [flip_length (by omega), he]
  have l5 := fld_length e 65 5 (by omega)
  have l5' := fld_length b 65 5 (by omega)
  have htype : fld (flip b e) 65 5 = fld b 65 5 := by
    rw [fld_flip, flip_zero _ _ (by omega) (by rw [l5, ht])]
  have hne (n : Nat) (hn : n ≤ 65) (h : fld e 0 n ≠ zeros n) : fld (flip b e) 0 n ≠ fld b 0 n := by
    have l := fld_length e 0 n (by omega)
    have l' := fld_length b 0 n (by omega)
    rw [fld_flip]
    exact flip_ne (by omega) (by rwa [l])
  refine ⟨?_, ?_, ?_⟩
  · intro i h hs
    refine rejected64 hg hb' (fun j k => ?_) (fun j k => ?_) (fun j k => ?_)
    · exact hne 65 (by omega) hs ((sync65' hb' k).trans (sync65' hb h).symm)
    · have := k.ft
      rw [htype, h.ft] at this
      exact absurd this (by decide)
    · have := k.ft
      rw [htype, h.ft] at this
      exact absurd this (by decide)
  · intro i h hs
    refine rejected64 hg hb' (fun j k => ?_) (fun j k => ?_) (fun j k => ?_)
    · have := k.ft
      rw [htype, h.ft] at this
      exact absurd this (by decide)
    · exact hne 65 (by omega) hs (k.sync.trans h.sync.symm)
    · have := k.ft
      rw [htype, h.ft] at this
      exact absurd this (by decide)
  · intro i h hs
    refine rejected64 hg hb' (fun j k => ?_) (fun j k => ?_) (fun j k => ?_)
    · have := k.ft
      rw [htype, h.ft] at this
      exact absurd this (by decide)
    · have := k.ft
      rw [htype, h.ft] at this
      exact absurd this (by decide)
    · exact hne 17 (by omega) hs (k.sync.trans h.sync.symm)

/-- **C38 (i)**, 64k: the payload of a CS-1 frame with a burst of at most 16 bits, or any odd number of errors -/
theorem C38_crc64 (g b e : List Bool) (hg : g.length = 1234) (hb : b.length = 1280) (he : e.length = 1280) (i : CcuData) (h : IsCcuData64 b i)
    (hcs : i.cs = .cs1) (hctl : fld e 65 66 = zeros 66) (hpay : Detectable (fld e 134 200)) : Rejected64 g (flip b e) := by
  have hb' : (flip b e).length = 1280 := by rw [flip_length (by omega), he]
  have hsub (o n : Nat) (h : 65 ≤ o ∧ o + n ≤ 131) : fld (flip b e) o n = fld b o n := by
    have : fld e o n = zeros n := by
      have := fld_fld e 65 66 (o - 65) n (by omega)
      rw [hctl, show 65 + (o - 65) = o from by omega] at this
      rw [← this]
      unfold fld zeros
      rw [List.drop_replicate, List.take_replicate]
      congr 1
      omega
    have l := fld_length e o n (by omega)
    have l' := fld_length b o n (by omega)
    rw [fld_flip, flip_zero _ _ (by omega) (by rw [l, this])]
  have htype := hsub 65 5 (by omega)
  refine rejected64 hg hb' (fun j k => ?_) (fun j k => ?_) (fun j k => ?_)
  · have := k.ft
    rw [htype, h.ft] at this
    exact absurd this (by decide)
  · have hcsj : j.cs = .cs1 := by
      have hf := h.cs
      have hf' := k.cs
      rw [hsub 74 3 (by omega), hf, hcs] at hf'
      cases hj : j.cs <;> rw [hj] at hf'
      all_goals first | rfl | exact absurd hf' (by decide)
    have := (k.cs1 hcsj).2.1
    rw [fld_flip, fld_flip] at this
    have l200 := fld_length e 134 200 (by omega)
    refine crc_detects (fld b 134 184) (fld b (134 + 184) 16) (fld e 134 200) (fld_length _ _ _ (by omega)) (fld_length _ _ _ (by omega)) l200
      (h.cs1 hcs).2.1 hpay ?_
    have e1 : (fld e 134 200).take 184 = fld e 134 184 := by unfold fld; rw [List.take_take]; rfl
    have e2 : (fld e 134 200).drop 184 = fld e (134 + 184) 16 := by unfold fld; rw [List.drop_take, List.drop_drop]
    rw [e1, e2]
    exact this
  · have := k.ft
    rw [htype, h.ft] at this
    exact absurd this (by decide)

/-! ### safety and return values -/

/-- **C76**, decoders: every frame is either refused with -EINVAL and a zeroed structure, or accepted with 0. -/
theorem C76_decode (g b c : List Bool) (hg : g.length = 1234) (hb : b.length = 320) (hc : c.length = 1280) :
    (decode16 b = .ok (-EINVAL, .zero) ∨ ∃ f, f ≠ .zero ∧ decode16 b = .ok (0, f)) ∧
    (decode64 g c = .ok (-EINVAL, .zero) ∨ ∃ f, f ≠ .zero ∧ decode64 g c = .ok (0, f)) := by
  constructor
  · rcases decode16_cases b hb with ⟨i, h, _⟩ | ⟨i, h, _⟩ | ⟨h, _⟩
    · refine .inr ⟨_, ?_, h⟩; simp
    · refine .inr ⟨_, ?_, h⟩; simp
    · exact .inl h
  · rcases decode64_cases g c hg hc with ⟨i, h, _⟩ | ⟨i, h, _⟩ | ⟨h, _⟩
    · refine .inr ⟨_, ?_, h⟩; simp
    · refine .inr ⟨_, ?_, h⟩; simp
    · exact .inl h

/-- what an encoder is given: any structure (the array of data has 155 elements) -/
def EncFrame.wf : EncFrame → Prop
  | .data i => i.data.length = 155
  | _ => True

theorem pcuData16_length (i : PcuData) (hd : i.data.length = 155) (e : List Bool) (he : csDl16 i.cs = some e) : (pcuData16 i e).length = 324 := by
  have hbl := bitsOf_length i.data
  have hm := modeDl16_length i.mode
  have hcl : (crc ((bitsOf i.data).take 184)).length = 16 := by rw [← crc16_eq, crc16_length]
  unfold pcuData16 payload16 withParity
  cases hc : i.cs <;> rw [hc] at he <;> simp only [csDl16] at he <;> cases he <;>
    simp only [List.length_append, List.length_take, hcl, zeros, ones, List.length_replicate, ctl_length, msb_length, hm, List.length_cons, List.length_nil] <;> omega

/-- **C76**, 16k encoder: whatever it is given, it writes inside the 324 bits of the buffer and returns the number of bits to
transmit (at most the size of the buffer), or -EINVAL. -/
theorem C76_encode16 (b : List Bool) (hb : b.length = 324) (f : EncFrame) (hf : f.wf) :
    ∃ rc out, encode16 b f = .ok (rc, out) ∧ out.length = 324 ∧ (rc = -EINVAL ∨ rc = 316 ∨ rc = 320 ∨ rc = 324) := by
  have ht (tav : Nat) : timing16 tav = -EINVAL ∨ timing16 tav = 316 ∨ timing16 tav = 320 ∨ timing16 tav = 324 := by
    unfold timing16; repeat' split
    all_goals simp
  cases f with
  | none => rw [start16 b hb]; exact ⟨_, _, rfl, rfl, .inl rfl⟩
  | sync i => exact ⟨_, _, encode16_sync b hb i, by show _ = _; kernel_rfl, ht _⟩
  | data i =>
    cases he : csDl16 i.cs with
    | none =>
      obtain ⟨b', hl, h⟩ := C36_encode_refused b hb i he
      exact ⟨_, _, h, hl, .inl rfl⟩
    | some e => exact ⟨_, _, encode16_data b hb i hf e he, pcuData16_length i hf e he, ht _⟩

theorem misplaced_length (F : List Bool) (err : Bool) (h : F.length = 1296) : (misplaced F err).length = 1296 := by
  unfold misplaced; simp; omega

theorem pcuFrame64_length (i : PcuData) (hd : i.data.length = 155) (F : List Bool) (hF : pcuFrame64 i = some F) : F.length = 1296 := by
  have hbl := bitsOf_length i.data
  have hA (c : Nat) (p : List Bool) (hp : p.length ≤ 1164) : (pcuData64 i c p).length = 1296 := by
    unfold pcuData64 ext64 withParity
    simp only [List.length_append, zeros, ones, List.length_replicate, ctl_length, msb_length, List.length_cons, List.length_nil]
    omega
  have hB : (pcuData64Mcs9 i).length = 1296 := by
    unfold pcuData64Mcs9 withParity
    simp only [List.length_append, zeros, ones, List.length_replicate, ctl_length, msb_length, List.length_cons, List.length_nil,
      List.length_take, List.length_drop]
    omega
  have hcl : (crc ((bitsOf i.data).take 184)).length = 16 := by rw [← crc16_eq, crc16_length]
  have hsz : ∀ hdr m, hdr ≤ 46 → mcsBits hdr m ≤ 1240 := by
    intro hdr m h
    unfold mcsBits rlcOctets
    split <;> simp <;> omega
  unfold pcuFrame64 at hF
  cases hcs : i.cs <;> rw [hcs] at hF <;> dsimp only at hF
  · cases hF
  · rw [← Option.some.inj hF]; exact hA _ _ (by rw [List.length_append, hcl, List.length_take]; omega)
  · rw [← Option.some.inj hF]; exact hA _ _ (by rw [List.length_take]; simp only [gprsBits]; omega)
  · rw [← Option.some.inj hF]; exact hA _ _ (by rw [List.length_take]; simp only [gprsBits]; omega)
  · rw [← Option.some.inj hF]; exact hA _ _ (by rw [List.length_take]; simp only [gprsBits]; omega)
  all_goals
    have hlt := cpsDl_lt i.cs (bitsOf i.data)
    have hin : i.cs ∈ [Cs.hdr1, .hdr2, .hdr3] := by rw [hcs]; simp
    rw [← hcs] at hF
    cases hm : mcsOf i.cs (num (cpsDl i.cs (bitsOf i.data))) with
    | none => rw [hm] at hF; cases hF
    | some m =>
      have hbig := (mcs_bits_dl i.cs hin _ (List.mem_range.2 hlt) m (by rw [hm]; simp)).2
      have hle : ∀ m, mcsBitsDl m ≤ 1132 := by intro m; unfold mcsBitsDl; split <;> omega
      have h9 := (mcs_bits_dl i.cs hin _ (List.mem_range.2 hlt) m (by rw [hm]; simp)).1
      rw [hm, hcs] at hF
      dsimp only [csDl64] at hF
      split at hF
      · rw [← Option.some.inj hF]; exact hB
      · rw [← Option.some.inj hF]
        rw [← hcs, ← hbig (by omega)]
        exact hA _ _ (by rw [List.length_take]; have := hle m; omega)

/-- **C76**, 64k encoder -/
theorem C76_encode64 (b : List Bool) (hb : b.length = 1296) (f : EncFrame) (hf : f.wf) :
    ∃ rc out, encode64 b f = .ok (rc, out) ∧ out.length = 1296 ∧ (rc = -EINVAL ∨ rc = 1264 ∨ rc = 1280 ∨ rc = 1296) := by
  have ht (tav : Nat) : timing64 tav = -EINVAL ∨ timing64 tav = 1264 ∨ timing64 tav = 1280 ∨ timing64 tav = 1296 := by
    unfold timing64; repeat' split
    all_goals simp
  cases f with
  | none => rw [start64 b hb]; exact ⟨_, _, rfl, rfl, .inl rfl⟩
  | sync i => exact ⟨_, _, encode64_sync' b hb i, by show _ = _; kernel_rfl, ht _⟩
  | data i =>
    cases he : pcuFrame64 i with
    | none =>
      obtain ⟨b', hl, h⟩ := C37_encode_refused b hb i hf he
      exact ⟨_, _, h, hl, .inl rfl⟩
    | some e => exact ⟨_, _, encode64_data b hb i hf e he, misplaced_length _ _ (pcuFrame64_length i hf e he), ht _⟩

/-! ### the statements are about something -/

/-- a data frame with the given property is delivered -/
def dataWith (p : CcuData → Bool) : M (Int × DecFrame) → Bool
  | .ok (0, .data i) => p i
  | _ => false

/-- a sync frame CCU → PCU, 16k -/
def exSync16 : List Bool :=
  zeros 16 ++ [true] ++ (lsb 5 0x15 ++ lsb 2 1 ++ [true]) ++ [odd (lsb 5 0x15 ++ lsb 2 1 ++ [true])] ++ [false, true] ++ ones 13 ++
  (msb 22 0x2ABCDE).take 7 ++ [true] ++ (msb 22 0x2ABCDE).drop 7 ++ ones 25 ++ (msb 22 0x112233).take 7 ++ [true] ++ (msb 22 0x112233).drop 7 ++
  ones 25 ++ (msb 22 0x334455).take 7 ++ [true] ++ (msb 22 0x334455).drop 7 ++ ones 160

example : exSync16.length = 320 ∧ IsCcuSync16 exSync16 ⟨1, false, true, 0x2ABCDE, 0x112233, 0x334455⟩ := by
  have hl : exSync16.length = 320 := by decide +kernel
  exact ⟨hl, (C36_decode_sync _ hl _).1 (by decide +kernel)⟩

example : Rejected16 (flip exSync16 (zeros 20 ++ [true] ++ zeros 299)) := by unfold Rejected16; decide +kernel

/-- a CS-1 frame CCU → PCU, 16k -/
def exPay : List Bool := (List.range 184).map fun i => i % 3 == 0
def exData16 : List Bool :=
  zeros 16 ++ [true] ++ withParity (lsb 5 0x1A ++ lsb 2 2) ++
  withParity ([true] ++ msb 3 0 ++ msb 3 5 ++ [true] ++ msb 6 33 ++ msb 3 7 ++ [true, true]) ++ exPay ++ crc exPay ++ ones 75

example : exData16.length = 320 ∧ ∃ i, IsCcuData16 exData16 i ∧ i.cs = .cs1 ∧ i.rxLev = 33 ∧ i.accDelDev = -2 ∧ i.qual = .gprs 5 true ∧
    i.data.take 3 = [0x49, 0x92, 0x24] := by
  have hl : exData16.length = 320 := by decide +kernel
  obtain ⟨i, hi, h⟩ : ∃ i, decode16 exData16 = .ok (0, .data i) ∧ i.cs = .cs1 ∧ i.rxLev = 33 ∧ i.accDelDev = -2 ∧ i.qual = .gprs 5 true ∧
    i.data.take 3 = [0x49, 0x92, 0x24] := by
    rcases decode16_cases _ hl with ⟨i, e, _⟩ | ⟨i, e, _⟩ | ⟨e, _, _⟩
    · have : dataWith (fun _ => true) (decode16 exData16) = true := by decide +kernel
      rw [e] at this; cases this
    · refine ⟨i, e, ?_⟩
      have : dataWith (fun i => decide (i.cs = .cs1 ∧ i.rxLev = 33 ∧ i.accDelDev = -2 ∧ i.qual = .gprs 5 true ∧ i.data.take 3 = [0x49, 0x92, 0x24]))
        (decode16 exData16) = true := by decide +kernel
      rw [e] at this
      exact of_decide_eq_true this
    · have : dataWith (fun _ => true) (decode16 exData16) = true := by decide +kernel
      rw [e] at this; cases this
  exact ⟨hl, i, (C36_decode_data _ hl _).1 hi, h⟩

/-- an error of three bits in the payload is `Detectable`, and so is a burst -/
example : Detectable ([true, false, true, true] ++ zeros 196) := .inr (by decide +kernel)
example : Detectable (zeros 100 ++ ([true, true] ++ zeros 14) ++ zeros 84) := .inl ⟨100, _, rfl, by decide, rfl, by decide⟩

/-- an MCS-9 frame CCU → PCU -/
def exMcs9 : List Bool :=
  zeros 16 ++ [true] ++ zeros 48 ++ withParity (lsb 5 0x04 ++ lsb 2 0) ++
  withParity ([true] ++ msb 6 20 ++ msb 3 6 ++ msb 7 77 ++ msb 3 4 ++ [false, false, false]) ++ ones 2 ++ zeros 1181

theorem exMcs9_ok : exMcs9.length = 1280 ∧ IsCcuMcs9 exMcs9
    ⟨0, false, .hdr1, 20, 0, .egprs 77 4 true true true, List.replicate 155 0, 155, []⟩ := by
  refine ⟨by decide +kernel, ⟨by decide +kernel, by decide +kernel, ⟨by decide, by decide +kernel⟩, by decide +kernel, by decide +kernel,
    ⟨by decide, by decide +kernel⟩, ⟨6, rfl, by decide +kernel⟩,
    ⟨77, 4, true, true, true, rfl, by decide, by decide +kernel, by decide, by decide +kernel, by decide +kernel, ?_, ?_⟩,
    by decide +kernel, ⟨rfl, rfl⟩, ⟨⟨by decide +kernel, by decide +kernel⟩, rfl⟩⟩⟩
  · exact ⟨fun _ => ⟨rfl, by decide +kernel⟩, fun _ => rfl⟩
  · exact ⟨fun _ => ⟨rfl, by decide +kernel⟩, fun _ => rfl⟩

/-- the frame is not delivered as it was sent -/
example : decode64 (zeros 1234) exMcs9 ≠ .ok (0, .data ⟨0, false, .hdr1, 20, 0, .egprs 77 4 true true true, List.replicate 155 0, 155, []⟩) :=
  C37_decode_mcs9_violated _ _ (by decide +kernel) exMcs9_ok.1 _ exMcs9_ok.2

/-- an EGPRS frame (MCS-1, header type 3, CPS 11) CCU → PCU, with mean BEP 77 and CV BEP 4 -/
def exMcs1 : List Bool :=
  zeros 64 ++ [true] ++ withParity (lsb 5 0x1A ++ lsb 2 0) ++
  withParity ([true] ++ msb 3 7 ++ msb 6 20 ++ msb 3 6 ++ msb 7 77 ++ msb 3 4 ++ [false, false, false] ++ ones 31) ++ ones 3 ++
  (zeros 22 ++ lsb 4 11 ++ zeros 183) ++ ones 937

/-- mean BEP is delivered as 4, CV BEP as 0 -/
example : exMcs1.length = 1280 ∧ ∃ j, IsCcuData64 exMcs1 j ∧ j.qual = .egprs 77 4 true true true ∧ j.dataLen = 27 ∧
    decode64 (zeros 1234) exMcs1 = .ok (0, .data { j with qual := .egprs 4 0 true true true }) := by
  have hl : exMcs1.length = 1280 := by decide +kernel
  have hg : (zeros 1234).length = 1234 := by decide +kernel
  have hft : fld exMcs1 65 5 ≠ lsb 5 0x04 := by decide +kernel
  have hd : dataWith (fun i => decide (i.dataLen = 27 ∧ i.cs = .hdr3)) (decode64 (zeros 1234) exMcs1) = true := by decide +kernel
  have hq : IsEgprsQual exMcs1 86 (.egprs 77 4 true true true) :=
    ⟨77, 4, true, true, true, rfl, by decide, by decide +kernel, by decide, by decide +kernel, by decide +kernel,
      ⟨fun _ => ⟨rfl, by decide +kernel⟩, fun _ => rfl⟩, ⟨fun _ => ⟨rfl, by decide +kernel⟩, fun _ => rfl⟩⟩
  rcases decode64_cases _ _ hg hl with ⟨i, e, _⟩ | ⟨i, e, h⟩ | ⟨e, _, _⟩
  · rw [e] at hd; cases hd
  · rw [e] at hd
    have hd := of_decide_eq_true hd
    obtain ⟨j, hj, rfl⟩ := (C37_decode_data_partial _ _ hg hl hft i).1 e
    have hcs : j.cs = .hdr3 := hd.2
    obtain ⟨x, _, _, _, _, _, _, _, _, _, hx⟩ := egprs_ok exMcs1 86 (by rw [hl]; omega)
    have h1 := (hx j.qual).1 (hj.egprs (by rw [hcs]; decide))
    have h2 := (hx _).1 hq
    refine ⟨hl, j, hj, h1.trans h2.symm, hd.1, ?_⟩
    rw [e, h1.trans h2.symm]
    rfl
  · rw [e] at hd; cases hd

/-- a CS-1 frame PCU → CCU; a frame error is to be signalled -/
def exPcu : PcuData := ⟨0, true, .cs1, .nbGmsk, 3, 100, List.replicate 155 0x5a⟩

example : ∃ F, pcuFrame64 exPcu = some F ∧ ¬ (exPcu.tav = 0 ∧ exPcu.ulFrameErr = false) := ⟨_, rfl, by decide⟩
example : ∃ F, pcuFrame64 { exPcu with ulFrameErr := false, cs := .hdr1, data := List.replicate 155 0 } = some F ∧ F.length = 1296 :=
  ⟨_, rfl, by decide +kernel⟩
example : csDl16 exPcu.cs = some (msb 2 0) := rfl

end Verif.Ericsson
