import Verif.Props.Ericsson64
/-! # Ericsson GPRS TRAU frames, 64 kbit/s: the decoder, continued (C37) -/
namespace Verif.Ericsson
open Verif Spec
open Verif.RaaPrime (bind_ok bind_err)
set_option maxRecDepth 10000

/-- what lines 1656/1660 and 1878/1882 make of the bit error probabilities: the second assignment hits the wrong field -/
def bepBug : Qual → Qual
  | .egprs _ cv h d0 d1 => .egprs cv 0 h d0 d1
  | q => q

theorem egprs_ok (b : List Bool) (o : Nat) (h : o + 13 ≤ b.length) : ∃ x h' d0 d1,
    rd b (o + 10) = .ok h' ∧ rd b (o + 11) = .ok d0 ∧ rd b (o + 12) = .ok d1 ∧
    slice b o 7 = .ok (fld b o 7) ∧ slice b (o + 7) 3 = .ok (fld b (o + 7) 3) ∧
    x = Qual.egprs (msbVal (fld b o 7)) (msbVal (fld b (o + 7) 3)) (!h') (!h' && !d0) (!h' && !d1) ∧
    ∀ q, IsEgprsQual b o q ↔ q = x := by
  obtain ⟨h', r1, f1⟩ := rd_fld b (o + 10) (by omega)
  obtain ⟨d0, r2, f2⟩ := rd_fld b (o + 11) (by omega)
  obtain ⟨d1, r3, f3⟩ := rd_fld b (o + 12) (by omega)
  have l7 := fld_length b o 7 (by omega)
  have l3 := fld_length b (o + 7) 3 (by omega)
  refine ⟨_, h', d0, d1, r1, r2, r3, slice_fld _ _ _ (by omega), slice_fld _ _ _ (by omega), rfl, fun q => ⟨?_, ?_⟩⟩
  · rintro ⟨m, c, hh, x0, x1, rfl, hm, fm, hc, fc, fh, hx0, hx1⟩
    rw [f1, singleton_inj] at fh
    rw [f2, singleton_inj] at hx0
    rw [f3, singleton_inj] at hx1
    rw [(msbVal_iff l7).2 ⟨hm, fm⟩, (msbVal_iff l3).2 ⟨hc, fc⟩, fh]
    have e0 : x0 = (hh && !d0) := by cases hh <;> cases d0 <;> simp at hx0 <;> simp [hx0]
    have e1 : x1 = (hh && !d1) := by cases hh <;> cases d1 <;> simp at hx1 <;> simp [hx1]
    rw [e0, e1]; simp
  · rintro rfl
    refine ⟨_, _, _, _, _, rfl, ((msbVal_iff l7).1 rfl).1, ((msbVal_iff l7).1 rfl).2, ((msbVal_iff l3).1 rfl).1, ((msbVal_iff l3).1 rfl).2,
      by rw [f1]; simp, ?_, ?_⟩
    · rw [f2]; cases h' <;> cases d0 <;> simp
    · rw [f3]; cases h' <;> cases d1 <;> simp

theorem qual_ok (b : List Bool) (hb : b.length = 1280) (cs : Cs) : ∃ q, qual64 b cs = .ok (bepBug q) ∧ ∀ q',
    ((cs = .cs1 ∨ cs = .cs2 ∨ cs = .cs3 ∨ cs = .cs4 → ∃ s p, q' = .gprs s p ∧ s < 8 ∧ fld b 86 3 = msb 3 s ∧ fld b 89 1 = [p]) ∧
      (¬ (cs = .cs1 ∨ cs = .cs2 ∨ cs = .cs3 ∨ cs = .cs4) → IsEgprsQual b 86 q')) ↔ q' = q := by
  unfold qual64
  by_cases h : cs = .cs1 ∨ cs = .cs2 ∨ cs = .cs3 ∨ cs = .cs4
  · rw [if_pos h]
    obtain ⟨p, r1, f1⟩ := rd_fld b 89 (by omega)
    have l3 := fld_length b 86 3 (by omega)
    rw [slice_fld b 86 3 (by omega), bind_ok, r1, bind_ok]
    refine ⟨.gprs (msbVal (fld b 86 3)) p, rfl, fun q' => ⟨?_, ?_⟩⟩
    · rintro ⟨hx, _⟩
      obtain ⟨s, p', rfl, hs, fs, fp⟩ := hx h
      rw [f1, singleton_inj] at fp
      rw [(msbVal_iff l3).2 ⟨hs, fs⟩, fp]
    · rintro rfl
      exact ⟨fun _ => ⟨_, _, rfl, ((msbVal_iff l3).1 rfl).1, ((msbVal_iff l3).1 rfl).2, f1⟩, fun h' => absurd h h'⟩
  · rw [if_neg h]
    obtain ⟨x, h', d0, d1, r1, r2, r3, s1, s2, hx, hq⟩ := egprs_ok b 86 (by omega)
    rw [s1, s2, r1, r2, r3]
    simp only [bind_ok]
    refine ⟨x, by rw [hx]; rfl, fun q' => ⟨fun hh => (hq q').1 (hh.2 h), fun e => ⟨fun h' => absurd h' h, fun _ => (hq q').2 e⟩⟩⟩

theorem csOfE_iff (n : Nat) (hn : n < 8) (cs : Cs) : csUl64 cs = n ↔ cs = csOfE n := by
  match n, hn with
  | 0, _ | 1, _ | 2, _ | 3, _ | 4, _ | 5, _ | 6, _ | 7, _ => cases cs <;> simp [csUl64, csOfE]

theorem eadd_lt {dev : Int} {c : Nat} (h : eadd dev = some c) : c < 8 := by
  unfold eadd at h
  repeat' (split at h; · have := Option.some.inj h; omega)
  cases h

theorem decData64_ok (b : List Bool) (hb : b.length = 1280) (hs : fld b 0 65 = zeros 64 ++ [true]) (hft : fld b 65 5 = lsb 5 0x1A) :
    ∃ r, decData64 b = .ok r ∧ ∀ i, r = some i ↔ ∃ j, IsCcuData64 b j ∧ i = { j with qual := bepBug j.qual } := by
  obtain ⟨x72, r72, f72⟩ := rd_fld b 72 (by omega)
  obtain ⟨x73, r73, f73⟩ := rd_fld b 73 (by omega)
  obtain ⟨x130, r130, f130⟩ := rd_fld b 130 (by omega)
  have lt2 := fld_length b 70 2 (by omega)
  have l74 := fld_length b 74 3 (by omega)
  have l77 := fld_length b 77 6 (by omega)
  have l83 := fld_length b 83 3 (by omega)
  have n74 : msbVal (fld b 74 3) < 8 := by have := msbVal_lt (fld b 74 3); rwa [l74] at this
  have n83 : msbVal (fld b 83 3) < 8 := by have := msbVal_lt (fld b 83 3); rwa [l83] at this
  unfold decData64
  rw [slice_fld b 65 7 (by omega), slice_fld b 70 2 (by omega), slice_fld b 73 57 (by omega), slice_fld b 74 3 (by omega),
    slice_fld b 77 6 (by omega), slice_fld b 83 3 (by omega), r72, r73, r130]
  simp only [bind_ok, calcParity_eq]
  by_cases hpc : odd (fld b 65 7) = x72
  rotate_left
  · rw [if_pos hpc]
    refine ⟨none, rfl, fun i => ⟨(nomatch ·), ?_⟩⟩
    rintro ⟨j, h, _⟩
    have := h.pc
    rw [f72, singleton_inj] at this
    exact absurd this.symm hpc
  rw [if_neg (by simp [hpc])]
  by_cases hpe : odd (fld b 73 57) = x130
  rotate_left
  · rw [if_pos hpe]
    refine ⟨none, rfl, fun i => ⟨(nomatch ·), ?_⟩⟩
    rintro ⟨j, h, _⟩
    have := h.pe
    rw [f130, singleton_inj] at this
    exact absurd this.symm hpe
  rw [if_neg (by simp [hpe])]
  cases hdev : accDel (msbVal (fld b 83 3)) with
  | none =>
    refine ⟨none, rfl, fun i => ⟨(nomatch ·), ?_⟩⟩
    rintro ⟨j, h, _⟩
    obtain ⟨c, hc, hf⟩ := h.dev
    have hc8 := eadd_lt hc
    have e : msbVal (fld b 83 3) = c := (msbVal_iff l83).2 ⟨hc8, hf⟩
    have := (accDel_iff c j.accDelDev hc8).2 hc
    rw [e, this] at hdev
    cases hdev
  | some dev =>
    dsimp only
    have hcsx := csOfE_iff _ n74
    generalize csOfE (msbVal (fld b 74 3)) = cs at hcsx ⊢
    obtain ⟨q, hq, hqi⟩ := qual_ok b hb cs
    rw [hq, bind_ok]
    have common (j : CcuData) : IsCcuData64 b j ↔ (j.tav = lsbVal (fld b 70 2) ∧ j.dbe = !x73 ∧ j.cs = cs ∧ j.rxLev = msbVal (fld b 77 6) ∧
        j.accDelDev = dev ∧ j.qual = q ∧ Pay b j.cs j.data j.dataLen j.ab) := by
      rw [← pay_iff, ← hqi]
      constructor
      · intro h
        obtain ⟨e, he, hef⟩ := h.dev
        have e1 := h.e1
        rw [f73, singleton_inj] at e1
        have he8 := eadd_lt he
        have he' : msbVal (fld b 83 3) = e := (msbVal_iff l83).2 ⟨he8, hef⟩
        have hcs : j.cs = cs := by
          refine (hcsx j.cs).1 ((msbVal_iff l74).2 ⟨?_, h.cs⟩).symm
          cases j.cs <;> simp [csUl64]
        refine ⟨((lsbVal_iff lt2).2 h.tav).symm, by rw [e1]; simp, hcs, ((msbVal_iff l77).2 h.rxlev).symm, ?_, ⟨?_, ?_⟩,
          h.noab, h.cs1, h.cs2, h.cs3, h.cs4, h.mcs, h.ab⟩
        · have := (accDel_iff e _ he8).2 he
          rw [he', this] at hdev
          exact Option.some.inj hdev
        · intro hx; exact h.gprs (hcs ▸ hx)
        · intro hx; exact h.egprs (hcs ▸ hx)
      · rintro ⟨h1, h2, h3, h4, h5, ⟨h6, h7⟩, h8, h9, h10, h11, h12, h13, h14⟩
        refine ⟨hs, hft, (lsbVal_iff lt2).1 h1.symm, by rw [f72, hpc], by rw [f73, h2]; simp, ?_, (msbVal_iff l77).1 h4.symm,
          ⟨msbVal (fld b 83 3), by rw [h5]; exact (accDel_iff _ _ n83).1 hdev, ((msbVal_iff l83).1 rfl).2⟩, ?_, ?_,
          by rw [f130, hpe], h8, h9, h10, h11, h12, h13, h14⟩
        · have e := (hcsx j.cs).2 h3
          rw [e]
          exact ((msbVal_iff l74).1 rfl).2
        · intro hx; exact h6 (h3 ▸ hx)
        · intro hx; exact h7 (h3 ▸ hx)
    obtain ⟨r, hr, hx⟩ := pay_ok b hb cs (fun data len ab => ⟨lsbVal (fld b 70 2), !x73, cs, msbVal (fld b 77 6), dev, bepBug q, data, len, ab⟩)
    refine ⟨r, hr, fun i => ?_⟩
    simp only [common]
    rcases hx with ⟨rfl, hno⟩ | ⟨d, l, ab, rfl, hp⟩
    · refine ⟨(nomatch ·), ?_⟩
      rintro ⟨j, ⟨_, _, h3, _, _, _, h7⟩, _⟩
      exact absurd (h3 ▸ h7) (hno _ _ _)
    · constructor
      · intro e
        cases e
        exact ⟨⟨lsbVal (fld b 70 2), !x73, cs, msbVal (fld b 77 6), dev, q, d, l, ab⟩, ⟨rfl, rfl, rfl, rfl, rfl, rfl, hp⟩, rfl⟩
      · rintro ⟨j, ⟨h1, h2, h3, h4, h5, h6, h7⟩, rfl⟩
        rw [h3] at h7
        obtain ⟨e1, e2, e3⟩ := hp.unique h7
        cases j
        dsimp only at *
        rw [h1, h2, h3, h4, h5, h6, e1, e2, e3]

/-! ### MCS-9 -/

/-- what the decoder builds instead of the block: `D34`..`D48` are overwritten and 16 bits stay uninitialised (`g`) -/
def mcs9Got (g b : List Bool) : List Bool :=
  fld b 17 32 ++ zeros 6 ++ fld b 49 1 ++ zeros 6 ++ fld b 99 1173 ++ g.drop 1218

theorem mcs9Block_eq (g b : List Bool) (hg : g.length = 1234) (hb : b.length = 1280) : mcs9Block g b = .ok (mcs9Got g b) := by
  obtain ⟨f, rfl⟩ := exists_L' hg
  obtain ⟨h, rfl⟩ := exists_L' hb
  kernel_rfl

theorem decMcs9_ok (g b : List Bool) (hg : g.length = 1234) (hb : b.length = 1280) (hs : fld b 0 17 = zeros 16 ++ [true])
    (hft : fld b 65 5 = lsb 5 0x04) :
    ∃ r, decData64Mcs9 g b = .ok r ∧ ∀ i, r = some i ↔ ∃ j, IsCcuMcs9 b j ∧ Delivers i.data (mcs9Got g b) ∧
      i = { j with qual := bepBug j.qual, data := i.data, dataLen := 0 } := by
  obtain ⟨x72, r72, f72⟩ := rd_fld b 72 (by omega)
  obtain ⟨x73, r73, f73⟩ := rd_fld b 73 (by omega)
  obtain ⟨x96, r96, f96⟩ := rd_fld b 96 (by omega)
  have lt2 := fld_length b 70 2 (by omega)
  have l77 := fld_length b 74 6 (by omega)
  have l83 := fld_length b 80 3 (by omega)
  have n83 : msbVal (fld b 80 3) < 8 := by have := msbVal_lt (fld b 80 3); rwa [l83] at this
  obtain ⟨q, h', d0, d1, r1, r2, r3, s1, s2, hq, hqi⟩ := egprs_ok b 83 (by omega)
  unfold decData64Mcs9
  rw [slice_fld b 65 7 (by omega), slice_fld b 70 2 (by omega), slice_fld b 73 23 (by omega),
    slice_fld b 74 6 (by omega), slice_fld b 80 3 (by omega), r72, r73, r96]
  simp only [bind_ok, calcParity_eq]
  by_cases hpc : odd (fld b 65 7) = x72
  rotate_left
  · rw [if_pos hpc]
    refine ⟨none, rfl, fun i => ⟨(nomatch ·), ?_⟩⟩
    rintro ⟨j, h, _⟩
    have := h.pc
    rw [f72, singleton_inj] at this
    exact absurd this.symm hpc
  rw [if_neg (by simp [hpc])]
  by_cases hpe : odd (fld b 73 23) = x96
  rotate_left
  · rw [if_pos hpe]
    refine ⟨none, rfl, fun i => ⟨(nomatch ·), ?_⟩⟩
    rintro ⟨j, h, _⟩
    have := h.pe
    rw [f96, singleton_inj] at this
    exact absurd this.symm hpe
  rw [if_neg (by simp [hpe])]
  cases hdev : accDel (msbVal (fld b 80 3)) with
  | none =>
    refine ⟨none, rfl, fun i => ⟨(nomatch ·), ?_⟩⟩
    rintro ⟨j, h, _⟩
    obtain ⟨c, hc, hf⟩ := h.dev
    have hc8 := eadd_lt hc
    have e : msbVal (fld b 80 3) = c := (msbVal_iff l83).2 ⟨hc8, hf⟩
    have := (accDel_iff c j.accDelDev hc8).2 hc
    rw [e, this] at hdev
    cases hdev
  | some dev =>
    dsimp only
    have hkl : (mcs9Got g b).length = 1234 := by
      obtain ⟨f, rfl⟩ := exists_L' hg
      obtain ⟨h, rfl⟩ := exists_L' hb
      rfl
    obtain ⟨d, hd, hdel⟩ := packData_eq (mcs9Got g b) 0 1234 (by omega) (by omega)
    have hfull : fld (mcs9Got g b) 0 1234 = mcs9Got g b := by
      unfold fld; rw [List.drop_zero, List.take_of_length_le (by omega)]
    rw [hfull] at hdel
    rw [s1, s2, r1, r2, r3, mcs9Block_eq g b hg hb]
    simp only [bind_ok]
    rw [hd, bind_ok]
    refine ⟨_, rfl, fun i => ⟨?_, ?_⟩⟩
    · intro e
      have e := (Option.some.inj e).symm
      subst e
      have hm : mcs9Bits b = fld (mcs9Bits b) 0 1234 := by
        obtain ⟨h, rfl⟩ := exists_L' hb
        rfl
      obtain ⟨dr, _, hdr⟩ := packData_eq (mcs9Bits b) 0 1234 (by obtain ⟨h, rfl⟩ := exists_L' hb; exact Nat.le_of_eq rfl) (by omega)
      rw [← hm] at hdr
      refine ⟨⟨lsbVal (fld b 70 2), !x73, .hdr1, msbVal (fld b 74 6), dev, q, dr, 155, []⟩, ⟨hs, hft, (lsbVal_iff lt2).1 rfl, by rw [f72, hpc],
        by rw [f73]; simp, (msbVal_iff l77).1 rfl, ⟨_, (accDel_iff _ _ n83).1 hdev, ((msbVal_iff l83).1 rfl).2⟩, (hqi _).2 rfl, by rw [f96, hpe],
        ⟨rfl, rfl⟩, hdr, rfl⟩, hdel, ?_⟩
      dsimp only
      rw [hq]; rfl
    · rintro ⟨j, h, hdi, e⟩
      have e1 := h.e1
      rw [f73, singleton_inj] at e1
      obtain ⟨c, hc, hcf⟩ := h.dev
      have hc8 := eadd_lt hc
      have hc' : msbVal (fld b 80 3) = c := (msbVal_iff l83).2 ⟨hc8, hcf⟩
      have hdv := (accDel_iff c j.accDelDev hc8).2 hc
      rw [hc', hdv] at hdev
      have hdev := Option.some.inj hdev
      have hqj := (hqi _).1 h.egprs
      rw [e, Delivers.inj hdi hdel, hqj, h.cs.1, h.cs.2, hdev, ← (lsbVal_iff lt2).2 h.tav, ← (msbVal_iff l77).2 h.rxlev, e1, hq]
      simp [bepBug]

/-! ### the whole decoder -/

/-- what the decoder delivers for a data frame `j` of the specification: `j` but for the bit error probabilities and, for
MCS-9, the data -/
def Got (g b : List Bool) (i : CcuData) : Prop :=
  (∃ j, IsCcuData64 b j ∧ i = { j with qual := bepBug j.qual }) ∨
  (∃ j, IsCcuMcs9 b j ∧ Delivers i.data (mcs9Got g b) ∧ i = { j with qual := bepBug j.qual, data := i.data, dataLen := 0 })

theorem sync65 {b : List Bool} (h : fld b 0 65 = zeros 64 ++ [true]) : fld b 0 64 = zeros 64 := by
  have := congrArg (List.take 64) h
  unfold fld at this ⊢
  rw [List.take_take] at this
  exact this

theorem sync65' {b : List Bool} {i : CcuSync} (hb : b.length = 1280) (h : IsCcuSync64 b i) : fld b 0 65 = zeros 64 ++ [true] := by
  have h1 := h.sync
  have h2 := h.t 0 (by omega)
  obtain ⟨f, rfl⟩ := exists_L' hb
  rw [show fld (L 1280 f) 0 65 = fld (L 1280 f) 0 64 ++ fld (L 1280 f) 64 1 from rfl, h1, h2]

theorem decode64_cases (g b : List Bool) (hg : g.length = 1234) (hb : b.length = 1280) :
    (∃ i, decode64 g b = .ok (0, .sync i) ∧ IsCcuSync64 b i) ∨ (∃ i, decode64 g b = .ok (0, .data i) ∧ Got g b i) ∨
    (decode64 g b = .ok (-EINVAL, .zero) ∧ (∀ i, ¬ IsCcuSync64 b i) ∧ (∀ i, ¬ IsCcuData64 b i) ∧ ∀ i, ¬ IsCcuMcs9 b i) := by
  have l65 := fld_length b 65 5 (by omega)
  unfold decode64
  rw [slice_fld b 65 5 (by omega)]
  simp only [bind_ok]
  by_cases h1 : lsbVal (fld b 65 5) = 0x15
  · have hft := ((lsbVal_iff l65).1 h1).2
    rw [h1]
    unfold decode64Sync
    rw [slice_fld b 0 65 (by omega), bind_ok, show List.replicate 64 false = zeros 64 from rfl]
    have n1 : ∀ i, ¬ IsCcuData64 b i := fun i h => by
      have := h.ft; rw [hft] at this; exact absurd this (by decide)
    have n2 : ∀ i, ¬ IsCcuMcs9 b i := fun i h => by
      have := h.ft; rw [hft] at this; exact absurd this (by decide)
    by_cases hs : fld b 0 65 = zeros 64 ++ [true]
    rotate_left
    · exact .inr (.inr ⟨by rw [if_pos hs]; rfl, fun i h => hs (sync65' hb h), n1, n2⟩)
    obtain ⟨r, hr, hi⟩ := decSync64_ok b hb (sync65 hs) hft
    rw [if_neg (by simp [hs]), hr, bind_ok]
    cases r with
    | some i => exact .inl ⟨i, rfl, (hi i).1 rfl⟩
    | none => exact .inr (.inr ⟨rfl, fun i h => absurd ((hi i).2 h) (by simp), n1, n2⟩)
  have n0 : ∀ i, ¬ IsCcuSync64 b i := fun i h => h1 ((lsbVal_iff l65).2 ⟨by decide, h.ft⟩)
  by_cases h2 : lsbVal (fld b 65 5) = 0x1A
  · have hft := ((lsbVal_iff l65).1 h2).2
    rw [h2]
    unfold decode64Data
    rw [slice_fld b 0 65 (by omega), bind_ok, show List.replicate 64 false = zeros 64 from rfl]
    have n2 : ∀ i, ¬ IsCcuMcs9 b i := fun i h => by
      have := h.ft; rw [hft] at this; exact absurd this (by decide)
    by_cases hs : fld b 0 65 = zeros 64 ++ [true]
    rotate_left
    · exact .inr (.inr ⟨by rw [if_pos hs]; rfl, n0, fun i h => hs h.sync, n2⟩)
    obtain ⟨r, hr, hi⟩ := decData64_ok b hb hs hft
    rw [if_neg (by simp [hs]), hr, bind_ok]
    cases r with
    | some i => exact .inr (.inl ⟨i, rfl, .inl ((hi i).1 rfl)⟩)
    | none => exact .inr (.inr ⟨rfl, n0, fun i h => absurd ((hi _).2 ⟨i, h, rfl⟩) (by simp), n2⟩)
  have n1 : ∀ i, ¬ IsCcuData64 b i := fun i h => h2 ((lsbVal_iff l65).2 ⟨by decide, h.ft⟩)
  by_cases h3 : lsbVal (fld b 65 5) = 0x04
  · have hft := ((lsbVal_iff l65).1 h3).2
    rw [h3]
    unfold decode64Mcs9
    rw [slice_fld b 0 17 (by omega), bind_ok, show List.replicate 16 false = zeros 16 from rfl]
    by_cases hs : fld b 0 17 = zeros 16 ++ [true]
    rotate_left
    · exact .inr (.inr ⟨by rw [if_pos hs]; rfl, n0, n1, fun i h => hs h.sync⟩)
    obtain ⟨r, hr, hi⟩ := decMcs9_ok g b hg hb hs hft
    rw [if_neg (by simp [hs]), hr, bind_ok]
    cases r with
    | some i => exact .inr (.inl ⟨i, rfl, .inr ((hi i).1 rfl)⟩)
    | none =>
      refine .inr (.inr ⟨rfl, n0, n1, fun i h => ?_⟩)
      have hkl : (mcs9Got g b).length = 1234 := by
        obtain ⟨f, rfl⟩ := exists_L' hg
        obtain ⟨h, rfl⟩ := exists_L' hb
        rfl
      obtain ⟨d, hd, hdel⟩ := packData_eq (mcs9Got g b) 0 1234 (by omega) (by omega)
      have hfull : fld (mcs9Got g b) 0 1234 = mcs9Got g b := by
        unfold fld; rw [List.drop_zero, List.take_of_length_le (by omega)]
      rw [hfull] at hdel
      exact absurd ((hi { i with qual := bepBug i.qual, data := d, dataLen := 0 }).2 ⟨i, h, hdel, rfl⟩) (by simp)
  · refine .inr (.inr ⟨?_, n0, n1, fun i h => h3 ((lsbVal_iff l65).2 ⟨by decide, h.ft⟩)⟩)
    split
    · exact absurd ‹_› h1
    · exact absurd ‹_› h2
    · exact absurd ‹_› h3
    · rfl

theorem ccu64_ft {b : List Bool} : (∀ i j, IsCcuSync64 b i → ¬ IsCcuData64 b j) ∧ (∀ i j, IsCcuSync64 b i → ¬ IsCcuMcs9 b j) ∧
    (∀ i j, IsCcuData64 b i → ¬ IsCcuMcs9 b j) := by
  refine ⟨fun i j h h' => ?_, fun i j h h' => ?_, fun i j h h' => ?_⟩ <;>
  · have := h.ft; rw [h'.ft] at this; exact absurd this (by decide)

/-- **C37, decoder, sync frames**: delivered exactly for the bits laid out as documented. -/
theorem C37_decode_sync (g b : List Bool) (hg : g.length = 1234) (hb : b.length = 1280) (i : CcuSync) :
    decode64 g b = .ok (0, .sync i) ↔ IsCcuSync64 b i := by
  obtain ⟨u1, u2, u3⟩ := ccu64_ft (b := b)
  rcases decode64_cases g b hg hb with ⟨j, hd, h⟩ | ⟨j, hd, h⟩ | ⟨hd, h, _⟩
  · rw [hd]
    constructor
    · intro e; cases e; exact h
    · intro e
      obtain ⟨r, _, hi⟩ := decSync64_ok b hb h.sync h.ft
      rw [Option.some.inj (((hi i).2 e).symm.trans ((hi j).2 h))]
  · rw [hd]
    constructor
    · intro e; cases e
    · intro e
      rcases h with ⟨x, h, _⟩ | ⟨x, h, _⟩
      · exact absurd h (u1 _ _ e)
      · exact absurd h (u2 _ _ e)
  · rw [hd]
    constructor
    · intro e; cases e
    · intro e; exact absurd e (h i)

/-- **C37, decoder, data frames except MCS-9**: delivered exactly for the bits laid out as documented, except for the two bit
error probabilities. -/
theorem C37_decode_data_partial (g b : List Bool) (hg : g.length = 1234) (hb : b.length = 1280) (hft : fld b 65 5 ≠ lsb 5 0x04) (i : CcuData) :
    decode64 g b = .ok (0, .data i) ↔ ∃ j, IsCcuData64 b j ∧ i = { j with qual := bepBug j.qual } := by
  obtain ⟨u1, u2, u3⟩ := ccu64_ft (b := b)
  rcases decode64_cases g b hg hb with ⟨j, hd, h⟩ | ⟨j, hd, h⟩ | ⟨hd, _, h, _⟩
  · rw [hd]
    constructor
    · intro e; cases e
    · rintro ⟨x, e, _⟩; exact absurd e (u1 _ _ h)
  · rw [hd]
    rcases h with ⟨x, h, hx⟩ | ⟨x, h, _⟩
    · obtain ⟨r, _, hi⟩ := decData64_ok b hb h.sync h.ft
      constructor
      · intro e; cases e; exact ⟨x, h, hx⟩
      · rintro ⟨y, hy, e⟩
        rw [Option.some.inj (((hi i).2 ⟨y, hy, e⟩).symm.trans ((hi j).2 ⟨x, h, hx⟩))]
    · exact absurd h.ft hft
  · rw [hd]
    constructor
    · intro e; cases e
    · rintro ⟨x, e, _⟩; exact absurd e (h _)

/-- **C37, decoder, MCS-9**: the control information is right, except for the bit error probabilities; of the 1234 bits of the
block the first 45 are. -/
theorem C37_decode_mcs9_partial (g b : List Bool) (hg : g.length = 1234) (hb : b.length = 1280) (j : CcuData) (h : IsCcuMcs9 b j) :
    ∃ d, decode64 g b = .ok (0, .data { j with qual := bepBug j.qual, data := d, dataLen := 0 }) ∧
      (bitsOf d).take 45 = (mcs9Bits b).take 45 := by
  obtain ⟨u1, u2, u3⟩ := ccu64_ft (b := b)
  have htake : (mcs9Got g b).take 45 = (mcs9Bits b).take 45 := by
    obtain ⟨f, rfl⟩ := exists_L' hb
    obtain ⟨h, rfl⟩ := exists_L' hg
    rfl
  have hkl : (mcs9Got g b).length = 1234 := by
    obtain ⟨f, rfl⟩ := exists_L' hg
    obtain ⟨h, rfl⟩ := exists_L' hb
    rfl
  rcases decode64_cases g b hg hb with ⟨x, hd, hx⟩ | ⟨i, hd, hx⟩ | ⟨hd, _, _, hx⟩
  · exact absurd h (u2 _ _ hx)
  · rcases hx with ⟨x, hx, _⟩ | ⟨x, hx, hdel, hi⟩
    · exact absurd h (u3 _ _ hx)
    · obtain ⟨r, _, hii⟩ := decMcs9_ok g b hg hb h.sync h.ft
      have e := Option.some.inj (((hii i).2 ⟨x, hx, hdel, hi⟩).symm.trans ((hii { j with qual := bepBug j.qual, data := i.data, dataLen := 0 }).2 ⟨j, h, hdel, rfl⟩))
      refine ⟨i.data, by rw [hd, ← e], ?_⟩
      rw [hdel.2, List.take_append_of_le_length (by omega), htake]
  · exact absurd h (hx j)

end Verif.Ericsson
