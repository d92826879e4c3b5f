import Verif.Proof.Ericsson
/-! # Ericsson GPRS TRAU frames, 16 kbit/s (C36, C38) -/
namespace Verif.Ericsson
open Verif Spec
open Verif.RaaPrime (bind_ok bind_err)
set_option maxRecDepth 10000

/-! ### T bits and numbers -/

theorem get41 (f : Nat → Bool) : getUint32 (L 320 f) 320 tBits16 41 22 = .ok (msbVal (fld (L 320 f) 41 7 ++ fld (L 320 f) 49 15)) := by
  kernel_rfl
theorem get89 (f : Nat → Bool) : getUint32 (L 320 f) 320 tBits16 89 22 = .ok (msbVal (fld (L 320 f) 89 7 ++ fld (L 320 f) 97 15)) := by
  kernel_rfl
theorem get137 (f : Nat → Bool) : getUint32 (L 320 f) 320 tBits16 137 22 = .ok (msbVal (fld (L 320 f) 137 7 ++ fld (L 320 f) 145 15)) := by
  kernel_rfl

theorem singleton_inj {x y : Bool} : ([x] = [y]) ↔ x = y := by simp

theorem decSync16_ok (b : List Bool) (hb : b.length = 320) (hs : fld b 0 16 = zeros 16) (hft : fld b 17 5 = lsb 5 0x15) :
    ∃ r, decSync16 b = .ok r ∧ ∀ i, r = some i ↔ IsCcuSync16 b i := by
  obtain ⟨x24, r24, f24⟩ := rd_fld b 24 (by omega)
  obtain ⟨x25, r25, f25⟩ := rd_fld b 25 (by omega)
  obtain ⟨x26, r26, f26⟩ := rd_fld b 26 (by omega)
  obtain ⟨x27, r27, f27⟩ := rd_fld b 27 (by omega)
  have g1 : getUint32 b 320 tBits16 41 22 = .ok (msbVal (fld b 41 7 ++ fld b 49 15)) := by
    obtain ⟨f, rfl⟩ := exists_L' hb; exact get41 f
  have g2 : getUint32 b 320 tBits16 89 22 = .ok (msbVal (fld b 89 7 ++ fld b 97 15)) := by
    obtain ⟨f, rfl⟩ := exists_L' hb; exact get89 f
  have g3 : getUint32 b 320 tBits16 137 22 = .ok (msbVal (fld b 137 7 ++ fld b 145 15)) := by
    obtain ⟨f, rfl⟩ := exists_L' hb; exact get137 f
  have hT : (∀ j ∈ (List.range 19).map fun k => 16 + k * 16, fld b j 1 = [true]) ↔ ∀ k, k < 19 → fld b (16 + 16 * k) 1 = [true] := by
    simp [Nat.mul_comm]
  unfold decSync16
  rw [allOnes_eq b _ (by simp [hb]; intro a h; omega), bind_ok, slice_fld b 17 8 (by omega), slice_fld b 22 2 (by omega), r24, r25, r26, r27, g1, g2, g3]
  simp only [bind_ok, calcParity_eq, hT]
  have hl1 := fld_length b 22 2 (by omega)
  have hl (o o') (h : o + 7 ≤ 320) (h' : o' + 15 ≤ 320) : (fld b o 7 ++ fld b o' 15).length = 22 := by
    rw [List.length_append, fld_length _ _ _ (by omega), fld_length _ _ _ (by omega)]
  have ho : odd [x26] = !x26 := by cases x26 <;> rfl
  by_cases h1 : ∀ k, k < 19 → fld b (16 + 16 * k) 1 = [true]
  rotate_left
  · refine ⟨none, by rw [if_pos (by simpa using h1)], fun i => ⟨(nomatch ·), fun h => absurd h.t h1⟩⟩
  rw [if_neg (by simpa using h1)]
  by_cases h2 : odd (fld b 17 8) = x25
  rotate_left
  · refine ⟨none, by rw [if_pos h2], fun i => ⟨(nomatch ·), fun h => ?_⟩⟩
    have hc := h.pc
    rw [f25, singleton_inj] at hc
    exact absurd hc.symm h2
  rw [if_neg (by simp [h2])]
  by_cases h3 : x26 = !x27
  rotate_left
  · refine ⟨none, by rw [if_pos h3], fun i => ⟨(nomatch ·), fun h => ?_⟩⟩
    have he := h.pe
    rw [f27, f26, ho, singleton_inj] at he
    rw [he] at h3
    simp at h3
  rw [if_neg (by simp [h3])]
  refine ⟨_, rfl, fun i => ⟨?_, ?_⟩⟩
  · intro h
    have h := (Option.some.inj h).symm
    subst h
    refine ⟨hs, h1, hft, (lsbVal_iff hl1).1 rfl, by simp [f24], ?_, by simp [f26], ?_,
      (msbVal_iff (hl 41 49 (by omega) (by omega))).1 rfl, (msbVal_iff (hl 89 97 (by omega) (by omega))).1 rfl,
      (msbVal_iff (hl 137 145 (by omega) (by omega))).1 rfl⟩
    · rw [f25, h2]
    · rw [f27, f26, ho, h3]; simp
  · intro h
    rw [(lsbVal_iff hl1).2 h.tav, (msbVal_iff (hl 41 49 (by omega) (by omega))).2 h.pseq,
      (msbVal_iff (hl 89 97 (by omega) (by omega))).2 h.ul, (msbVal_iff (hl 137 145 (by omega) (by omega))).2 h.dl]
    have h24 := h.c8
    have h26 := h.e1
    rw [f24, singleton_inj] at h24
    rw [f26, singleton_inj] at h26
    rw [h24, h26]; simp

/-! ### access bursts -/

theorem or_byte (k : Nat) (y : Byte) : (k * 256 ||| y.toNat) = k * 256 + y.toNat := by
  have := Nat.two_pow_add_eq_or_of_lt (i := 8) (b := y.toNat) y.isLt k
  rw [show 2 ^ 8 * k = k * 256 from by omega] at this
  exact this.symm

theorem ab_delay (x y : Byte) : ((x.toNat <<< 2) &&& 0x300) ||| y.toNat = x.toNat / 64 * 256 + y.toNat := by
  have : ∀ x : Byte, (x.toNat <<< 2) &&& 0x300 = x.toNat / 64 * 256 := by decide +kernel
  rw [this, or_byte]
theorem ab_data (x y : Byte) : ((x.toNat <<< 3) &&& 0x700) ||| y.toNat = x.toNat / 32 * 256 + y.toNat := by
  have : ∀ x : Byte, (x.toNat <<< 3) &&& 0x700 = x.toNat / 32 * 256 := by decide +kernel
  rw [this, or_byte]
theorem ab_t1 : ∀ x : Byte, (x &&& 0x1f = 0x1f) ↔ x.toNat % 32 = 31 := by decide +kernel
theorem ab_t2 : ∀ x : Byte, (x &&& 0x1f = 0) ↔ x.toNat % 32 = 0 := by decide +kernel
theorem ab_hi : ∀ x : Byte, (x.toNat >>> 5) &&& 7 = x.toNat / 32 := by decide +kernel
theorem ab_hi2 : ∀ x : Byte, (x.toNat >>> 6) &&& 3 = x.toNat / 64 := by decide +kernel

theorem decodeAb_ok (o : List Byte) (h : o.length = 8) : ∃ r, decodeAb o = .ok r ∧ ∀ a, r = some a ↔ IsAb o a := by
  obtain ⟨f, rfl⟩ := exists_L' h
  have e : decodeAb (L 8 f) = (if f 0 &&& 0x1f = 0x1f then
      .ok (some ⟨(f 1).toNat, (((f 4).toNat <<< 2) &&& 0x300) ||| (f 5).toNat, (((f 6).toNat <<< 3) &&& 0x700) ||| (f 7).toNat,
        .type1 (((f 0).toNat >>> 5) &&& 7) (f 2).toNat (f 3).toNat⟩)
    else if f 0 &&& 0x1f = 0 then
      .ok (some ⟨(f 1).toNat, (((f 4).toNat <<< 2) &&& 0x300) ||| (f 5).toNat, (((f 6).toNat <<< 3) &&& 0x700) ||| (f 7).toNat,
        .type2 (((f 0).toNat >>> 5) &&& 7) (((f 3).toNat >>> 6) &&& 3)⟩)
    else .ok none : M _) := by kernel_rfl
  rw [e]
  simp only [ab_delay, ab_data, ab_t1, ab_t2, ab_hi, ab_hi2]
  by_cases h1 : (f 0).toNat % 32 = 31
  · rw [if_pos h1]
    refine ⟨_, rfl, fun a => ⟨?_, ?_⟩⟩
    · intro h; cases h
      exact ⟨h, rfl, rfl, rfl, .inl ⟨h1, rfl⟩⟩
    · rintro ⟨_, r1, r2, r3, r4⟩
      obtain ⟨a1, a2, a3, a4⟩ := a
      rcases r4 with ⟨_, r4⟩ | ⟨h0, _⟩
      · dsimp only at r1 r2 r3 r4; rw [r1, r2, r3, r4]; rfl
      · exact absurd h0 (by show ¬ (f 0).toNat % 32 = 0; omega)
  · rw [if_neg h1]
    by_cases h2 : (f 0).toNat % 32 = 0
    · rw [if_pos h2]
      refine ⟨_, rfl, fun a => ⟨?_, ?_⟩⟩
      · intro h; cases h
        exact ⟨h, rfl, rfl, rfl, .inr ⟨h2, rfl⟩⟩
      · rintro ⟨_, r1, r2, r3, r4⟩
        obtain ⟨a1, a2, a3, a4⟩ := a
        rcases r4 with ⟨h0, _⟩ | ⟨_, r4⟩
        · exact absurd h0 (by show ¬ (f 0).toNat % 32 = 31; omega)
        · dsimp only at r1 r2 r3 r4; rw [r1, r2, r3, r4]; rfl
    · rw [if_neg h2]
      refine ⟨_, rfl, fun a => ⟨(nomatch ·), ?_⟩⟩
      rintro ⟨_, _, _, _, r4⟩
      rcases r4 with ⟨h0, _⟩ | ⟨h0, _⟩
      · exact absurd h0 h1
      · exact absurd h0 h2

theorem decodeAbs_ok (d : List Byte) (n : Nat) : ∀ i, 8 * (i + n) ≤ d.length →
    ∃ r, decodeAbs d n i = .ok r ∧ ∀ ab, r = some ab ↔
      (ab.length = n ∧ ∀ k, k < n → ∃ a, ab[k]? = some a ∧ IsAb ((d.drop (8 * (i + k))).take 8) a) := by
  induction n with
  | zero =>
    intro i _
    refine ⟨_, rfl, fun ab => ⟨?_, ?_⟩⟩
    · intro h; cases h; exact ⟨rfl, fun k hk => absurd hk (by omega)⟩
    · rintro ⟨h, _⟩; rw [List.length_eq_zero_iff.1 h]
  | succ n ih =>
    intro i h
    obtain ⟨r1, e1, h1⟩ := decodeAb_ok ((d.drop (8 * i)).take 8) (by simp; omega)
    obtain ⟨r2, e2, h2⟩ := ih (i + 1) (by omega)
    unfold decodeAbs
    rw [slice_ok (by omega), bind_ok, show i * 8 = 8 * i from by omega, e1, bind_ok]
    cases r1 with
    | none =>
      refine ⟨_, rfl, fun ab => ⟨(nomatch ·), ?_⟩⟩
      rintro ⟨_, h⟩
      obtain ⟨a, _, ha⟩ := h 0 (by omega)
      exact absurd ((h1 a).2 ha) (by simp)
    | some a =>
      simp only [e2, bind_ok]
      cases r2 with
      | none =>
        refine ⟨_, rfl, fun ab => ⟨(nomatch ·), ?_⟩⟩
        rintro ⟨hl, h⟩
        cases ab with
        | nil => simp at hl
        | cons a' ab =>
          refine absurd ((h2 ab).2 ⟨by simpa using hl, fun k hk => ?_⟩) (by simp)
          obtain ⟨x, hx, hx'⟩ := h (k + 1) (by omega)
          exact ⟨x, by simpa using hx, by rw [show i + 1 + k = i + (k + 1) from by omega]; exact hx'⟩
      | some ab' =>
        refine ⟨_, rfl, fun ab => ⟨?_, ?_⟩⟩
        · intro h; cases h
          obtain ⟨hl, hk⟩ := (h2 ab').1 rfl
          refine ⟨by simpa using hl, fun k hk' => ?_⟩
          cases k with
          | zero => exact ⟨a, rfl, (h1 a).1 rfl⟩
          | succ k =>
            obtain ⟨x, hx, hx'⟩ := hk k (by omega)
            exact ⟨x, by simpa using hx, by rw [show i + (k + 1) = i + 1 + k from by omega]; exact hx'⟩
        · rintro ⟨hl, h⟩
          cases ab with
          | nil => simp at hl
          | cons a' ab =>
            have e : a = a' := by
              obtain ⟨x, hx, hx'⟩ := h 0 (by omega)
              have := (h1 x).2 hx'
              cases hx; exact Option.some.inj this
            have e' : ab' = ab := by
              refine Option.some.inj ((h2 ab).2 ⟨by simpa using hl, fun k hk => ?_⟩)
              obtain ⟨x, hx, hx'⟩ := h (k + 1) (by omega)
              exact ⟨x, by simpa using hx, by rw [show i + 1 + k = i + (k + 1) from by omega]; exact hx'⟩
            rw [e, e']

theorem decodeAbs4 (d : List Byte) (h : d.length = 155) : ∃ r, decodeAbs d 4 0 = .ok r ∧ ∀ ab, r = some ab ↔ AreAbs d ab := by
  obtain ⟨r, e, h⟩ := decodeAbs_ok d 4 0 (by omega)
  refine ⟨r, e, fun ab => ?_⟩
  rw [h ab]
  simp only [Nat.zero_add, AreAbs]

/-! ### data frames -/

theorem accDel_iff (n : Nat) (dev : Int) (hn : n < 8) : accDel n = some dev ↔ eadd dev = some n := by
  constructor
  · intro h
    unfold accDel at h
    split at h <;> first | (cases h; rfl) | cases h
  · intro h
    unfold eadd at h
    repeat' (split at h; · cases h; subst_vars; rfl)
    cases h

theorem crcOk_eq (b : List Bool) (o : Nat) (h : o + 200 ≤ b.length) :
    crcOk b o = .ok (decide (fld b (o + 184) 16 = crc (fld b o 184))) := by
  unfold crcOk
  rw [slice_fld b o 184 (by omega), bind_ok, slice_fld b (o + 184) 16 (by omega), bind_ok, crc16_eq]
  congr 1
  by_cases h : fld b (o + 184) 16 = crc (fld b o 184) <;> simp [h]

/-- coding scheme by code (the switch at trau_pcu_ericsson.c:782-797) -/
theorem cs16_cases (n : Nat) (_ : n < 8) :
    (csOf16 n = none ∧ ∀ c, csUl16 c ≠ some n) ∨
    (∃ cs, csOf16 n = some cs ∧
      (cs = .cs1 ∨ cs = .cs2 ∨ cs = .ab) ∧ ∀ c, csUl16 c = some n ↔ c = cs) := by
  unfold csOf16
  split
  · exact .inr ⟨_, rfl, .inl rfl, fun c => by cases c <;> simp [csUl16]⟩
  · exact .inr ⟨_, rfl, .inr (.inl rfl), fun c => by cases c <;> simp [csUl16]⟩
  · exact .inr ⟨_, rfl, .inr (.inr rfl), fun c => by cases c <;> simp [csUl16]⟩
  · refine .inl ⟨rfl, fun c => ?_⟩
    intro h
    cases c <;> cases h <;> simp_all

theorem decData16_ok (b : List Bool) (hb : b.length = 320) (hs : fld b 0 17 = zeros 16 ++ [true]) (hft : fld b 17 5 = lsb 5 0x1A) :
    ∃ r, decData16 b = .ok r ∧ ∀ i, r = some i ↔ IsCcuData16 b i := by
  obtain ⟨x24, r24, f24⟩ := rd_fld b 24 (by omega)
  obtain ⟨x25, r25, f25⟩ := rd_fld b 25 (by omega)
  obtain ⟨x32, r32, f32⟩ := rd_fld b 32 (by omega)
  obtain ⟨x44, r44, f44⟩ := rd_fld b 44 (by omega)
  have lt2 := fld_length b 22 2 (by omega)
  have l26 := fld_length b 26 3 (by omega)
  have l29 := fld_length b 29 3 (by omega)
  have l33 := fld_length b 33 6 (by omega)
  have l39 := fld_length b 39 3 (by omega)
  have n26 : msbVal (fld b 26 3) < 8 := by have := msbVal_lt (fld b 26 3); rwa [l26] at this
  have n39 : msbVal (fld b 39 3) < 8 := by have := msbVal_lt (fld b 39 3); rwa [l39] at this
  unfold decData16
  rw [slice_fld b 17 7 (by omega), slice_fld b 22 2 (by omega), slice_fld b 25 19 (by omega), slice_fld b 26 3 (by omega),
    slice_fld b 29 3 (by omega), slice_fld b 33 6 (by omega), slice_fld b 39 3 (by omega), r24, r25, r32, r44]
  simp only [bind_ok, calcParity_eq]
  by_cases hpc : odd (fld b 17 7) = x24
  rotate_left
  · rw [if_pos hpc]
    refine ⟨none, rfl, fun i => ⟨(nomatch ·), fun h => ?_⟩⟩
    have := h.pc
    rw [f24, singleton_inj] at this
    exact absurd this.symm hpc
  rw [if_neg (by simp [hpc])]
  by_cases hpe : odd (fld b 25 19) = x44
  rotate_left
  · rw [if_pos hpe]
    refine ⟨none, rfl, fun i => ⟨(nomatch ·), fun h => ?_⟩⟩
    have := h.pe
    rw [f44, singleton_inj] at this
    exact absurd this.symm hpe
  rw [if_neg (by simp [hpe])]
  rcases cs16_cases (msbVal (fld b 26 3)) n26 with ⟨hcs, hno⟩ | ⟨cs, hcs, hcs3, hiff⟩
  · rw [hcs]
    refine ⟨none, rfl, fun i => ⟨(nomatch ·), fun h => ?_⟩⟩
    obtain ⟨c, hc, hf⟩ := h.cs
    have : msbVal (fld b 26 3) = c := (msbVal_iff l26).2 ⟨by cases hi : i.cs <;> rw [hi] at hc <;> simp [csUl16] at hc <;> omega, hf⟩
    exact absurd (this ▸ hc) (hno _)
  rw [hcs]
  dsimp only
  cases hdev : accDel (msbVal (fld b 39 3)) with
  | none =>
    refine ⟨none, rfl, fun i => ⟨(nomatch ·), fun h => ?_⟩⟩
    obtain ⟨c, hc, hf⟩ := h.dev
    have hc8 : c < 8 := by
      unfold eadd at hc
      repeat' (split at hc; · have := Option.some.inj hc; omega)
      cases hc
    have : msbVal (fld b 39 3) = c := (msbVal_iff l39).2 ⟨hc8, hf⟩
    have := (accDel_iff c i.accDelDev hc8).2 hc
    rw [‹msbVal (fld b 39 3) = c›, this] at hdev
    cases hdev
  | some dev =>
    dsimp only
    -- everything but the data
    have common (i : CcuData) : (i.tav = lsbVal (fld b 22 2) ∧ i.dbe = !x25 ∧ i.cs = cs ∧ i.rxLev = msbVal (fld b 33 6) ∧
        i.accDelDev = dev ∧ i.qual = .gprs (msbVal (fld b 29 3)) x32 ∧
        (i.cs = .cs1 → Delivers i.data (fld b 45 184) ∧ fld b (45 + 184) 16 = crc (fld b 45 184) ∧ i.dataLen = 23 ∧ i.ab = []) ∧
        (i.cs = .cs2 → Delivers i.data (fld b 45 271) ∧ i.dataLen = 34 ∧ i.ab = []) ∧
        (i.cs = .ab → Delivers i.data (fld b 48 256) ∧ i.dataLen = 32 ∧ AreAbs i.data i.ab)) ↔ IsCcuData16 b i := by
      constructor
      · rintro ⟨h1, h2, h3, h4, h5, h6, h7, h8, h9⟩
        refine ⟨hs, hft, (lsbVal_iff lt2).1 h1.symm, by rw [f24, hpc], by rw [f25, h2]; simp, ⟨msbVal (fld b 26 3), (hiff _).2 h3, ?_⟩,
          ⟨_, _, h6, ?_, ?_, f32⟩, (msbVal_iff l33).1 h4.symm, ⟨msbVal (fld b 39 3), ?_, ?_⟩, by rw [f44, hpe], h7, h8, h9⟩
        · exact ((msbVal_iff l26).1 rfl).2
        · exact ((msbVal_iff l29).1 rfl).1
        · exact ((msbVal_iff l29).1 rfl).2
        · rw [h5]; exact (accDel_iff _ _ n39).1 hdev
        · exact ((msbVal_iff l39).1 rfl).2
      · intro h
        obtain ⟨c, hc, hcf⟩ := h.cs
        obtain ⟨q, p, hq, hq8, hqf, hp⟩ := h.qual
        obtain ⟨e, he, hef⟩ := h.dev
        have e1 := h.e1
        rw [f25, singleton_inj] at e1
        rw [f32, singleton_inj] at hp
        have hc' : msbVal (fld b 26 3) = c :=
          (msbVal_iff l26).2 ⟨by cases hi : i.cs <;> rw [hi] at hc <;> simp [csUl16] at hc <;> omega, hcf⟩
        have he8 : e < 8 := by
          unfold eadd at he
          repeat' (split at he; · have := Option.some.inj he; omega)
          cases he
        have he' : msbVal (fld b 39 3) = e := (msbVal_iff l39).2 ⟨he8, hef⟩
        refine ⟨((lsbVal_iff lt2).2 h.tav).symm, by rw [e1]; simp, (hiff _).1 (hc' ▸ hc), ((msbVal_iff l33).2 h.rxlev).symm, ?_, ?_, h.cs1, h.cs2, h.ab⟩
        · have := (accDel_iff e _ he8).2 he
          rw [he', this] at hdev
          exact Option.some.inj hdev
        · rw [hq, (msbVal_iff l29).2 ⟨hq8, hqf⟩, hp]
    simp only [← common]
    rcases hcs3 with rfl | rfl | rfl
    · obtain ⟨d, hd, hdel⟩ := packData_eq b 45 184 (by omega) (by omega)
      simp only [hd, bind_ok, crcOk_eq b 45 (by omega)]
      by_cases hcrc : fld b (45 + 184) 16 = crc (fld b 45 184)
      · rw [decide_eq_true hcrc]
        refine ⟨_, rfl, fun i => ⟨?_, ?_⟩⟩
        · intro h; cases h
          exact ⟨rfl, rfl, rfl, rfl, rfl, rfl, fun _ => ⟨hdel, hcrc, rfl, rfl⟩, (nomatch ·), (nomatch ·)⟩
        · rintro ⟨h1, h2, h3, h4, h5, h6, h7, _, _⟩
          obtain ⟨k1, _, k3, k4⟩ := h7 h3
          cases i
          dsimp only at *
          rw [h1, h2, h3, h4, h5, h6, k3, k4, Delivers.inj k1 hdel]
      · rw [decide_eq_false hcrc]
        refine ⟨none, rfl, fun i => ⟨(nomatch ·), ?_⟩⟩
        rintro ⟨_, _, h3, _, _, _, h7, _, _⟩
        exact absurd (h7 h3).2.1 hcrc
    · obtain ⟨d, hd, hdel⟩ := packData_eq b 45 271 (by omega) (by omega)
      simp only [hd, bind_ok]
      refine ⟨_, rfl, fun i => ⟨?_, ?_⟩⟩
      · intro h; cases h
        exact ⟨rfl, rfl, rfl, rfl, rfl, rfl, (nomatch ·), fun _ => ⟨hdel, rfl, rfl⟩, (nomatch ·)⟩
      · rintro ⟨h1, h2, h3, h4, h5, h6, _, h7, _⟩
        obtain ⟨k1, k3, k4⟩ := h7 h3
        cases i
        dsimp only at *
        rw [h1, h2, h3, h4, h5, h6, k3, k4, Delivers.inj k1 hdel]
    · obtain ⟨d, hd, hdel⟩ := packData_eq b 48 256 (by omega) (by omega)
      obtain ⟨r, hr, hab⟩ := decodeAbs4 d hdel.1
      simp only [hd, bind_ok, hr]
      cases r with
      | none =>
        refine ⟨none, rfl, fun i => ⟨(nomatch ·), ?_⟩⟩
        rintro ⟨_, _, h3, _, _, _, _, _, h7⟩
        obtain ⟨k1, _, k4⟩ := h7 h3
        rw [Delivers.inj k1 hdel] at k4
        exact absurd ((hab _).2 k4) (by simp)
      | some ab =>
        refine ⟨_, rfl, fun i => ⟨?_, ?_⟩⟩
        · intro h; cases h
          exact ⟨rfl, rfl, rfl, rfl, rfl, rfl, (nomatch ·), (nomatch ·), fun _ => ⟨hdel, rfl, (hab _).1 rfl⟩⟩
        · rintro ⟨h1, h2, h3, h4, h5, h6, _, _, h7⟩
          obtain ⟨k1, k3, k4⟩ := h7 h3
          have hd' := Delivers.inj k1 hdel
          rw [hd'] at k4
          have k5 := Option.some.inj ((hab _).2 k4)
          cases i
          dsimp only at *
          rw [h1, h2, h3, h4, h5, h6, k3, k5, hd']

theorem sync17 {b : List Bool} (h : fld b 0 17 = zeros 16 ++ [true]) : fld b 0 16 = zeros 16 := by
  have := congrArg (List.take 16) h
  unfold fld at this ⊢
  rw [List.take_take] at this
  exact this

theorem sync17' {b : List Bool} {i : CcuSync} (hb : b.length = 320) (h : IsCcuSync16 b i) : fld b 0 17 = zeros 16 ++ [true] := by
  have h1 := h.sync
  have h2 := h.t 0 (by omega)
  obtain ⟨f, rfl⟩ := exists_L' hb
  rw [show fld (L 320 f) 0 17 = fld (L 320 f) 0 16 ++ fld (L 320 f) 16 1 from rfl, h1, h2]

/-- **C36/C76 (decoder).**  For every 320 bits the decoder returns, reading nothing else, and it delivers a frame if and only if the
bits are laid out as that frame; otherwise -EINVAL and the zeroed structure. -/
theorem decode16_cases (b : List Bool) (hb : b.length = 320) :
    (∃ i, decode16 b = .ok (0, .sync i) ∧ IsCcuSync16 b i) ∨ (∃ i, decode16 b = .ok (0, .data i) ∧ IsCcuData16 b i) ∨
    (decode16 b = .ok (-EINVAL, .zero) ∧ (∀ i, ¬ IsCcuSync16 b i) ∧ ∀ i, ¬ IsCcuData16 b i) := by
  have l17 := fld_length b 17 5 (by omega)
  unfold decode16
  rw [slice_fld b 0 17 (by omega), slice_fld b 17 5 (by omega)]
  simp only [bind_ok]
  rw [show List.replicate 16 false = zeros 16 from rfl]
  by_cases hs : fld b 0 17 = zeros 16 ++ [true]
  rotate_left
  · rw [if_pos hs]
    exact .inr (.inr ⟨rfl, fun i h => hs (sync17' hb h), fun i h => hs h.sync⟩)
  rw [if_neg (by simp [hs])]
  by_cases h1 : lsbVal (fld b 17 5) = 0x15
  · have hft := ((lsbVal_iff l17).1 h1).2
    rw [h1]
    obtain ⟨r, hr, hi⟩ := decSync16_ok b hb (sync17 hs) hft
    rw [hr, bind_ok]
    have hno : ∀ i, ¬ IsCcuData16 b i := fun i h => by
      have := h.ft; rw [hft] at this; exact absurd this (by decide)
    cases r with
    | some i => exact .inl ⟨i, rfl, (hi i).1 rfl⟩
    | none => exact .inr (.inr ⟨rfl, fun i h => absurd ((hi i).2 h) (by simp), hno⟩)
  have hno1 : ∀ i, ¬ IsCcuSync16 b i := fun i h => h1 ((lsbVal_iff l17).2 ⟨by decide, h.ft⟩)
  by_cases h2 : lsbVal (fld b 17 5) = 0x1A
  · have hft := ((lsbVal_iff l17).1 h2).2
    rw [h2]
    obtain ⟨r, hr, hi⟩ := decData16_ok b hb hs hft
    rw [hr, bind_ok]
    cases r with
    | some i => exact .inr (.inl ⟨i, rfl, (hi i).1 rfl⟩)
    | none => exact .inr (.inr ⟨rfl, hno1, fun i h => absurd ((hi i).2 h) (by simp)⟩)
  · refine .inr (.inr ⟨?_, hno1, fun i h => h2 ((lsbVal_iff l17).2 ⟨by decide, h.ft⟩)⟩)
    split
    · exact absurd ‹_› h1
    · exact absurd ‹_› h2
    · rfl

/-- a frame is laid out in only one way -/
theorem ccu16_unique {b : List Bool} (hb : b.length = 320) :
    (∀ i j, IsCcuSync16 b i → IsCcuSync16 b j → i = j) ∧ (∀ i j, IsCcuData16 b i → IsCcuData16 b j → i = j) ∧
    (∀ i j, IsCcuSync16 b i → ¬ IsCcuData16 b j) := by
  refine ⟨fun i j h h' => ?_, fun i j h h' => ?_, fun i j h h' => ?_⟩
  · obtain ⟨r, _, hi⟩ := decSync16_ok b hb h.sync h.ft
    exact Option.some.inj (((hi i).2 h).symm.trans ((hi j).2 h'))
  · obtain ⟨r, _, hi⟩ := decData16_ok b hb h.sync h.ft
    exact Option.some.inj (((hi i).2 h).symm.trans ((hi j).2 h'))
  · have := h.ft; rw [h'.ft] at this; exact absurd this (by decide)

/-- **C36, sync frames.**  The 16k decoder delivers a sync frame exactly for the bits laid out as documented. -/
theorem C36_decode_sync (b : List Bool) (hb : b.length = 320) (i : CcuSync) : decode16 b = .ok (0, .sync i) ↔ IsCcuSync16 b i := by
  obtain ⟨u1, u2, u3⟩ := ccu16_unique hb
  rcases decode16_cases b hb with ⟨j, hd, h⟩ | ⟨j, hd, h⟩ | ⟨hd, h, _⟩
  · rw [hd]
    constructor
    · intro e; cases e; exact h
    · intro e; rw [u1 _ _ e h]
  · rw [hd]
    constructor
    · intro e; cases e
    · intro e; exact absurd h (u3 _ _ e)
  · rw [hd]
    constructor
    · intro e; cases e
    · intro e; exact absurd e (h i)

/-- **C36, data frames.** -/
theorem C36_decode_data (b : List Bool) (hb : b.length = 320) (i : CcuData) : decode16 b = .ok (0, .data i) ↔ IsCcuData16 b i := by
  obtain ⟨u1, u2, u3⟩ := ccu16_unique hb
  rcases decode16_cases b hb with ⟨j, hd, h⟩ | ⟨j, hd, h⟩ | ⟨hd, _, h⟩
  · rw [hd]
    constructor
    · intro e; cases e
    · intro e; exact absurd e (u3 _ _ h)
  · rw [hd]
    constructor
    · intro e; cases e; exact h
    · intro e; rw [u2 _ _ e h]
  · rw [hd]
    constructor
    · intro e; cases e
    · intro e; exact absurd e (h i)

/-! ### the encoder -/

theorem oddfun : @odd = @calcParity := by funext l; exact (calcParity_eq l).symm

theorem timing16_eq (tav : Nat) (h : tav < 3) : timing16 tav = txLen 16 tav := by
  match tav, h with
  | 0, _ => rfl
  | 1, _ => rfl
  | 2, _ => rfl

theorem encSync16_sym (f : Nat → Bool) (tav : Nat) (err : Bool) (pseq ss fnUl fnSs fnDl ls : Nat) :
    encode16 (L 324 f) (.sync ⟨tav, err, pseq, ss, fnUl, fnSs, fnDl, ls⟩) =
      .ok (timing16 tav, pcuSync16 ⟨tav, err, pseq, ss, fnUl, fnSs, fnDl, ls⟩) := by
  unfold pcuSync16 ctl withParity
  rw [oddfun]
  cases err
  · show _ = _; kernel_rfl
  · show _ = _; kernel_rfl

theorem encode16_sync (b : List Bool) (hb : b.length = 324) (i : PcuSync) : encode16 b (.sync i) = .ok (timing16 i.tav, pcuSync16 i) := by
  obtain ⟨f, rfl⟩ := exists_L' hb
  exact encSync16_sym f i.tav i.ulFrameErr _ _ _ _ _ _

/-- **C36, encoder, sync frames.**  Whatever the buffer of 324 bits contained, the frame is laid out as documented, and the
number of bits to transmit is returned. -/
theorem C36_encode_sync (b : List Bool) (hb : b.length = 324) (i : PcuSync) (ht : i.tav < 3) :
    encode16 b (.sync i) = .ok (txLen 16 i.tav, pcuSync16 i) := by
  rw [encode16_sync b hb i, timing16_eq _ ht]

theorem blit_at (w src : List Bool) (r o : Nat) (ho : w.length = o) (h : src.length ≤ r) :
    blit (w ++ ones r) o src = .ok ((w ++ src) ++ ones (r - src.length)) := by subst ho; exact blit_seq w src true r h

theorem wr_at (w : List Bool) (x : Bool) (r o : Nat) (ho : w.length = o) (h : 0 < r) :
    wr (w ++ ones r) o x = .ok ((w ++ [x]) ++ ones (r - 1)) := by
  subst ho
  unfold wr
  rw [if_pos (by simp [ones]; omega)]
  obtain ⟨r', rfl⟩ : ∃ r', r = r' + 1 := ⟨r - 1, by omega⟩
  simp [ones, List.replicate_succ]

theorem slice_at (w e t : List Bool) (o n : Nat) (ho : w.length = o) (hn : e.length = n) :
    slice (w ++ e ++ t) o n = .ok e := by
  subst ho hn
  rw [slice_ok (by simp)]
  simp

theorem putC16 (ft tav : Nat) (hf : ft = 0x0F ∨ ft = 0x1A) (err : Bool) :
    putC (zeros 16 ++ ones 308) ft tav err 17 24 25 = .ok ((zeros 16 ++ [true] ++ ctl ft tav err) ++ ones 298) := by
  unfold ctl withParity
  rw [oddfun]
  rcases hf with rfl | rfl <;> cases err <;> (show _ = _; kernel_rfl)

/-- the encoder behind the two memset() -/
def enc16 : EncFrame → M (Int × List Bool)
  | .sync i => encSync16 (zeros 16 ++ ones 308) i
  | .data i => encData16 (zeros 16 ++ ones 308) i
  | .none => .ok (-EINVAL, zeros 16 ++ ones 308)

theorem start16 (b : List Bool) (hb : b.length = 324) (f : EncFrame) : encode16 b f = enc16 f := by
  unfold encode16
  rw [blit_ok (by simp [hb]), bind_ok, blit_ok (by simp [hb]), bind_ok]
  have : List.take 16 (List.take 0 b ++ List.replicate 16 false ++ List.drop (0 + (List.replicate 16 false).length) b) ++
      List.replicate 308 true ++ List.drop (16 + (List.replicate 308 true).length)
        (List.take 0 b ++ List.replicate 16 false ++ List.drop (0 + (List.replicate 16 false).length) b) = zeros 16 ++ ones 308 := by
    obtain ⟨f, rfl⟩ := exists_L' hb
    kernel_rfl
  rw [this]
  cases f <;> rfl

theorem mode16_eq (m : ChMod) : mode16 m = modeDl16 m := by cases m <;> rfl
theorem modeDl16_length (m : ChMod) : (modeDl16 m).length = 2 := by cases m <;> rfl

theorem ctl_length (ft tav : Nat) (err : Bool) : (ctl ft tav err).length = 9 := by simp [ctl, withParity]

theorem encode16_data (b : List Bool) (hb : b.length = 324) (i : PcuData) (hd : i.data.length = 155)
    (e : List Bool) (he : csDl16 i.cs = some e) : encode16 b (.data i) = .ok (timing16 i.tav, pcuData16 i e) := by
  rw [start16 b hb]
  unfold enc16 encData16
  dsimp only
  rw [putC16 _ _ (.inr rfl), bind_ok]
  have hcs : csE16 i.cs = some e := by
    cases hc : i.cs <;> rw [hc] at he <;> simp [csDl16] at he <;> subst he <;> rfl
  have hel : e.length = 2 := by
    cases hc : i.cs <;> rw [hc] at he <;> simp [csDl16] at he <;> subst he <;> rfl
  simp only [hcs, mode16_eq, msbBits_eq]
  have hc9 := ctl_length 0x1A i.tav i.ulFrameErr
  have hm2 := modeDl16_length i.mode
  generalize hC : ctl 0x1A i.tav i.ulFrameErr = C at *
  generalize hM : modeDl16 i.mode = Mo at *
  have hP : (zeros 16 ++ [true] ++ C).length = 26 := by simp [zeros, hc9]
  generalize hPd : zeros 16 ++ [true] ++ C = P at *
  rw [blit_at P e 298 26 hP (by omega), bind_ok, hel]
  rw [blit_at (P ++ e) Mo 296 28 (by simp [hP, hel]) (by omega), bind_ok, hm2]
  rw [blit_at (P ++ e ++ Mo) (msb 8 i.timingOffset) 294 30 (by simp [hP, hel, hm2]) (by simp), bind_ok, msb_length]
  rw [blit_at (P ++ e ++ Mo ++ msb 8 i.timingOffset) (msb 4 i.attenDb) 286 38 (by simp [hP, hel, hm2]) (by simp), bind_ok, msb_length]
  have hE : (e ++ Mo ++ msb 8 i.timingOffset ++ msb 4 i.attenDb).length = 16 := by simp [hel, hm2]
  have hEd : P ++ e ++ Mo ++ msb 8 i.timingOffset ++ msb 4 i.attenDb = P ++ (e ++ Mo ++ msb 8 i.timingOffset ++ msb 4 i.attenDb) := by
    simp [List.append_assoc]
  have hfin : pcuData16 i e = P ++ withParity (e ++ Mo ++ msb 8 i.timingOffset ++ msb 4 i.attenDb) ++ payload16 i := by
    unfold pcuData16; rw [hC, hPd, hM]
  rw [hEd, hfin]
  generalize e ++ Mo ++ msb 8 i.timingOffset ++ msb 4 i.attenDb = E at *
  rw [slice_at P E _ 26 16 hP hE, bind_ok, wr_at (P ++ E) _ 282 42 (by simp [hP, hE]) (by omega), bind_ok, calcParity_eq]
  have hQ : P ++ E ++ [odd E] = P ++ withParity E := by simp [withParity]
  rw [hQ]
  have hQ' : (P ++ withParity E).length = 43 := by simp [withParity, hP, hE]
  generalize P ++ withParity E = Q at *
  rw [dataBits_eq i.data 184 0 (by omega), dataBits_eq i.data 271 0 (by omega)]
  simp only [bind_ok, List.drop_zero]
  have hbl := bitsOf_length i.data
  have l184 : ((bitsOf i.data).take 184).length = 184 := by rw [List.length_take]; omega
  have l271 : ((bitsOf i.data).take 271).length = 271 := by rw [List.length_take]; omega
  unfold payload16
  cases hc : i.cs <;> rw [hc] at he <;> simp only [csDl16] at he <;> cases he <;> dsimp only
  · rw [blit_at Q _ 281 43 hQ' (by omega), bind_ok, l184, slice_at Q _ _ 43 184 hQ' l184, bind_ok, crc16_eq]
    have hcl : (crc ((bitsOf i.data).take 184)).length = 16 := by rw [← crc16_eq, crc16_length]
    rw [blit_at (Q ++ (bitsOf i.data).take 184) _ 97 (43 + 184) (by rw [List.length_append, hQ', l184]) (by omega), bind_ok, hcl]
    simp only [List.append_assoc]
  · rw [blit_at Q _ 281 43 hQ' (by omega), bind_ok, l271]
    simp only [List.append_assoc]

/-- **C36, encoder, data frames.**  (a) CS-1 and CS-2. -/
theorem C36_encode_data (b : List Bool) (hb : b.length = 324) (i : PcuData) (ht : i.tav < 3) (hd : i.data.length = 155)
    (e : List Bool) (he : csDl16 i.cs = some e) : encode16 b (.data i) = .ok (txLen 16 i.tav, pcuData16 i e) := by
  rw [encode16_data b hb i hd e he, timing16_eq _ ht]

/-- (b) all other coding schemes are refused -/
theorem C36_encode_refused (b : List Bool) (hb : b.length = 324) (i : PcuData) (he : csDl16 i.cs = none) :
    ∃ b', b'.length = 324 ∧ encode16 b (.data i) = .ok (-EINVAL, b') := by
  rw [start16 b hb]
  unfold enc16 encData16
  dsimp only
  rw [putC16 _ _ (.inr rfl), bind_ok]
  have hcs : csE16 i.cs = none := by
    cases hc : i.cs <;> rw [hc] at he <;> simp [csDl16] at he <;> rfl
  rw [hcs]
  exact ⟨_, by simp only [List.length_append, ctl_length]; rfl, rfl⟩

end Verif.Ericsson
