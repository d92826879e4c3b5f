import Verif.Props.Ericsson16
/-! # Ericsson GPRS TRAU frames, 64 kbit/s: the decoder (C37) -/
namespace Verif.Ericsson
open Verif Spec
open Verif.RaaPrime (bind_ok bind_err)
set_option maxRecDepth 10000

theorem get170 (f : Nat → Bool) : getUint32 (L 1280 f) 1280 tBits64 170 22 = .ok (msbVal (fld (L 1280 f) 170 22)) := by kernel_rfl
theorem get234 (f : Nat → Bool) : getUint32 (L 1280 f) 1280 tBits64 234 22 = .ok (msbVal (fld (L 1280 f) 234 22)) := by kernel_rfl
theorem get298 (f : Nat → Bool) : getUint32 (L 1280 f) 1280 tBits64 298 22 = .ok (msbVal (fld (L 1280 f) 298 22)) := by kernel_rfl

theorem decSync64_ok (b : List Bool) (hb : b.length = 1280) (hs : fld b 0 64 = zeros 64) (hft : fld b 65 5 = lsb 5 0x15) :
    ∃ r, decSync64 b = .ok r ∧ ∀ i, r = some i ↔ IsCcuSync64 b i := by
  obtain ⟨x24, r24, f24⟩ := rd_fld b 72 (by omega)
  obtain ⟨x25, r25, f25⟩ := rd_fld b 73 (by omega)
  obtain ⟨x26, r26, f26⟩ := rd_fld b 74 (by omega)
  obtain ⟨x27, r27, f27⟩ := rd_fld b 75 (by omega)
  have g1 : getUint32 b 1280 tBits64 170 22 = .ok (msbVal (fld b 170 22)) := by
    obtain ⟨f, rfl⟩ := exists_L' hb; exact get170 f
  have g2 : getUint32 b 1280 tBits64 234 22 = .ok (msbVal (fld b 234 22)) := by
    obtain ⟨f, rfl⟩ := exists_L' hb; exact get234 f
  have g3 : getUint32 b 1280 tBits64 298 22 = .ok (msbVal (fld b 298 22)) := by
    obtain ⟨f, rfl⟩ := exists_L' hb; exact get298 f
  have hT : (∀ j ∈ (List.range 19).map fun k => 64 + k * 64, fld b j 1 = [true]) ↔ ∀ k, k < 19 → fld b (64 + 64 * k) 1 = [true] := by
    simp [Nat.mul_comm]
  unfold decSync64
  rw [allOnes_eq b _ (by simp [hb]; intro a h; omega), bind_ok, slice_fld b 65 8 (by omega), slice_fld b 70 2 (by omega), r24, r25, r26, r27, g1, g2, g3]
  simp only [bind_ok, calcParity_eq, hT]
  have hl1 := fld_length b 70 2 (by omega)
  have l1 := fld_length b 170 22 (by omega)
  have l2 := fld_length b 234 22 (by omega)
  have l3 := fld_length b 298 22 (by omega)
  have ho : odd [x26] = !x26 := by cases x26 <;> rfl
  by_cases h1 : ∀ k, k < 19 → fld b (64 + 64 * k) 1 = [true]
  rotate_left
  · refine ⟨none, by rw [if_pos (by simpa using h1)], fun i => ⟨(nomatch ·), fun h => absurd h.t h1⟩⟩
  rw [if_neg (by simpa using h1)]
  by_cases h2 : odd (fld b 65 8) = x25
  rotate_left
  · refine ⟨none, by rw [if_pos h2], fun i => ⟨(nomatch ·), fun h => ?_⟩⟩
    have hc := h.pc
    rw [f25, singleton_inj] at hc
    exact absurd hc.symm h2
  rw [if_neg (by simp [h2])]
  by_cases h3 : x26 = !x27
  rotate_left
  · refine ⟨none, by rw [if_pos h3], fun i => ⟨(nomatch ·), fun h => ?_⟩⟩
    have he := h.pe
    rw [f27, f26, ho, singleton_inj] at he
    rw [he] at h3
    simp at h3
  rw [if_neg (by simp [h3])]
  refine ⟨_, rfl, fun i => ⟨?_, ?_⟩⟩
  · intro h
    have h := (Option.some.inj h).symm
    subst h
    refine ⟨hs, h1, hft, (lsbVal_iff hl1).1 rfl, by simp [f24], ?_, by simp [f26], ?_,
      (msbVal_iff l1).1 rfl, (msbVal_iff l2).1 rfl, (msbVal_iff l3).1 rfl⟩
    · rw [f25, h2]
    · rw [f27, f26, ho, h3]; simp
  · intro h
    rw [(lsbVal_iff hl1).2 h.tav, (msbVal_iff l1).2 h.pseq, (msbVal_iff l2).2 h.ul, (msbVal_iff l3).2 h.dl]
    have h24 := h.c8
    have h26 := h.e1
    rw [f24, singleton_inj] at h24
    rw [f26, singleton_inj] at h26
    rw [h24, h26]; simp

/-! ### CPS and MCS -/

theorem num_eq (l : List Bool) : num l = lsbVal l := by
  induction l with
  | nil => rfl
  | cons b l ih => show b.toNat + 2 * num l = _; rw [ih, lsbVal]

theorem cps_b1 : ∀ x : Byte, x.toNat &&& 0x1f = num [x.getLsbD 0, x.getLsbD 1, x.getLsbD 2, x.getLsbD 3, x.getLsbD 4] := by decide +kernel
theorem cps_b2 : ∀ x : Byte, (x.toNat >>> 6) &&& 3 = num [x.getLsbD 6, x.getLsbD 7] := by decide +kernel
theorem cps_b3 : ∀ x : Byte, (x.toNat <<< 2) &&& 4 = num [false, false, x.getLsbD 0] := by decide +kernel
theorem cps_b4 : ∀ x : Byte, (x.toNat <<< 2) &&& 0xC = num [false, false, x.getLsbD 0, x.getLsbD 1] := by decide +kernel
theorem cps_b5 : ∀ x : Byte, (x.toNat >>> 3) &&& 0x1f = num [x.getLsbD 3, x.getLsbD 4, x.getLsbD 5, x.getLsbD 6, x.getLsbD 7] := by decide +kernel
theorem cps_b6 : ∀ x : Byte, (x.toNat >>> 1) &&& 7 = num [x.getLsbD 1, x.getLsbD 2, x.getLsbD 3] := by decide +kernel
theorem cps_b7 : ∀ x : Byte, (x.toNat >>> 1) &&& 0xf = num [x.getLsbD 1, x.getLsbD 2, x.getLsbD 3, x.getLsbD 4] := by decide +kernel
theorem cps_o3 : ∀ a b c : Bool, num [a, b] ||| num [false, false, c] = num [a, b, c] := by decide +kernel
theorem cps_o4 : ∀ a b c d : Bool, num [a, b] ||| num [false, false, c, d] = num [a, b, c, d] := by decide +kernel

def isHdr (cs : Cs) : Prop := cs = .hdr1 ∨ cs = .hdr2 ∨ cs = .hdr3

theorem cpsUl_eq (d : List Byte) (hd : d.length = 155) (cs : Cs) (h : isHdr cs) :
    cpsFromBlock d cs true = .ok (some (num (cpsUl cs (bitsOf d)))) := by
  obtain ⟨g, rfl⟩ := exists_L' hd
  have e2 : rd (L 155 g) 2 = .ok (g 2) := rfl
  have e3 : rd (L 155 g) 3 = .ok (g 3) := rfl
  have e4 : rd (L 155 g) 4 = .ok (g 4) := rfl
  unfold cpsFromBlock
  rw [e2, e3, e4]
  simp only [bind_ok]
  rcases h with rfl | rfl | rfl
  · show (.ok (some _) : M _) = .ok (some _)
    rw [cps_b1, show cpsUl .hdr1 (bitsOf (L 155 g)) = [(g 4).getLsbD 0, (g 4).getLsbD 1, (g 4).getLsbD 2, (g 4).getLsbD 3, (g 4).getLsbD 4] from by kernel_rfl]
  · show (.ok (some _) : M _) = .ok (some _)
    rw [cps_b2, cps_b3, cps_o3, show cpsUl .hdr2 (bitsOf (L 155 g)) = [(g 2).getLsbD 6, (g 2).getLsbD 7, (g 3).getLsbD 0] from by kernel_rfl]
  · show (.ok (some _) : M _) = .ok (some _)
    rw [cps_b2, cps_b4, cps_o4, show cpsUl .hdr3 (bitsOf (L 155 g)) = [(g 2).getLsbD 6, (g 2).getLsbD 7, (g 3).getLsbD 0, (g 3).getLsbD 1] from by kernel_rfl]

theorem cpsDl_eq (d : List Byte) (hd : d.length = 155) (cs : Cs) (h : isHdr cs) :
    cpsFromBlock d cs false = .ok (some (num (cpsDl cs (bitsOf d)))) := by
  obtain ⟨g, rfl⟩ := exists_L' hd
  have e2 : rd (L 155 g) 2 = .ok (g 2) := rfl
  have e3 : rd (L 155 g) 3 = .ok (g 3) := rfl
  have e4 : rd (L 155 g) 4 = .ok (g 4) := rfl
  unfold cpsFromBlock
  rw [e2, e3, e4]
  simp only [bind_ok]
  rcases h with rfl | rfl | rfl
  · show (.ok (some _) : M _) = .ok (some _)
    rw [cps_b5, show cpsDl .hdr1 (bitsOf (L 155 g)) = [(g 4).getLsbD 3, (g 4).getLsbD 4, (g 4).getLsbD 5, (g 4).getLsbD 6, (g 4).getLsbD 7] from by kernel_rfl]
  · show (.ok (some _) : M _) = .ok (some _)
    rw [cps_b6, show cpsDl .hdr2 (bitsOf (L 155 g)) = [(g 3).getLsbD 1, (g 3).getLsbD 2, (g 3).getLsbD 3] from by kernel_rfl]
  · show (.ok (some _) : M _) = .ok (some _)
    rw [cps_b7, show cpsDl .hdr3 (bitsOf (L 155 g)) = [(g 3).getLsbD 1, (g 3).getLsbD 2, (g 3).getLsbD 3, (g 3).getLsbD 4] from by kernel_rfl]

theorem mcs_tab : ∀ cs ∈ [Cs.hdr1, .hdr2, .hdr3], ∀ cps ∈ List.range 32, mcsFromCps cps cs = mcsOf cs cps := by decide +kernel

theorem mcs_eq (cs : Cs) (h : isHdr cs) (cps : Nat) (hc : cps < 32) : mcsFromCps cps cs = mcsOf cs cps :=
  mcs_tab cs (by rcases h with rfl | rfl | rfl <;> simp) cps (by simpa using hc)

theorem mcs_bits_ul : ∀ cs ∈ [Cs.hdr1, .hdr2, .hdr3], ∀ cps ∈ List.range 32, ∀ m ∈ (mcsOf cs cps).toList,
    mcsBitsUl m = if m = 9 then none else some (mcsBits (hdrUl cs) m, (mcsBits (hdrUl cs) m + 7) / 8) := by decide +kernel

theorem mcs_bits_range : ∀ cs ∈ [Cs.hdr1, .hdr2, .hdr3], ∀ cps ∈ List.range 32, ∀ m ∈ (mcsOf cs cps).toList,
    m ≠ 9 → 40 ≤ mcsBits (hdrUl cs) m ∧ mcsBits (hdrUl cs) m ≤ 1138 := by decide +kernel

theorem fld_fld (b : List Bool) (o n o' n' : Nat) (h : o' + n' ≤ n) : fld (fld b o n) o' n' = fld b (o + o') n' := by
  unfold fld
  rw [List.drop_take, List.drop_drop, List.take_take, Nat.min_eq_left (by omega)]

theorem cpsUl_prefix (cs : Cs) (a z : List Bool) (h : a.length = 40) : cpsUl cs (a ++ z) = cpsUl cs a := by
  have : ∀ o n, o + n ≤ 40 → fld (a ++ z) o n = fld a o n := by
    intro o n hon
    unfold fld
    rw [List.drop_append_of_le_length (by omega), List.take_append_of_le_length (by simp; omega)]
  unfold cpsUl
  split <;> exact this _ _ (by omega)

theorem num_lt (l : List Bool) : num l < 2 ^ l.length := by rw [num_eq]; exact lsbVal_lt l

theorem cpsUl_lt (cs : Cs) (a : List Bool) : num (cpsUl cs a) < 32 := by
  have h := num_lt (cpsUl cs a)
  have hl : (cpsUl cs a).length ≤ 5 := by
    unfold cpsUl fld
    split <;> simp <;> omega
  exact Nat.lt_of_lt_of_le h (Nat.pow_le_pow_right (by omega) hl)

theorem mcsBlock_ok (b : List Bool) (hb : b.length = 1280) (cs : Cs) (h : isHdr cs) (d : List Byte)
    (hd : Delivers d (fld b 134 40)) (mk : List Byte → Nat → CcuData) :
    ∃ r, (match mcsFromCps (num (cpsUl cs (bitsOf d))) cs with
        | none => .ok (some (mk d 0))
        | some mcs =>
          match mcsBitsUl mcs with
          | none => .ok none
          | some (n, len) => do
            let d ← packData d b 134 n
            .ok (some (mk d len)) : M (Option CcuData)) = .ok r ∧
      ((r = none ∧ ∀ d' l', ¬ IsMcsBlock b cs d' l') ∨
        ∃ d' l', r = some (mk d' l') ∧ IsMcsBlock b cs d' l') := by
  have l40 := fld_length b 134 40 (by omega)
  have hc : cpsUl cs (bitsOf d) = cpsUl cs (fld b 134 40) := by rw [hd.2, cpsUl_prefix _ _ _ l40]
  rw [hc, mcs_eq cs h _ (cpsUl_lt _ _)]
  have hmem : cs ∈ [Cs.hdr1, .hdr2, .hdr3] := by rcases h with rfl | rfl | rfl <;> simp
  have hr : num (cpsUl cs (fld b 134 40)) ∈ List.range 32 := by simpa using cpsUl_lt _ _
  cases hm : mcsOf cs (num (cpsUl cs (fld b 134 40))) with
  | none =>
    refine ⟨_, rfl, .inr ⟨d, 0, rfl, ?_⟩⟩
    unfold IsMcsBlock
    rw [hm]
    exact ⟨hd, rfl⟩
  | some mcs =>
    have hbits := mcs_bits_ul cs hmem _ hr mcs (by rw [hm]; simp)
    have hrange := mcs_bits_range cs hmem _ hr mcs (by rw [hm]; simp)
    dsimp only
    rw [hbits]
    by_cases h9 : mcs = 9
    · rw [if_pos h9]
      refine ⟨none, rfl, .inl ⟨rfl, fun d' l' hx => ?_⟩⟩
      unfold IsMcsBlock at hx
      rw [hm] at hx
      exact hx.1 h9
    · rw [if_neg h9]
      obtain ⟨hlo, hhi⟩ := hrange h9
      dsimp only
      have ln := fld_length b 134 (mcsBits (hdrUl cs) mcs) (by omega)
      have hl155 : d.length = 155 := hd.1
      obtain ⟨d', e1, e2, e3⟩ := packLsb_eq (fld b 134 (mcsBits (hdrUl cs) mcs)) d 0 (by rw [ln]; omega)
      have hdel : Delivers d' (fld b 134 (mcsBits (hdrUl cs) mcs)) := by
        refine ⟨by rw [e2]; exact hd.1, ?_⟩
        have hb2 := hd.2
        rw [e3, hb2, l40, ln]
        simp only [List.take_zero, List.nil_append, Nat.zero_add]
        congr 1
        rw [List.drop_append, List.drop_of_length_le (by omega), List.nil_append, l40]
        unfold zeros
        rw [List.drop_replicate]
        congr 1
        omega
      unfold packData
      rw [slice_fld b 134 _ (by omega), bind_ok, e1, bind_ok]
      refine ⟨_, rfl, .inr ⟨d', _, rfl, ?_⟩⟩
      unfold IsMcsBlock
      rw [hm]
      exact ⟨h9, hdel, rfl⟩

theorem mcsBlock_unique (b : List Bool) (cs : Cs) (d d' : List Byte) (l l' : Nat) (h : IsMcsBlock b cs d l) (h' : IsMcsBlock b cs d' l') :
    d = d' ∧ l = l' := by
  unfold IsMcsBlock at h h'
  generalize mcsOf cs (num (cpsUl cs (fld b 134 40))) = m at h h'
  cases m
  · exact ⟨Delivers.inj h.1 h'.1, h.2.trans h'.2.symm⟩
  · exact ⟨Delivers.inj h.2.1 h'.2.1, h.2.2.trans h'.2.2.symm⟩

/-! ### data frames -/

/-- what the data part of the frame demands -/
def Pay (b : List Bool) (cs : Cs) (data : List Byte) (len : Nat) (ab : List Ab) : Prop :=
  match cs with
  | .cs1 => Delivers data (fld b 134 184) ∧ fld b (134 + 184) 16 = crc (fld b 134 184) ∧ len = 23 ∧ ab = []
  | .cs2 => Delivers data (fld b 134 271) ∧ len = 34 ∧ ab = []
  | .cs3 => Delivers data (fld b 134 315) ∧ len = 40 ∧ ab = []
  | .cs4 => Delivers data (fld b 134 431) ∧ len = 54 ∧ ab = []
  | .ab => Delivers data (fld b 144 256) ∧ len = 32 ∧ AreAbs data ab
  | .hdr1 => IsMcsBlock b .hdr1 data len ∧ ab = []
  | .hdr2 => IsMcsBlock b .hdr2 data len ∧ ab = []
  | .hdr3 => IsMcsBlock b .hdr3 data len ∧ ab = []

theorem AreAbs.unique {d : List Byte} (hd : d.length = 155) {a a' : List Ab} (h : AreAbs d a) (h' : AreAbs d a') : a = a' := by
  obtain ⟨r, _, hi⟩ := decodeAbs4 d hd
  exact Option.some.inj (((hi a).2 h).symm.trans ((hi a').2 h'))

theorem Pay.unique {b : List Bool} {cs : Cs} {d d' : List Byte} {l l' : Nat} {a a' : List Ab} (h : Pay b cs d l a) (h' : Pay b cs d' l' a') :
    d = d' ∧ l = l' ∧ a = a' := by
  cases cs <;> unfold Pay at h h' <;> dsimp only at h h'
  case ab =>
    have e := Delivers.inj h.1 h'.1
    subst e
    exact ⟨rfl, h.2.1.trans h'.2.1.symm, AreAbs.unique h.1.1 h.2.2 h'.2.2⟩
  case cs1 => exact ⟨Delivers.inj h.1 h'.1, h.2.2.1.trans h'.2.2.1.symm, h.2.2.2.trans h'.2.2.2.symm⟩
  case cs2 => exact ⟨Delivers.inj h.1 h'.1, h.2.1.trans h'.2.1.symm, h.2.2.trans h'.2.2.symm⟩
  case cs3 => exact ⟨Delivers.inj h.1 h'.1, h.2.1.trans h'.2.1.symm, h.2.2.trans h'.2.2.symm⟩
  case cs4 => exact ⟨Delivers.inj h.1 h'.1, h.2.1.trans h'.2.1.symm, h.2.2.trans h'.2.2.symm⟩
  all_goals
    obtain ⟨e1, e2⟩ := mcsBlock_unique _ _ _ _ _ _ h.1 h'.1
    exact ⟨e1, e2, h.2.trans h'.2.symm⟩

/-- the payload part of decData64 -/
def pay64 (b : List Bool) (cs : Cs) (mk : List Byte → Nat → List Ab → CcuData) : M (Option CcuData) :=
    match cs with
    | .cs1 => do
      let d ← packData data0 b 134 184
      let ok ← crcOk b 134
      if ok then .ok (some (mk d 23 [])) else .ok none
    | .cs2 => do
      let d ← packData data0 b 134 271
      .ok (some (mk d 34 []))
    | .cs3 => do
      let d ← packData data0 b 134 315
      .ok (some (mk d 40 []))
    | .cs4 => do
      let d ← packData data0 b 134 431
      .ok (some (mk d 54 []))
    | .ab => do
      let d ← packData data0 b 144 256
      match ← decodeAbs d 4 0 with
      | none => .ok none
      | some ab => .ok (some (mk d 32 ab))
    | _ => do
      let d ← packData data0 b 134 40
      match ← cpsFromBlock d cs true with
      | none => .ok (some (mk d 0 []))
      | some cps =>
        match mcsFromCps cps cs with
        | none => .ok (some (mk d 0 []))
        | some mcs =>
          match mcsBitsUl mcs with
          | none => .ok none
          | some (n, len) => do
            let d ← packData d b 134 n
            .ok (some (mk d len []))

theorem pay_hdr (b : List Bool) (hb : b.length = 1280) (cs : Cs) (h : isHdr cs) (mk : List Byte → Nat → List Ab → CcuData) :
    ∃ r, pay64 b cs mk = .ok r ∧ ((r = none ∧ ∀ d l ab, ¬ Pay b cs d l ab) ∨ ∃ d l ab, r = some (mk d l ab) ∧ Pay b cs d l ab) := by
  obtain ⟨d, hd, hdel⟩ := packData_eq b 134 40 (by omega) (by omega)
  have hcps := cpsUl_eq d hdel.1 cs h
  obtain ⟨r, hr, hx⟩ := mcsBlock_ok b hb cs h d hdel (fun d l => mk d l [])
  refine ⟨r, ?_, ?_⟩
  · rcases h with rfl | rfl | rfl <;> (unfold pay64; dsimp only; rw [hd, bind_ok, hcps, bind_ok]; exact hr)
  · rcases hx with ⟨h1, h2⟩ | ⟨d', l', h1, h2⟩
    · refine .inl ⟨h1, fun d l ab hp => ?_⟩
      rcases h with rfl | rfl | rfl <;> exact h2 d l hp.1
    · refine .inr ⟨d', l', [], h1, ?_⟩
      rcases h with rfl | rfl | rfl <;> exact ⟨h2, rfl⟩

theorem pay_ok (b : List Bool) (hb : b.length = 1280) (cs : Cs) (mk : List Byte → Nat → List Ab → CcuData) :
    ∃ r, pay64 b cs mk = .ok r ∧ ((r = none ∧ ∀ d l ab, ¬ Pay b cs d l ab) ∨ ∃ d l ab, r = some (mk d l ab) ∧ Pay b cs d l ab) := by
  cases hc : cs
  case hdr1 => exact pay_hdr b hb _ (.inl rfl) mk
  case hdr2 => exact pay_hdr b hb _ (.inr (.inl rfl)) mk
  case hdr3 => exact pay_hdr b hb _ (.inr (.inr rfl)) mk
  case cs1 =>
    obtain ⟨d, hd, hdel⟩ := packData_eq b 134 184 (by omega) (by omega)
    unfold pay64
    simp only [hd, bind_ok, crcOk_eq b 134 (by omega)]
    by_cases hcrc : fld b (134 + 184) 16 = crc (fld b 134 184)
    · rw [decide_eq_true hcrc]
      exact ⟨_, rfl, .inr ⟨d, 23, [], rfl, hdel, hcrc, rfl, rfl⟩⟩
    · rw [decide_eq_false hcrc]
      exact ⟨none, rfl, .inl ⟨rfl, fun d l ab h => hcrc h.2.1⟩⟩
  case cs2 =>
    obtain ⟨d, hd, hdel⟩ := packData_eq b 134 271 (by omega) (by omega)
    unfold pay64
    simp only [hd, bind_ok]
    exact ⟨_, rfl, .inr ⟨d, 34, [], rfl, hdel, rfl, rfl⟩⟩
  case cs3 =>
    obtain ⟨d, hd, hdel⟩ := packData_eq b 134 315 (by omega) (by omega)
    unfold pay64
    simp only [hd, bind_ok]
    exact ⟨_, rfl, .inr ⟨d, 40, [], rfl, hdel, rfl, rfl⟩⟩
  case cs4 =>
    obtain ⟨d, hd, hdel⟩ := packData_eq b 134 431 (by omega) (by omega)
    unfold pay64
    simp only [hd, bind_ok]
    exact ⟨_, rfl, .inr ⟨d, 54, [], rfl, hdel, rfl, rfl⟩⟩
  case ab =>
    obtain ⟨d, hd, hdel⟩ := packData_eq b 144 256 (by omega) (by omega)
    obtain ⟨r, hr, hab⟩ := decodeAbs4 d hdel.1
    unfold pay64
    simp only [hd, bind_ok, hr]
    cases r with
    | none =>
      refine ⟨none, rfl, .inl ⟨rfl, fun d' l ab h => ?_⟩⟩
      have h4 := h.2.2
      rw [Delivers.inj h.1 hdel] at h4
      exact absurd ((hab _).2 h4) (by simp)
    | some ab => exact ⟨_, rfl, .inr ⟨d, 32, ab, rfl, hdel, rfl, (hab _).1 rfl⟩⟩

/-- the payload conditions of the specification, for one coding scheme -/
theorem pay_iff (b : List Bool) (j : CcuData) :
    ((j.cs ≠ .ab → j.ab = []) ∧
      (j.cs = .cs1 → Delivers j.data (fld b 134 184) ∧ fld b (134 + 184) 16 = crc (fld b 134 184) ∧ j.dataLen = 23) ∧
      (j.cs = .cs2 → Delivers j.data (fld b 134 271) ∧ j.dataLen = 34) ∧
      (j.cs = .cs3 → Delivers j.data (fld b 134 315) ∧ j.dataLen = 40) ∧
      (j.cs = .cs4 → Delivers j.data (fld b 134 431) ∧ j.dataLen = 54) ∧
      (j.cs = .hdr1 ∨ j.cs = .hdr2 ∨ j.cs = .hdr3 → IsMcsBlock b j.cs j.data j.dataLen) ∧
      (j.cs = .ab → Delivers j.data (fld b 144 256) ∧ j.dataLen = 32 ∧ AreAbs j.data j.ab)) ↔
    Pay b j.cs j.data j.dataLen j.ab := by
  unfold Pay
  cases hc : j.cs <;> simp [and_assoc, and_comm, and_left_comm]

end Verif.Ericsson
