import Verif.Proof.TrauSym
/-!
# C23..C29, C63..C69: the TRAU frame codec (16k and 8k)
-/
namespace Verif.Trau
open Verif.Spec Verif.Spec.Trau
open Verif.OldTrau (memcpy getBits)
open Verif.RaaPrime (bind_ok bind_err)
set_option maxRecDepth 10000
set_option linter.unusedSimpArgs false

/-- The requested time alignment is small enough not to overflow `dl_ta_usec * 4` (about 9 minutes). -/
def TaOk (f : Frame) : Prop := -536870912 ≤ f.ta ∧ f.ta ≤ 536870911

theorem exists_SF2 {f : Frame} (h : f.WF) :
    ∃ ty dir ta c d t s m u crc xc, f = SF ty dir ta c d t s m u crc xc := by
  obtain ⟨c, d, t, s, m, crc, xc, h0⟩ := exists_SF h
  exact ⟨_, _, _, c, d, t, s, m, _, crc, xc, h0⟩

private theorem finish_spec (f : Frame) (b : List Bool) (ht : f.type ∈ allTypes)
    (hb : minBits f.type ≤ b.length) (hta : TaOk f) :
    ∃ (n : Int) (e : List Bool), finish f b = .ok (frameBits f.type + n, e) ∧ e.length = b.length ∧
      e.take (frameBits f.type) = b.take (frameBits f.type) ∧
      0 < frameBits f.type + n ∧ frameBits f.type + n ≤ b.length ∧
      e.drop (frameBits f.type + n.toNat) = b.drop (frameBits f.type + n.toNat) := by
  have hfr : frameBits f.type = 320 ∧ f.type ∈ types16 ∨
      frameBits f.type = 160 ∧ f.type ∉ types16 := by
    unfold frameBits; split <;> simp_all
  unfold finish
  have h16 : 639 ≤ b.length → ∃ (n : Int) (e : List Bool),
      handleTa16 b f = .ok (320 + n, e) ∧ e.length = b.length ∧
      e.take 320 = b.take 320 ∧ 0 < 320 + n ∧ 320 + n ≤ b.length ∧
      e.drop (320 + n.toNat) = b.drop (320 + n.toNat) := by
    intro hb
    obtain ⟨n, e, h1, h2, h3, h4, h5, _, _, _, _, h6⟩ := handleTa16_spec b f hb hta.1 hta.2
    exact ⟨n, e, h1, h2, h3, by omega, by omega, h6⟩
  have h8 : 319 ≤ b.length → ∃ (n : Int) (e : List Bool),
      handleTa8 b f = .ok (160 + n, e) ∧ e.length = b.length ∧
      e.take 160 = b.take 160 ∧ 0 < 160 + n ∧ 160 + n ≤ b.length ∧
      e.drop (160 + n.toNat) = b.drop (160 + n.toNat) := by
    intro hb
    obtain ⟨n, e, h1, h2, h3, h4, h5, _, _, _, h6⟩ := handleTa8_spec b f hb
      (by have := hta.1; omega) (by have := hta.2; omega)
    exact ⟨n, e, h1, h2, h3, by omega, by omega, h6⟩
  have h0 : ∀ k : Nat, 0 < k → k ≤ b.length → ∃ (n : Int) (e : List Bool),
      (.ok ((k : Int), b) : M (Int × List Bool)) = .ok (k + n, e) ∧ e.length = b.length ∧
      e.take k = b.take k ∧ 0 < k + n ∧ k + n ≤ b.length ∧
      e.drop (k + n.toNat) = b.drop (k + n.toNat) := by
    intro k hk hb
    exact ⟨0, b, by simp, rfl, rfl, by omega, by omega, rfl⟩
  revert ht hb hfr
  cases f.type <;> simp only [allTypes, types16, minBits, frameBits] <;> intro ht hb hfr <;>
    first
    | exact h16 hb
    | exact h8 hb
    | exact h0 320 (by omega) hb
    | exact h0 160 (by omega) hb
    | simp at ht

/-- the number of bits by which a frame is lengthened -/
private def nOf (f : Frame) : Int :=
  match f.type with
  | .fr | .efr | .hr | .amr =>
    match f.dir with
    | .ul => 0
    | .dl => if (f.ta * 4).tdiv 250 ≤ 312 then max (-4) ((f.ta * 4).tdiv 250) else 39
  | .speech8 | .amrLow8 | .amr67 | .amr74 =>
    match f.dir with
    | .ul => 0
    | .dl => max (-2) (min 158 ((f.ta * 2).tdiv 250))
  | _ => 0

private theorem finish_spec' (f : Frame) (b : List Bool) (ht : f.type ∈ allTypes)
    (hb : minBits f.type ≤ b.length) (hta : TaOk f) :
    ∃ (n : Int) (e : List Bool), finish f b = .ok (frameBits f.type + n, e) ∧ e.length = b.length ∧
      e.take (frameBits f.type) = b.take (frameBits f.type) ∧
      (e.drop (frameBits f.type)).take n.toNat = List.replicate n.toNat true ∧
      e.drop (frameBits f.type + n.toNat) = b.drop (frameBits f.type + n.toNat) ∧ n = nOf f := by
  have hfr : frameBits f.type = 320 ∧ f.type ∈ types16 ∨
      frameBits f.type = 160 ∧ f.type ∉ types16 := by
    unfold frameBits; split <;> simp_all
  unfold finish nOf
  have h16 : 639 ≤ b.length → ∃ (n : Int) (e : List Bool),
      handleTa16 b f = .ok (320 + n, e) ∧ e.length = b.length ∧
      e.take 320 = b.take 320 ∧ (e.drop 320).take n.toNat = List.replicate n.toNat true ∧
      e.drop (320 + n.toNat) = b.drop (320 + n.toNat) ∧
      n = (match f.dir with
        | .ul => 0
        | .dl => if (f.ta * 4).tdiv 250 ≤ 312 then max (-4) ((f.ta * 4).tdiv 250) else 39) := by
    intro hb
    obtain ⟨n, e, h1, h2, h3, h4, h5, g1, g2, g3, h7, h6⟩ := handleTa16_spec b f hb hta.1 hta.2
    refine ⟨n, e, h1, h2, h3, h7, h6, ?_⟩
    cases hd : f.dir with
    | ul => exact g1 hd
    | dl =>
      simp only
      split
      · exact g2 hd (by assumption)
      · exact g3 hd (by omega)
  have h8 : 319 ≤ b.length → ∃ (n : Int) (e : List Bool),
      handleTa8 b f = .ok (160 + n, e) ∧ e.length = b.length ∧
      e.take 160 = b.take 160 ∧ (e.drop 160).take n.toNat = List.replicate n.toNat true ∧
      e.drop (160 + n.toNat) = b.drop (160 + n.toNat) ∧
      n = (match f.dir with
        | .ul => 0
        | .dl => max (-2) (min 158 ((f.ta * 2).tdiv 250))) := by
    intro hb
    obtain ⟨n, e, h1, h2, h3, h4, h5, g1, g2, h7, h6⟩ := handleTa8_spec b f hb
      (by have := hta.1; omega) (by have := hta.2; omega)
    refine ⟨n, e, h1, h2, h3, h7, h6, ?_⟩
    cases hd : f.dir with
    | ul => exact g1 hd
    | dl => exact g2 hd
  have h0 : ∀ k : Nat, 0 < k → k ≤ b.length → ∃ (n : Int) (e : List Bool),
      (.ok ((k : Int), b) : M (Int × List Bool)) = .ok (k + n, e) ∧ e.length = b.length ∧
      e.take k = b.take k ∧ (e.drop k).take n.toNat = List.replicate n.toNat true ∧
      e.drop (k + n.toNat) = b.drop (k + n.toNat) ∧ n = 0 := by
    intro k hk hb
    exact ⟨0, b, by simp, rfl, rfl, by simp, rfl, rfl⟩
  revert ht hb hfr
  cases f.type <;> simp only [allTypes, types16, minBits, frameBits] <;> intro ht hb hfr <;>
    first
    | exact h16 hb
    | exact h8 hb
    | exact h0 320 (by omega) hb
    | exact h0 160 (by omega) hb
    | simp at ht

theorem encode_start (f : Frame) (b : List Bool) (ht : f.type ∈ allTypes)
    (hb : minBits f.type ≤ b.length) : encode b f = bitsFor b f >>= finish f := by
  rw [← dispatch_eq]
  unfold encode
  have : encodeSpace b.length f.type = Option.none := by
    revert ht hb
    cases f.type <;> simp [encodeSpace, minBits, allTypes] <;> omega
  rw [this]

/-- `encode` in terms of what is written into the first `N` bits -/
theorem encode_of (f : Frame) (b : List Bool) (N : Nat) (e0 : List Bool) (ht : f.type ∈ allTypes)
    (hb : minBits f.type ≤ b.length) (hta : TaOk f) (hN : N ≤ b.length)
    (hfr : frameBits f.type ≤ N) (hbits : bitsFor (b.take N) f = .ok e0) :
    e0.length = N ∧ ∃ (n : Int) (e : List Bool), encode b f = .ok (frameBits f.type + n, e) ∧
      e.length = b.length ∧ e.take (frameBits f.type) = e0.take (frameBits f.type) ∧
      0 < frameBits f.type + n ∧ frameBits f.type + n ≤ b.length ∧
      (∀ i, N ≤ i → frameBits f.type + n ≤ i → e[i]? = b[i]?) ∧
      finish f (e0 ++ b.drop N) = .ok (frameBits f.type + n, e) := by
  obtain ⟨hl, hbits⟩ := (local_bitsFor f).lift hN hbits
  refine ⟨hl, ?_⟩
  have hlen : (e0 ++ b.drop N).length = b.length := by simp [hl]; omega
  obtain ⟨n, e, h1, h2, h3, h4, h5, h6⟩ := finish_spec f (e0 ++ b.drop N) ht (by omega) hta
  refine ⟨n, e, ?_, by omega, ?_, h4, by omega, ?_, h1⟩
  · rw [encode_start f b ht hb, hbits]; exact h1
  · rw [h3, List.take_append_of_le_length (by omega)]
  · intro i hi hi2
    have hk : (e.drop (frameBits f.type + n.toNat))[i - (frameBits f.type + n.toNat)]? =
        ((e0 ++ b.drop N).drop (frameBits f.type + n.toNat))[i - (frameBits f.type + n.toNat)]? := by rw [h6]
    rw [List.getElem?_drop, List.getElem?_drop] at hk
    rw [show frameBits f.type + n.toNat + (i - (frameBits f.type + n.toNat)) = i by omega] at hk
    rw [hk, List.getElem?_append_right (by omega), hl, List.getElem?_drop]
    congr 1
    omega

theorem bits_wire (f : Frame) (hf : f.WF) (ht : f.type ∈ wired) (b : List Bool)
    (hb : b.length = frameBits f.type) : bitsFor b f = .ok (wire f) := by
  obtain ⟨ty, dir, ta, c, d, t, s, m, u, crc, xc, rfl⟩ := exists_SF2 hf
  clear hf
  replace ht : ty ∈ wired := ht
  replace hb : b.length = frameBits ty := hb
  simp only [wired, List.mem_cons, List.not_mem_nil, or_false] at ht
  rcases ht with rfl | rfl | rfl | rfl | rfl | rfl | rfl | rfl | rfl | rfl | rfl | rfl
  · cases dir <;> exact emits_fr _ rfl .fr _ ta c d t s m crc xc u b hb
  · cases dir <;> exact emits_fr _ rfl .efr _ ta c d t s m crc xc u b hb
  · exact emits_hr .hr dir ta c d t s m crc xc u b hb
  · exact emits_amr .amr dir ta c d t s m crc xc u b hb
  · exact emits_data .data dir ta c d t s m crc xc u b hb
  · exact emits_dataHr .dataHr dir ta c d t s m crc xc u b hb
  · exact emits_d145 .d145 dir ta c d t s m crc xc u b hb
  · exact emits_edata dir ta c d t s m crc xc u b hb
  · exact emits_hr8 .speech8 dir ta c d t s m crc xc u b hb
  · exact emits_low8 .amrLow8 dir ta c d t s m crc xc u b hb
  · exact emits_74 .amr74 dir ta c d t s m crc xc u b hb
  · exact emits_data8 .data8 dir ta c d t s m crc xc u b hb

private theorem wired_all {t : FT} (h : t ∈ wired) : t ∈ allTypes ∧ frameBits t ≤ minBits t := by
  revert h; cases t <;> simp [wired, allTypes, frameBits, types16, minBits]

/-- **C66** For every frame type but O&M, idle and 8k AMR 6.7 the encoded frame is, bit for bit, the one
laid down in TS 48.060 / TS 48.061, whatever the buffer contained before and whatever time alignment is
applied behind it. -/
theorem C66_wire_layout (f : Frame) (b : List Bool) (hf : f.WF) (ht : f.type ∈ wired)
    (hb : minBits f.type ≤ b.length) (hta : TaOk f) :
    ∃ rc e, encode b f = .ok (rc, e) ∧ 0 < rc ∧ rc ≤ e.length ∧ e.length = b.length ∧
      e.take (frameBits f.type) = wire f ∧ (wire f).length = frameBits f.type := by
  obtain ⟨ha, hm⟩ := wired_all ht
  obtain ⟨hl, n, e, h1, h2, h3, h4, h5, _⟩ := encode_of f b (frameBits f.type) (wire f) ha hb hta
    (by omega) (Nat.le_refl _) (bits_wire f hf ht _ (by rw [List.length_take]; omega))
  refine ⟨_, e, h1, h4, by omega, h2, ?_, hl⟩
  rw [h3, List.take_of_length_le (by omega)]

/-- the hypotheses are met, e.g., by an EFR frame with time alignment -/
example : ∃ f : Frame, f.WF ∧ f.type ∈ wired ∧ TaOk f ∧ f.ta = 250 :=
  ⟨{ idleFrame with type := .efr, ta := 250 }, ⟨rfl, rfl, rfl, rfl, rfl, rfl, rfl⟩, by decide,
    by unfold TaOk; decide, rfl⟩

private theorem rt_use {f f0 : Frame} {b : List Bool} {n hl k : Nat} {hd cd : List Bool}
    {dec : Frame → List Bool → Dir → M (Int × Frame)} {bits : List Bool → Frame → M (List Bool)}
    (h : RT bits dec n hl hd k cd f) (h0 : f0.WF) (hb : b.length = n) :
    ∃ e f', bits b f = .ok e ∧ e.take hl = hd ∧ dec f0 e f.dir = .ok (0, f') ∧ f'.type = f.type ∧
      f'.dir = f.dir ∧ f'.c.take k = cd ∧ payload f.type k f' = payload f.type k f := by
  have := h f0 b h0 hb
  cases he : bits b f with
  | error x => rw [he] at this; cases this
  | ok e =>
    rw [he] at this
    simp only [bind_ok] at this
    cases hd' : dec f0 e f.dir with
    | error x => rw [hd'] at this; cases this
    | ok r =>
      rw [hd'] at this
      simp only [bind_ok] at this
      have := Except.ok.inj this
      simp only [Prod.mk.injEq] at this
      obtain ⟨a1, a2, a3, a4, a5, a6⟩ := this
      refine ⟨e, r.2, rfl, a1, ?_, a3, a4, a5, ?_⟩
      · rw [hd', ← a2]
      · simp only [payload, Prod.mk.injEq] at a6 ⊢
        exact a6

/-- the 16k types with a working encoder/decoder pair -/
def roundTrip16 : List FT := [.fr, .efr, .hr, .amr, .data, .dataHr, .d145, .edata]

private theorem rt16 (f : Frame) (hf : f.WF) (ht : f.type ∈ roundTrip16) :
    RT bitsFor decode16k 320 17 (List.replicate 16 false ++ [true]) 5 (code f.type f.dir) f := by
  obtain ⟨ty, dir, ta, c, d, t, s, m, u, crc, xc, rfl⟩ := exists_SF2 hf
  clear hf
  replace ht : ty ∈ roundTrip16 := ht
  simp only [roundTrip16, List.mem_cons, List.not_mem_nil, or_false] at ht
  rcases ht with rfl | rfl | rfl | rfl | rfl | rfl | rfl | rfl
  · exact rt_fr dir ta c d t s m crc xc u
  · exact rt_efr dir ta c d t s m crc xc u
  · exact rt_hr dir ta c d t s m crc xc u
  · exact rt_amr dir ta c d t s m crc xc u
  · exact rt_data dir ta c d t s m crc xc u
  · exact rt_dataHr dir ta c d t s m crc xc u
  · exact rt_d145 dir ta c d t s m crc xc u
  · exact rt_edata dir ta c d t s m crc xc u

private theorem rt16_all {t : FT} (h : t ∈ roundTrip16) : t ∈ allTypes ∧ frameBits t = 320 ∧ 320 ≤ minBits t := by
  revert h; cases t <;> simp [roundTrip16, allTypes, frameBits, types16, minBits]

/-- **C23** FR, EFR, HR, AMR, DATA, DATA_HR, D145_SYNC and EDATA frames: whatever is in the buffer encoded
into and the structure decoded into, encoding succeeds, the first 320 bits are an aligned frame, and decoding
them gives back type, direction and every bit a frame of that type carries, C1..C5 being those of the type. -/
theorem C23_roundtrip (f f0 : Frame) (b : List Bool) (hf : f.WF) (h0 : f0.WF) (ht : f.type ∈ roundTrip16)
    (hb : minBits f.type ≤ b.length) (hta : TaOk f) :
    ∃ rc e f', encode b f = .ok (rc, e) ∧ 0 < rc ∧ IsFrame (e.take 320) ∧
      decode16k f0 (e.take 320) f.dir = .ok (0, f') ∧ f'.type = f.type ∧ f'.dir = f.dir ∧
      f'.c.take 5 = code f.type f.dir ∧ payload f.type 5 f' = payload f.type 5 f := by
  obtain ⟨ha, hn, hm⟩ := rt16_all ht
  obtain ⟨e0, f', a1, a2, a3, a4, a5, a6, a7⟩ := rt_use (rt16 f hf ht) h0
    (b := b.take 320) (by rw [List.length_take]; omega)
  obtain ⟨hl, n, e, b1, b2, b3, b4, b5, _⟩ := encode_of f b 320 e0 ha hb hta (by omega) (by omega) a1
  rw [hn] at b3
  have : e.take 320 = e0 := by rw [b3, List.take_of_length_le (by omega)]
  refine ⟨_, e, f', b1, b4, ?_, ?_, a4, a5, a6, a7⟩
  · rw [this]; exact ⟨hl, a2⟩
  · rw [this]; exact a3

/-- the hypotheses are met, e.g., by an AMR frame and a buffer of 640 bits -/
example : ∃ (f : Frame) (b : List Bool), f.WF ∧ f.type ∈ roundTrip16 ∧ minBits f.type ≤ b.length ∧ TaOk f :=
  ⟨{ idleFrame with type := .amr }, List.replicate 640 false, ⟨rfl, rfl, rfl, rfl, rfl, rfl, rfl⟩, by decide,
    by decide, by unfold TaOk; decide⟩

/-- **C23** Idle frames: the frame sent is the (down-link) idle frame of the standard and decodes as idle. -/
theorem C23_idle (f f0 : Frame) (b : List Bool) (h0 : f0.WF) (ht : f.type = .idle) (hta : TaOk f)
    (hb : 320 ≤ b.length) (dir : Dir) :
    ∃ e f', encode b f = .ok (320, e) ∧ IsFrame (e.take 320) ∧
      decode16k f0 (e.take 320) dir = .ok (0, f') ∧ f'.type = .idle ∧ f'.dir = dir ∧
      f'.c.take 21 = code .idle .dl ++ List.replicate 6 false ++ List.replicate 10 true ∧
      f'.d.take 260 = List.replicate 260 true ∧ f'.t = List.replicate 4 true := by
  have hl : (b.take 320).length = 320 := by rw [List.length_take]; omega
  have h := rt_idle dir f0 (b.take 320) h0 hl
  cases he : encode16IdleBits (b.take 320) with
  | error x => rw [he] at h; cases h
  | ok e0 =>
    rw [he] at h
    simp only [bind_ok] at h
    cases hd : decode16k f0 e0 dir with
    | error x => rw [hd] at h; cases h
    | ok r =>
      rw [hd] at h
      simp only [bind_ok] at h
      have h := Except.ok.inj h
      simp only [Prod.mk.injEq] at h
      obtain ⟨a1, a2, a3, a4, a5, a6, a7⟩ := h
      have hbits : bitsFor (b.take 320) f = .ok e0 := by unfold bitsFor; rw [ht]; exact he
      obtain ⟨hl0, n, e, b1, b2, b3, b4, b5, _, b7⟩ := encode_of f b 320 e0 (by rw [ht]; decide)
        (by rw [ht]; exact hb) hta hb (by rw [ht]; decide) hbits
      have hfb : frameBits f.type = 320 := by rw [ht]; rfl
      rw [hfb] at b3
      have h320 : e.take 320 = e0 := by rw [b3, List.take_of_length_le (by omega)]
      have hrc : (frameBits f.type : Int) + n = 320 := by
        rw [finish, ht] at b7
        have := congrArg Prod.fst (Except.ok.inj b7)
        rw [ht]; exact this.symm
      refine ⟨e, r.2, by rw [b1, hrc], ?_, ?_, a3, a4, a5, a6, a7⟩
      · rw [h320]; exact ⟨hl0, a1⟩
      · rw [h320, hd, ← a2]

/-! ### C65: direction of idle frames -/

/-- **C65** (violated) An idle frame with direction up-link is sent with the down-link idle code. -/
theorem C65_idle_direction_violated (f : Frame) (b : List Bool) (ht : f.type = .idle) (hd : f.dir = .ul)
    (hta : TaOk f) (hb : 320 ≤ b.length) :
    ∃ e, encode b f = .ok (320, e) ∧ (e.drop 17).take 5 = code .idle .dl ∧
      code .idle .dl ≠ code .idle f.dir := by
  have hl : (b.take 320).length = 320 := by rw [List.length_take]; omega
  have hbits : bitsFor (b.take 320) f = .ok (layoutFr (code .idle .dl) idleFrame) := by
    unfold bitsFor; rw [ht]; exact emits_idle f _ hl
  obtain ⟨hl0, n, e, b1, b2, b3, b4, b5, _, b7⟩ := encode_of f b 320 _ (by rw [ht]; decide)
    (by rw [ht]; exact hb) hta hb (by rw [ht]; decide) hbits
  have hrc : (frameBits f.type : Int) + n = 320 := by
    rw [finish, ht] at b7
    have := congrArg Prod.fst (Except.ok.inj b7)
    rw [ht]; exact this.symm
  have hfb : frameBits f.type = 320 := by rw [ht]; rfl
  rw [hfb] at b3
  refine ⟨e, by rw [b1, hrc], ?_, by rw [hd]; decide⟩
  have : (e.drop 17).take 5 = ((e.take 320).drop 17).take 5 := by
    rw [List.drop_take, List.take_take]; rfl
  rw [this, b3]
  rfl

/-- **C65** Down-link idle frames carry the down-link code (what holds). -/
theorem C65_idle_direction_partial (f : Frame) (b : List Bool) (ht : f.type = .idle) (hd : f.dir = .dl)
    (hta : TaOk f) (hb : 320 ≤ b.length) :
    ∃ e, encode b f = .ok (320, e) ∧ (e.drop 17).take 5 = code .idle f.dir := by
  obtain ⟨e, h1, h2, _⟩ := C65_idle_direction_violated { f with dir := .ul } b ht rfl hta hb
  refine ⟨e, ?_, by rw [hd]; exact h2⟩
  rw [← h1]
  unfold encode encodeDispatch
  rw [ht]

/-! ### C25: 8k frames -/

/-- C1..C5 identify the type of 8k speech, data and O&M frames (TS 48.061 5.2.4.1): what the caller has to put
into the C bits of data and O&M frames -/
def Code8Ok (f : Frame) : Prop :=
  match f.type, f.dir with
  | .data8, .ul => f.c.take 5 = [false, false, true, true, true]
  | .data8, .dl => f.c.take 3 = [false, false, true]
  | .oam8, .ul => f.c.take 5 = [false, true, false, true, true]
  | .oam8, .dl => f.c.take 3 = [false, true, false]
  | _, _ => True

/-- the 8k types with a working encoder/decoder pair -/
def roundTrip8 : List FT := [.speech8, .amrLow8, .amr74, .data8, .oam8]

/-- number of leading C bits that are determined by the type -/
private def k8 : FT → Nat
  | .speech8 => 5
  | _ => 0

private theorem rt8 (f : Frame) (hf : f.WF) (ht : f.type ∈ roundTrip8) (hc : Code8Ok f) :
    ∃ hl hd, RT bitsFor decode8k 160 hl hd (k8 f.type)
      (if f.type = .speech8 then speech8Code f.dir (f.c.getD 3 false) else []) f := by
  obtain ⟨ty, dir, ta, c, d, t, s, m, u, crc, xc, rfl⟩ := exists_SF2 hf
  clear hf
  replace ht : ty ∈ roundTrip8 := ht
  simp only [roundTrip8, List.mem_cons, List.not_mem_nil, or_false] at ht
  rcases ht with rfl | rfl | rfl | rfl | rfl
  · exact ⟨_, _, rt_hr8 dir ta c d t s m crc xc u⟩
  · exact ⟨_, _, rt_low8 dir ta c d t s m crc xc u⟩
  · exact ⟨_, _, rt_74 dir ta c d t s m crc xc u⟩
  · cases dir
    · exact ⟨_, _, rt_data8_ul ta c d t s m crc xc u hc⟩
    · exact ⟨_, _, rt_data8_dl ta c d t s m crc xc u hc⟩
  · cases dir
    · exact ⟨_, _, rt_oam8_ul ta c d t s m crc xc u hc⟩
    · exact ⟨_, _, rt_oam8_dl ta c d t s m crc xc u hc⟩

private theorem rt8_all {t : FT} (h : t ∈ roundTrip8) : t ∈ allTypes ∧ frameBits t = 160 ∧ 160 ≤ minBits t := by
  revert h; cases t <;> simp [roundTrip8, allTypes, frameBits, types16, minBits]

/-- **C25** 8k speech, AMR low rate, AMR 7.4, data and O&M frames: encoding succeeds, and decoding the first 160
bits gives back type, direction and every bit the frame carries (for speech frames C1..C5 are those of the type,
with the up-link/down-link indication C4 and odd parity C5). -/
theorem C25_roundtrip (f f0 : Frame) (b : List Bool) (hf : f.WF) (h0 : f0.WF) (ht : f.type ∈ roundTrip8)
    (hc : Code8Ok f) (hb : minBits f.type ≤ b.length) (hta : TaOk f) :
    ∃ rc e f', encode b f = .ok (rc, e) ∧ 0 < rc ∧
      decode8k f0 (e.take 160) f.dir = .ok (0, f') ∧ f'.type = f.type ∧ f'.dir = f.dir ∧
      (f.type = .speech8 → f'.c.take 5 = speech8Code f.dir (f.c.getD 3 false) ∧
        payload f.type 5 f' = payload f.type 5 f) ∧
      (f.type ≠ .speech8 → payload f.type 0 f' = payload f.type 0 f) := by
  obtain ⟨ha, hn, hm⟩ := rt8_all ht
  obtain ⟨hl', hd', hrt⟩ := rt8 f hf ht hc
  obtain ⟨e0, f', a1, a2, a3, a4, a5, a6, a7⟩ := rt_use hrt h0
    (b := b.take 160) (by rw [List.length_take]; omega)
  obtain ⟨hl, n, e, b1, b2, b3, b4, b5, _⟩ := encode_of f b 160 e0 ha hb hta (by omega) (by omega) a1
  rw [hn] at b3
  have : e.take 160 = e0 := by rw [b3, List.take_of_length_le (by omega)]
  refine ⟨_, e, f', b1, b4, by rw [this]; exact a3, a4, a5, ?_, ?_⟩
  · intro h
    rw [if_pos h] at a6
    rw [h] at a6 a7 ⊢
    exact ⟨a6, a7⟩
  · intro h
    have : k8 f.type = 0 := by revert h; cases f.type <;> simp [k8]
    rw [this] at a7
    exact a7

/-- the hypotheses are met, e.g., by an 8k down-link data frame -/
example : ∃ (f : Frame) (b : List Bool), f.WF ∧ f.type ∈ roundTrip8 ∧ Code8Ok f ∧ minBits f.type ≤ b.length ∧
    TaOk f :=
  ⟨{ idleFrame with type := .data8, c := [false, false, true, true, true] ++ List.replicate 20 true },
    List.replicate 160 false, ⟨rfl, rfl, rfl, rfl, rfl, rfl, rfl⟩, by decide, rfl,
    by decide, by unfold TaOk; decide⟩

/-! ### C24: O&M frames -/

/-- **C24** What holds of O&M frames: type code, direction and S bits survive, provided that one more bit behind
the frame may be read (see C64).  Missing: the C and D bits, see `C24_oam_violated`. -/
theorem C24_oam_partial (f f0 : Frame) (b : List Bool) (x : Bool) (hf : f.WF) (h0 : f0.WF)
    (ht : f.type = .oam) (hb : 320 ≤ b.length) (hta : TaOk f) :
    ∃ e f', encode b f = .ok (320, e) ∧ decode16k f0 (e.take 320 ++ [x]) f.dir = .ok (0, f') ∧
      f'.type = .oam ∧ f'.dir = f.dir ∧ f'.c.take 5 = code .oam f.dir ∧ f'.s = f.s := by
  obtain ⟨ty, dir, ta, c, d, t, s, m, u, crc, xc, rfl⟩ := exists_SF2 hf
  replace ht : ty = .oam := ht
  subst ht
  obtain ⟨ty0, dir0, ta0, c0, d0, t0, s0, m0, u0, crc0, xc0, rfl⟩ := exists_SF2 h0
  have hbits := emits_oam .oam dir ta c d t s m crc xc u (b.take 320) (by rw [List.length_take]; omega)
  obtain ⟨hl0, n, e, b1, b2, b3, b4, b5, _, b7⟩ := encode_of (SF .oam dir ta c d t s m u crc xc) b 320 _
    (show FT.oam ∈ allTypes by decide) hb hta hb (show frameBits FT.oam ≤ 320 by decide) hbits
  have hrc : (frameBits FT.oam : Int) + n = 320 := (congrArg Prod.fst (Except.ok.inj b7)).symm
  replace b3 : e.take 320 = List.take 320 _ := b3
  have key : (do
      let r ← decode16k (SF ty0 dir0 ta0 c0 d0 t0 s0 m0 u0 crc0 xc0) (List.take 320
        (zeros 16 ++ [true] ++ code .oam dir ++ sub (L 25 c) 0 10 ++ sync 15 17 (L 288 d) ++ [true] ++
        sub (L 288 d) 256 265 ++ L 6 s) ++ [x]) dir
      .ok (r.1, r.2.type, r.2.dir, r.2.c.take 5, r.2.s)) =
      (.ok (0, .oam, dir, code .oam dir, L 6 s) : M _) := by
    cases dir <;> kernel_rfl
  rw [← b3] at key
  cases hd : decode16k (SF ty0 dir0 ta0 c0 d0 t0 s0 m0 u0 crc0 xc0) (e.take 320 ++ [x]) dir with
  | error y => rw [hd] at key; cases key
  | ok r =>
    rw [hd] at key
    simp only [bind_ok] at key
    have key := Except.ok.inj key
    simp only [Prod.mk.injEq] at key
    obtain ⟨a1, a2, a3, a4, a5⟩ := key
    refine ⟨e, r.2, ?_, ?_, a2, a3, a4, a5⟩
    · rw [b1]; exact congrArg (fun z => Except.ok (z, e)) hrc
    · rw [← a1]; exact hd

/-- an O&M frame with D1 set only -/
def oamWitness : Frame :=
  { idleFrame with type := .oam, d := true :: List.replicate 287 false }

/-- **C24** (violated) An O&M frame whose only D bit set is D1 is decoded with no D bit set among the first 14
(and D15 set), and with C1..C10 in place of C6..C15. -/
theorem C24_oam_violated : oamWitness.WF ∧
    ∃ e f', encode (List.replicate 320 false) oamWitness = .ok (320, e) ∧
      decode16k idleFrame (e.take 320 ++ [false]) .dl = .ok (0, f') ∧
      f'.d.take 15 ≠ oamWitness.d.take 15 ∧ (f'.c.take 15).drop 5 ≠ (oamWitness.c.take 15).drop 5 := by
  refine ⟨⟨rfl, rfl, rfl, rfl, rfl, rfl, rfl⟩, ?_⟩
  have h : (do
      let r ← encode (List.replicate 320 false) oamWitness
      let q ← decode16k idleFrame (r.2.take 320 ++ [false]) .dl
      .ok (r.1, q.1, q.2.d.take 15, (q.2.c.take 15).drop 5)) =
      (.ok (320, 0, List.replicate 14 false ++ [true],
        [false, true, true, true, false, false, false, false, false, false]) :
        M (Int × Int × List Bool × List Bool)) := by kernel_rfl
  cases he : encode (List.replicate 320 false) oamWitness with
  | error x => rw [he] at h; cases h
  | ok r =>
    rw [he] at h
    simp only [bind_ok] at h
    cases hd : decode16k idleFrame (r.2.take 320 ++ [false]) .dl with
    | error x => rw [hd] at h; cases h
    | ok q =>
      rw [hd] at h
      have h := Except.ok.inj h
      simp only [Prod.mk.injEq] at h
      obtain ⟨a1, a2, a3, a4⟩ := h
      refine ⟨r.2, q.2, by rw [← a1], by rw [hd, ← a2], ?_, ?_⟩
      · rw [a3]; decide
      · rw [a4]; decide

/-! ### C26: 8k AMR 6.7 -/

/-- the D bits that happen to lie where the decoder expects the synchronisation bits -/
def lucky67 : List (Nat × Bool) :=
  [(17, true), (24, false), (31, true), (46, true), (61, true), (76, true), (91, true), (106, true),
   (121, true)]

private def updL (l : List (Nat × Bool)) (c : Nat → Bool) (j : Nat) : Bool := (l.lookup j).getD (c j)

private theorem lookup_mem : ∀ (l : List (Nat × Bool)) (j : Nat) (v : Bool), l.lookup j = some v → (j, v) ∈ l
  | [], _, _, h => by simp at h
  | (i, w) :: l, j, v, h => by
    rw [List.lookup_cons] at h
    by_cases hj : j = i
    · subst hj
      simp only [beq_self_eq_true, Option.some.injEq] at h
      simp [h]
    · rw [show (j == i) = false by simp [hj]] at h
      exact List.mem_cons_of_mem _ (lookup_mem l j v h)

private theorem eq_updL (l : List (Nat × Bool)) (c : Nat → Bool) (h : ∀ p ∈ l, c p.1 = p.2) :
    c = updL l c := by
  funext j
  unfold updL
  cases hl : l.lookup j with
  | none => rfl
  | some v => exact h _ (lookup_mem l j v hl)

/-- **C26** What holds: if the D bits overlaid on (and in place of) the synchronisation bits happen to have the
values of the latter, the frame is recognised and decoded; this needs 8 readable bits behind the 160 of the frame
(see C64).  Missing: all other contents, see `C26_amr67_violated`. -/
theorem C26_amr67_partial (f f0 : Frame) (b : List Bool) (hf : f.WF) (h0 : f0.WF) (ht : f.type = .amr67)
    (hl : ∀ p ∈ lucky67, f.d.getD p.1 false = p.2) (hb : 319 ≤ b.length) (hta : f.dir = .ul ∨ f.ta = 0) :
    ∃ e f', encode b f = .ok (160, e) ∧ decode8k f0 (e.take 168) f.dir = .ok (0, f') ∧
      f'.type = .amr67 ∧ f'.dir = f.dir ∧ f'.c.take 3 = f.c.take 3 ∧ f'.d.take 137 = f.d.take 137 := by
  obtain ⟨ty, dir, ta, c, d, t, s, m, u, crc, xc, rfl⟩ := exists_SF2 hf
  replace ht : ty = .amr67 := ht
  subst ht
  obtain ⟨ty0, dir0, ta0, c0, d0, t0, s0, m0, u0, crc0, xc0, rfl⟩ := exists_SF2 h0
  have hd : d = updL lucky67 d := eq_updL _ _ (by
    intro p hp
    have hp288 : p.1 < 288 := by revert p; decide
    have := hl p hp
    replace this : (L 288 d).getD p.1 false = p.2 := this
    rw [List.getD_eq_getElem?_getD, L_getElem? _ _ _ hp288] at this
    exact this)
  have hlen : (b.take 168).length = 168 := by rw [List.length_take]; omega
  obtain ⟨bb, hbb⟩ := exists_L' hlen
  have key : (do
      let e ← encode8Amr67Bits (L 168 bb) (SF .amr67 dir ta c d t s m u crc xc)
      let r ← decode8k (SF ty0 dir0 ta0 c0 d0 t0 s0 m0 u0 crc0 xc0) e dir
      .ok (r.1, r.2.type, r.2.dir, r.2.c.take 3, r.2.d.take 137)) =
      (.ok (0, .amr67, dir, (L 25 c).take 3, (L 288 d).take 137) : M _) := by
    rw [hd]
    cases dir <;> kernel_rfl
  rw [← hbb] at key
  cases he : encode8Amr67Bits (b.take 168) (SF .amr67 dir ta c d t s m u crc xc) with
  | error y => rw [he] at key; cases key
  | ok e0 =>
    rw [he] at key
    simp only [bind_ok] at key
    obtain ⟨l1, l2⟩ := (local_67 (SF .amr67 dir ta c d t s m u crc xc)).lift (by omega) he
    have hfin : finish (SF .amr67 dir ta c d t s m u crc xc) (e0 ++ b.drop 168) =
        .ok (160, e0 ++ b.drop 168) := by
      rcases hta with h | h
      · replace h : dir = .ul := h
        subst h; rfl
      · replace h : ta = 0 := h
        subst h; cases dir <;> rfl
    cases hd' : decode8k (SF ty0 dir0 ta0 c0 d0 t0 s0 m0 u0 crc0 xc0) e0 dir with
    | error y => rw [hd'] at key; cases key
    | ok r =>
      rw [hd'] at key
      simp only [bind_ok] at key
      have key := Except.ok.inj key
      simp only [Prod.mk.injEq] at key
      obtain ⟨a1, a2, a3, a4, a5⟩ := key
      refine ⟨e0 ++ b.drop 168, r.2, ?_, ?_, a2, a3, a4, a5⟩
      · rw [encode_start (SF .amr67 dir ta c d t s m u crc xc) b (show FT.amr67 ∈ allTypes by decide) hb]
        show encode8Amr67Bits b _ >>= _ = _
        rw [l2]
        exact hfin
      · rw [List.take_left' l1, ← a1]; exact hd'

/-- the hypotheses are met by the frame of all ones except D25 -/
example : ∃ f : Frame, f.WF ∧ f.type = .amr67 ∧ (∀ p ∈ lucky67, f.d.getD p.1 false = p.2) :=
  ⟨{ idleFrame with type := .amr67, d := (List.replicate 288 true).set 24 false },
    ⟨rfl, rfl, rfl, rfl, rfl, rfl, rfl⟩, rfl, by decide⟩

/-- **C26** (violated) An encoded AMR 6.7 frame whose D bits are all 0, or all 1, is not recognised. -/
theorem C26_amr67_violated (x : Bool) :
    ∃ e f', encode (List.replicate 319 false)
        { idleFrame with type := .amr67, dir := .ul, d := List.replicate 288 x } = .ok (160, e) ∧
      decode8k idleFrame (e.take 168) .ul = .ok (-EINVAL, f') := by
  have h : (do
      let r ← encode (List.replicate 319 false)
        { idleFrame with type := .amr67, dir := .ul, d := List.replicate 288 x }
      let q ← decode8k idleFrame (r.2.take 168) .ul
      .ok (r.1, q.1)) = (.ok (160, -EINVAL) : M (Int × Int)) := by
    cases x <;> kernel_rfl
  cases he : encode (List.replicate 319 false)
      { idleFrame with type := .amr67, dir := .ul, d := List.replicate 288 x } with
  | error x => rw [he] at h; cases h
  | ok r =>
    rw [he] at h
    simp only [bind_ok] at h
    cases hd : decode8k idleFrame (r.2.take 168) .ul with
    | error x => rw [hd] at h; cases h
    | ok q =>
      rw [hd] at h
      have h := Except.ok.inj h
      simp only [Prod.mk.injEq] at h
      exact ⟨r.2, q.2, by rw [← h.1], by rw [hd, ← h.2]⟩

/-! ### C27: the output buffer -/

/-- bits of the buffer touched besides those added for time alignment: the frame, except for 8k AMR 6.7, whose
encoder writes 8 bits too many -/
def touched (t : FT) : Nat := if t = .amr67 then 168 else frameBits t

private theorem touched_le {t : FT} (h : t ∈ allTypes) : frameBits t ≤ touched t ∧ touched t ≤ minBits t := by
  revert h; cases t <;> simp [allTypes, touched, frameBits, types16, minBits]

private theorem bits_safe (f : Frame) (hf : f.WF) (ht : f.type ∈ allTypes) :
    Safe bitsFor (touched f.type) f := by
  by_cases hw : f.type ∈ wired
  · intro b hb
    refine ⟨_, bits_wire f hf hw b ?_⟩
    rw [hb]
    revert hw; cases f.type <;> simp [wired, touched]
  · obtain ⟨ty, dir, ta, c, d, t, s, m, u, crc, xc, rfl⟩ := exists_SF2 hf
    replace hw : ty ∉ wired := hw
    replace ht : ty ∈ allTypes := ht
    cases ty <;> first
      | exact absurd (by decide) hw
      | exact absurd ht (by decide)
      | exact (emits_oam .oam dir ta c d t s m crc xc u).safe
      | exact (emits_idle (SF .idle dir ta c d t s m u crc xc)).safe
      | exact safe_67 .amr67 dir ta c d t s m crc xc u
      | exact safe_oam8 .oam8 dir ta c d t s m crc xc u

/-- **C27** `osmo_trau_frame_encode` into a buffer of any size: no access outside the buffer; a buffer that is too
small gives -ENOSPC and an unknown type -EINVAL, both without touching the buffer; otherwise the number of bits
returned fits the buffer and nothing behind them is touched (nothing behind the 320/160 bits of the frame, if it
is shortened; nothing behind 168 bits for 8k AMR 6.7). -/
theorem C27_encode_buffer (f : Frame) (b : List Bool) (hf : f.WF) (hta : TaOk f) :
    ∃ rc e, encode b f = .ok (rc, e) ∧ e.length = b.length ∧
      (f.type ∉ allTypes → rc = -EINVAL ∧ e = b) ∧
      (f.type ∈ allTypes → b.length < minBits f.type → rc = -ENOSPC ∧ e = b) ∧
      (f.type ∈ allTypes → minBits f.type ≤ b.length → 0 < rc ∧ rc ≤ b.length ∧
        ∀ i, touched f.type ≤ i → rc ≤ i → e[i]? = b[i]?) := by
  by_cases ht : f.type ∈ allTypes
  · by_cases hb : minBits f.type ≤ b.length
    · obtain ⟨h1, h2⟩ := touched_le ht
      obtain ⟨e0, he0⟩ := bits_safe f hf ht (b.take (touched f.type)) (by rw [List.length_take]; omega)
      obtain ⟨_, n, e, b1, b2, _, b4, b5, b6, _⟩ := encode_of f b (touched f.type) e0 ht hb hta (by omega) h1 he0
      exact ⟨_, e, b1, b2, fun h => absurd ht h, fun _ h => by omega, fun _ _ => ⟨b4, b5, b6⟩⟩
    · refine ⟨-ENOSPC, b, ?_, rfl, fun h => absurd ht h, fun _ _ => ⟨rfl, rfl⟩, fun _ h => absurd h hb⟩
      unfold encode
      have : encodeSpace b.length f.type = some (-ENOSPC) := by
        revert ht hb
        cases f.type <;> simp [encodeSpace, minBits, allTypes] <;> omega
      rw [this]
  · refine ⟨-EINVAL, b, ?_, rfl, fun _ => ⟨rfl, rfl⟩, fun h => absurd h ht, fun h => absurd h ht⟩
    unfold encode encodeDispatch
    revert ht
    cases f.type <;> simp [encodeSpace, allTypes]

/-- a request for a time alignment of more than about 9 minutes is undefined behaviour (signed overflow) -/
theorem C27_overflow_undefined (f : Frame) (b : List Bool) (hf : f.WF) (ht : f.type = .fr) (hd : f.dir = .dl)
    (hb : 639 ≤ b.length) (hta : 536870911 < f.ta) : encode b f = .error .ub := by
  have hw : f.type ∈ wired := by rw [ht]; decide
  have hfb : frameBits f.type = 320 := by rw [ht]; rfl
  have h := bits_wire f hf hw (b.take 320) (by rw [List.length_take, hfb]; omega)
  obtain ⟨_, h2⟩ := (local_bitsFor f).lift (by omega) h
  rw [encode_start f b (by rw [ht]; decide) (by rw [ht]; exact hb), h2]
  simp only [bind_ok]
  unfold finish
  rw [ht]
  simp only [handleTa16, hd]
  unfold mulInt
  rw [if_neg (by omega)]
  rfl

/-! ### C63: the output does not depend on the former contents of the buffer -/

/-- **C63** Except for 8k O&M and 8k AMR 6.7: the frame produced depends on the structure only. -/
theorem C63_deterministic_partial (f : Frame) (b1 b2 : List Bool) (hf : f.WF) (ht : f.type ∈ allTypes)
    (h67 : f.type ≠ .amr67) (ho8 : f.type ≠ .oam8) (hb1 : minBits f.type ≤ b1.length)
    (hb2 : minBits f.type ≤ b2.length) (hta : TaOk f) :
    ∃ rc e1 e2, encode b1 f = .ok (rc, e1) ∧ encode b2 f = .ok (rc, e2) ∧
      e1.take rc.toNat = e2.take rc.toNat := by
  have hm : frameBits f.type ≤ minBits f.type := by
    revert ht; cases f.type <;> simp [allTypes, frameBits, types16, minBits]
  have hex : ∃ e0, ∀ b : List Bool, b.length = frameBits f.type → bitsFor b f = .ok e0 := by
    by_cases hw : f.type ∈ wired
    · exact ⟨_, bits_wire f hf hw⟩
    · obtain ⟨ty, dir, ta, c, d, t, s, m, u, crc, xc, rfl⟩ := exists_SF2 hf
      replace hw : ty ∉ wired := hw
      replace ht : ty ∈ allTypes := ht
      cases ty <;> first
        | exact absurd (by decide) hw
        | exact absurd ht (by decide)
        | exact absurd rfl h67
        | exact absurd rfl ho8
        | exact ⟨_, emits_oam .oam dir ta c d t s m crc xc u⟩
        | exact ⟨_, emits_idle (SF .idle dir ta c d t s m u crc xc)⟩
  obtain ⟨e0, he0⟩ := hex
  obtain ⟨l1, k1⟩ := (local_bitsFor f).lift (b := b1) (n := frameBits f.type) (by omega)
    (he0 _ (by rw [List.length_take]; omega))
  obtain ⟨l2, k2⟩ := (local_bitsFor f).lift (b := b2) (n := frameBits f.type) (by omega)
    (he0 _ (by rw [List.length_take]; omega))
  obtain ⟨n1, e1, r1, r2, r3, r4, r5, r6⟩ := finish_spec' f (e0 ++ b1.drop (frameBits f.type)) ht
    (by simp [l1]; omega) hta
  obtain ⟨n2, e2, s1, s2, s3, s4, s5, s6⟩ := finish_spec' f (e0 ++ b2.drop (frameBits f.type)) ht
    (by simp [l2]; omega) hta
  have hn : n1 = n2 := by rw [r6, s6]
  subst hn
  refine ⟨_, e1, e2, by rw [encode_start f b1 ht hb1, k1]; exact r1,
    by rw [encode_start f b2 ht hb2, k2]; exact s1, ?_⟩
  rw [List.take_left' l1] at r3
  rw [List.take_left' l2] at s3
  have key : ∀ (e : List Bool), e.take (frameBits f.type) = e0 →
      (e.drop (frameBits f.type)).take n1.toNat = List.replicate n1.toNat true →
      e.take ((frameBits f.type : Int) + n1).toNat =
        (e0 ++ List.replicate n1.toNat true).take ((frameBits f.type : Int) + n1).toNat := by
    intro e h1 h2
    rw [← h1, ← h2, ← List.take_add, List.take_take]
    congr 1
    omega
  rw [key e1 r3 r4, key e2 s3 s4]

/-- **C63** (violated) The last bit of an encoded 8k O&M frame is whatever was in the buffer before. -/
theorem C63_oam8_violated (f : Frame) (b : List Bool) (hf : f.WF) (ht : f.type = .oam8) (hta : TaOk f)
    (hb : 160 ≤ b.length) : ∃ e, encode b f = .ok (160, e) ∧ e[159]? = b[159]? := by
  obtain ⟨ty, dir, ta, c, d, t, s, m, u, crc, xc, rfl⟩ := exists_SF2 hf
  replace ht : ty = .oam8 := ht
  subst ht
  obtain ⟨bb, hbb⟩ := exists_L' (l := b.take 160) (n := 160) (by rw [List.length_take]; omega)
  have hbits := emits_oam8 .oam8 dir ta c d t s m crc xc bb u
  rw [← hbb] at hbits
  obtain ⟨_, n, e, b1, b2, b3, _, _, _, b7⟩ := encode_of (SF .oam8 dir ta c d t s m u crc xc) b 160 _
    (show FT.oam8 ∈ allTypes by decide) hb hta hb (show frameBits FT.oam8 ≤ 160 by decide) hbits
  have hrc : (frameBits FT.oam8 : Int) + n = 160 := (congrArg Prod.fst (Except.ok.inj b7)).symm
  refine ⟨e, by rw [b1]; exact congrArg (fun z => Except.ok (z, e)) hrc, ?_⟩
  have h1 : e[159]? = (e.take 160)[159]? := by simp
  have h2 : b[159]? = (b.take 160)[159]? := by simp
  replace b3 : e.take 160 = List.take 160 _ := b3
  rw [h1, h2, b3, hbb, L_getElem? _ _ _ (by omega)]
  rfl

/-- **C63** (violated) Bit 25 of an encoded 8k AMR 6.7 frame is whatever was in the buffer before. -/
theorem C63_amr67_violated (f : Frame) (b : List Bool) (hf : f.WF) (ht : f.type = .amr67) (hta : TaOk f)
    (hb : 319 ≤ b.length) : ∃ rc e, encode b f = .ok (rc, e) ∧ e[25]? = b[25]? := by
  obtain ⟨ty, dir, ta, c, d, t, s, m, u, crc, xc, rfl⟩ := exists_SF2 hf
  replace ht : ty = .amr67 := ht
  subst ht
  obtain ⟨bb, hbb⟩ := exists_L' (l := b.take 168) (n := 168) (by rw [List.length_take]; omega)
  have hbits : (do
      let e ← encode8Amr67Bits (L 168 bb) (SF .amr67 dir ta c d t s m u crc xc)
      .ok e[25]?) = (.ok (some (bb 25)) : M _) := by kernel_rfl
  rw [← hbb] at hbits
  cases he : encode8Amr67Bits (b.take 168) (SF .amr67 dir ta c d t s m u crc xc) with
  | error y => rw [he] at hbits; cases hbits
  | ok e0 =>
    rw [he] at hbits
    have hbits := Except.ok.inj hbits
    obtain ⟨hl, n, e, b1, b2, b3, _, _, _, b7⟩ := encode_of (SF .amr67 dir ta c d t s m u crc xc) b 168 _
      (show FT.amr67 ∈ allTypes by decide) hb hta (by omega) (show frameBits FT.amr67 ≤ 168 by decide) he
    refine ⟨_, e, b1, ?_⟩
    have h1 : e[25]? = (e.take 160)[25]? := by simp
    have h2 : b[25]? = (b.take 168)[25]? := by simp
    replace b3 : e.take 160 = e0.take 160 := b3
    rw [h1, h2, b3, hbb, L_getElem? _ _ _ (by omega), ← hbits]
    simp

/-! ### C28, C67, C68: time alignment -/

/-- types of 16k / 8k frames to which time alignment is applied -/
def taTypes16 : List FT := [.fr, .efr, .hr, .amr]
def taTypes8 : List FT := [.speech8, .amrLow8, .amr74]

private theorem ta16_core (f : Frame) (b : List Bool) (hf : f.WF) (ht : f.type ∈ taTypes16) (hta : TaOk f)
    (hb : 639 ≤ b.length) :
    ∃ e : List Bool, encode b f = .ok (320 + nOf f, e) ∧ e.take 320 = wire f ∧
      (e.drop 320).take (nOf f).toNat = List.replicate (nOf f).toNat true := by
  have hw : f.type ∈ wired := by revert ht; cases f.type <;> simp [taTypes16, wired]
  have ha : f.type ∈ allTypes := (wired_all hw).1
  have hfb : frameBits f.type = 320 := by revert ht; cases f.type <;> simp [taTypes16, frameBits, types16]
  have hmb : minBits f.type = 639 := by revert ht; cases f.type <;> simp [taTypes16, minBits]
  obtain ⟨l1, k1⟩ := (local_bitsFor f).lift (b := b) (n := frameBits f.type) (by omega)
    (bits_wire f hf hw _ (by rw [List.length_take]; omega))
  obtain ⟨n, e, r1, r2, r3, r4, r5, r6⟩ := finish_spec' f (wire f ++ b.drop (frameBits f.type)) ha
    (by rw [hmb]; simp [l1]; omega) hta
  subst r6
  rw [List.take_left' l1, hfb] at r3
  rw [hfb] at r1 r4 k1
  refine ⟨e, ?_, r3, r4⟩
  rw [encode_start f b ha (by omega), k1]
  exact r1

/-- **C28** A down-link 16k speech frame is lengthened by one '1' bit per 62.5 us of requested alignment, or
shortened, by at most 4 bits, for negative requests.  Missing: requests beyond 312 bits, see
`C28_ta16_violated`. -/
theorem C28_ta16_partial (f : Frame) (b : List Bool) (hf : f.WF) (ht : f.type ∈ taTypes16) (hta : TaOk f)
    (hb : 639 ≤ b.length) (hd : f.dir = .dl) (hmax : (f.ta * 4).tdiv 250 ≤ 312) :
    ∃ rc e, encode b f = .ok (rc, e) ∧
      rc = 320 + max (-4) (min 312 ((f.ta * 4).tdiv 250)) ∧ e.take 320 = wire f ∧
      (e.drop 320).take (rc - 320).toNat = List.replicate (rc - 320).toNat true := by
  obtain ⟨e, h1, h2, h3⟩ := ta16_core f b hf ht hta hb
  have hn : nOf f = max (-4) (min 312 ((f.ta * 4).tdiv 250)) := by
    unfold nOf
    rw [hd]
    revert ht
    cases f.type <;> simp [taTypes16] <;> omega
  refine ⟨_, e, h1, by rw [hn], h2, ?_⟩
  rw [show (320 + nOf f - 320) = nOf f by omega]
  exact h3

/-- **C28** Up-link frames are never lengthened or shortened. -/
theorem C28_ta16_uplink (f : Frame) (b : List Bool) (hf : f.WF) (ht : f.type ∈ taTypes16) (hta : TaOk f)
    (hb : 639 ≤ b.length) (hd : f.dir = .ul) : ∃ e, encode b f = .ok (320, e) ∧ e.take 320 = wire f := by
  obtain ⟨e, h1, h2, h3⟩ := ta16_core f b hf ht hta hb
  have hn : nOf f = 0 := by
    unfold nOf
    rw [hd]
    revert ht
    cases f.type <;> simp [taTypes16]
  rw [hn] at h1
  exact ⟨e, h1, h2⟩

/-- **C28** (violated) A request for more than 312 bits lengthens the frame by 39 bits, not by 312. -/
theorem C28_ta16_violated (f : Frame) (b : List Bool) (hf : f.WF) (ht : f.type ∈ taTypes16) (hta : TaOk f)
    (hb : 639 ≤ b.length) (hd : f.dir = .dl) (hmax : 19563 ≤ f.ta) :
    ∃ e, encode b f = .ok (359, e) ∧ 320 + max (-4) (min 312 ((f.ta * 4).tdiv 250)) = 632 := by
  obtain ⟨e, h1, h2, h3⟩ := ta16_core f b hf ht hta hb
  have hq : 312 < (f.ta * 4).tdiv 250 := by
    rw [Int.tdiv_eq_ediv_of_nonneg (by omega)]; omega
  have hn : nOf f = 39 := by
    unfold nOf
    rw [hd]
    revert ht
    cases f.type <;> simp [taTypes16] <;> omega
  rw [hn] at h1
  exact ⟨e, h1, by omega⟩

/-- a frame meeting the hypotheses, with the alignment of `C28_ta16_violated` -/
example : ∃ f : Frame, f.WF ∧ f.type ∈ taTypes16 ∧ f.dir = .dl ∧ TaOk f ∧ 19563 ≤ f.ta :=
  ⟨{ idleFrame with type := .fr, ta := 20000 }, ⟨rfl, rfl, rfl, rfl, rfl, rfl, rfl⟩, by decide, rfl,
    by unfold TaOk; decide, by decide⟩

/-- **C67** A down-link 8k speech frame is lengthened by one '1' bit per 125 us of requested alignment, up to 158
bits, or shortened by at most 2 bits; up-link frames are unchanged. -/
theorem C67_ta8 (f : Frame) (b : List Bool) (hf : f.WF) (ht : f.type ∈ taTypes8) (hta : TaOk f)
    (hb : 319 ≤ b.length) :
    ∃ rc e, encode b f = .ok (rc, e) ∧
      (f.dir = .dl → rc = 160 + max (-2) (min 158 ((f.ta * 2).tdiv 250))) ∧
      (f.dir = .ul → rc = 160) ∧ e.take 160 = wire f ∧
      (e.drop 160).take (rc - 160).toNat = List.replicate (rc - 160).toNat true := by
  have hw : f.type ∈ wired := by revert ht; cases f.type <;> simp [taTypes8, wired]
  have ha : f.type ∈ allTypes := (wired_all hw).1
  have hfb : frameBits f.type = 160 := by revert ht; cases f.type <;> simp [taTypes8, frameBits, types16]
  have hmb : minBits f.type = 319 := by revert ht; cases f.type <;> simp [taTypes8, minBits]
  obtain ⟨l1, k1⟩ := (local_bitsFor f).lift (b := b) (n := frameBits f.type) (by omega)
    (bits_wire f hf hw _ (by rw [List.length_take]; omega))
  obtain ⟨n, e, r1, r2, r3, r4, r5, r6⟩ := finish_spec' f (wire f ++ b.drop (frameBits f.type)) ha
    (by rw [hmb]; simp [l1]; omega) hta
  rw [List.take_left' l1, hfb] at r3
  rw [hfb] at r1 r4 k1
  refine ⟨160 + n, e, ?_, ?_, ?_, r3, ?_⟩
  · rw [encode_start f b ha (by omega), k1]
    exact r1
  · intro hd
    rw [r6]
    unfold nOf
    rw [hd]
    revert ht
    cases f.type <;> simp [taTypes8]
  · intro hd
    rw [r6]
    unfold nOf
    rw [hd]
    revert ht
    cases f.type <;> simp [taTypes8]
  · rw [show (160 + n - 160) = n by omega]
    exact r4

private theorem getBits_val (l : List Bool) : ∀ (n off a : Nat), off + n ≤ l.length →
    getBits l off n a = .ok (((l.drop off).take n).foldl (fun a x => 2 * a + x.toNat) a)
  | 0, _, _, _ => by simp [OldTrau.getBits]
  | n + 1, off, a, h => by
    rw [OldTrau.getBits, rd_ok (by omega), bind_ok, getBits_val l n (off + 1) _ (by omega),
      List.drop_eq_getElem_cons (i := off) (by omega)]
    rfl

/-- **C68** The alignment reported for a received frame is the one requested by its C bits: none for down-link
frames, C6..C11 for 16k speech, C6..C8 for 8k half rate speech, C6..C11 for 8k AMR no-speech (C4, C5 = 0). -/
theorem C68_request (f : Frame) (hf : f.WF) : ∃ t, dlTaUs f = .ok t ∧
    (f.dir = .dl → t = 0) ∧
    (f.dir = .ul → f.type ∈ taTypes16 → t = request16 (val ((f.c.drop 5).take 6))) ∧
    (f.dir = .ul → f.type = .speech8 → t = request8 (val ((f.c.drop 5).take 3))) ∧
    (f.dir = .ul → f.type = .amrLow8 → t =
      if (f.c.drop 3).take 2 = [false, false] then request16 (val ((f.c.drop 5).take 6)) else 0) ∧
    (f.type ∉ taTypes16 → f.type ≠ .speech8 → f.type ≠ .amrLow8 → t = 0) := by
  have h16 : ∀ n, ta16us n = request16 n := by
    intro n; unfold ta16us request16
    by_cases h : n ≤ 39
    · rw [if_pos (by omega : n ≤ 0x27), if_pos h]; omega
    · rw [if_neg (by omega : ¬ n ≤ 0x27), if_neg h]
  have hv3 : ∀ x y z : Bool, ta8us (val [x, y, z]) = request8 (val [x, y, z]) := by decide
  have hc := hf.c
  obtain ⟨c, hcc⟩ := exists_L' hc
  unfold dlTaUs
  cases hd : f.dir with
  | dl => exact ⟨0, rfl, by simp, by simp, by simp, by simp, by simp⟩
  | ul =>
    simp only
    rw [getBits_val f.c 6 5 0 (by omega), getBits_val f.c 3 5 0 (by omega), getBits_val f.c 2 3 0 (by omega)]
    simp only [bind_ok]
    have hfold : ∀ l : List Bool, l.foldl (fun a x => 2 * a + x.toNat) 0 = val l := fun _ => rfl
    simp only [hfold]
    have h83 : ta8us (val ((f.c.drop 5).take 3)) = request8 (val ((f.c.drop 5).take 3)) := by
      rw [hcc]; exact hv3 (c 5) (c 6) (c 7)
    have h2 : (val ((f.c.drop 3).take 2) = 0) = ((f.c.drop 3).take 2 = [false, false]) := by
      rw [hcc]
      show (val [c 3, c 4] = 0) = ([c 3, c 4] = [false, false])
      cases c 3 <;> cases c 4 <;> simp [val]
    simp only [h2]
    cases ht : f.type <;> simp only [taTypes16]
    case amrLow8 =>
      split
      · rename_i h
        exact ⟨_, rfl, by simp, by simp, by simp, fun _ _ => by rw [h16], by simp⟩
      · exact ⟨_, rfl, by simp, by simp, by simp, by simp, by simp⟩
    case speech8 => exact ⟨_, rfl, by simp, by simp, fun _ _ => h83, by simp, by simp⟩
    case fr | efr | hr | amr =>
      exact ⟨_, rfl, by simp, fun _ _ => by rw [h16], by simp, by simp, by simp⟩
    all_goals exact ⟨0, rfl, by simp, by simp, by simp, by simp, by simp⟩

/-- **C68** Closed loop on 16k: applying, to a down-link frame, the alignment requested by any up-link frame
changes its length by exactly the requested time (250 us are 4 bits). -/
theorem C68_closed_loop16 (u f : Frame) (b : List Bool) (hu : u.WF) (hf : f.WF) (ht : f.type ∈ taTypes16)
    (hut : u.type ∈ taTypes16) (hd : f.dir = .dl) (hb : 639 ≤ b.length) (hta : dlTaUs u = .ok f.ta) :
    ∃ rc e, encode b f = .ok (rc, e) ∧ (rc - 320) * 250 = f.ta * 4 ∧ 316 ≤ rc ∧ rc ≤ 632 := by
  obtain ⟨t, h1, h2, h3, _⟩ := C68_request u hu
  have : t = f.ta := by rw [hta] at h1; exact (Except.ok.inj h1).symm
  subst this
  have hr : f.ta = -250 ∨ f.ta = 250 ∨ ∃ k : Nat, k ≤ 39 ∧ f.ta = 500 * k := by
    cases hud : u.dir with
    | dl => exact Or.inr (Or.inr ⟨0, by omega, by rw [h2 hud]; rfl⟩)
    | ul =>
      rw [h3 hud hut]
      unfold request16
      split
      · exact Or.inr (Or.inr ⟨_, by assumption, rfl⟩)
      · split
        · exact Or.inr (Or.inl rfl)
        · split
          · exact Or.inl rfl
          · exact Or.inr (Or.inr ⟨0, by omega, rfl⟩)
  have hta' : TaOk f := by
    unfold TaOk
    rcases hr with h | h | ⟨k, hk, h⟩ <;> rw [h] <;> constructor <;> omega
  have hq : (f.ta * 4).tdiv 250 ≤ 312 ∧ -4 ≤ (f.ta * 4).tdiv 250 ∧ (f.ta * 4).tdiv 250 * 250 = f.ta * 4 := by
    rcases hr with h | h | ⟨k, hk, h⟩
    · rw [h]; decide
    · rw [h]; decide
    · rw [h, Int.tdiv_eq_ediv_of_nonneg (by omega)]; omega
  obtain ⟨rc, e, r1, r2, _⟩ := C28_ta16_partial f b hf ht hta' hb hd hq.1
  exact ⟨rc, e, r1, by omega, by omega, by omega⟩

/-- **C68** Closed loop on 8k (125 us are one bit). -/
theorem C68_closed_loop8 (u f : Frame) (b : List Bool) (hu : u.WF) (hf : f.WF) (ht : f.type ∈ taTypes8)
    (hut : u.type = .speech8 ∨ u.type = .amrLow8) (hd : f.dir = .dl) (hb : 319 ≤ b.length)
    (hta : dlTaUs u = .ok f.ta) :
    ∃ rc e, encode b f = .ok (rc, e) ∧ (rc - 160) * 250 = f.ta * 2 ∧ 158 ≤ rc ∧ rc ≤ 316 := by
  obtain ⟨t, h1, h2, _, h3, h4, _⟩ := C68_request u hu
  have : t = f.ta := by rw [hta] at h1; exact (Except.ok.inj h1).symm
  subst this
  have hr16 : ∀ n, request16 n = -250 ∨ request16 n = 250 ∨ ∃ k : Nat, k ≤ 39 ∧ request16 n = 500 * k := by
    intro n
    unfold request16
    split
    · exact Or.inr (Or.inr ⟨_, by assumption, rfl⟩)
    · split
      · exact Or.inr (Or.inl rfl)
      · split
        · exact Or.inl rfl
        · exact Or.inr (Or.inr ⟨0, by omega, rfl⟩)
  have hr8 : ∀ x y z : Bool, request8 (val [x, y, z]) ∈ [9000, 6000, 2000, 500, 1000, 250, -250, 0] := by decide
  have hr : f.ta = -250 ∨ f.ta = 250 ∨ ∃ k : Nat, k ≤ 39 ∧ f.ta = 500 * k := by
    cases hud : u.dir with
    | dl => exact Or.inr (Or.inr ⟨0, by omega, by rw [h2 hud]; rfl⟩)
    | ul =>
      rcases hut with hut | hut
      · rw [h3 hud hut]
        obtain ⟨c, hcc⟩ := exists_L' hu.c
        rw [hcc]
        have := hr8 (c 5) (c 6) (c 7)
        change request8 (val ((List.drop 5 (L 25 c)).take 3)) ∈ _ at this
        generalize request8 (val ((List.drop 5 (L 25 c)).take 3)) = z at this
        simp only [List.mem_cons, List.not_mem_nil, or_false] at this
        rcases this with h | h | h | h | h | h | h | h
        · exact Or.inr (Or.inr ⟨18, by omega, by omega⟩)
        · exact Or.inr (Or.inr ⟨12, by omega, by omega⟩)
        · exact Or.inr (Or.inr ⟨4, by omega, by omega⟩)
        · exact Or.inr (Or.inr ⟨1, by omega, by omega⟩)
        · exact Or.inr (Or.inr ⟨2, by omega, by omega⟩)
        · exact Or.inr (Or.inl h)
        · exact Or.inl h
        · exact Or.inr (Or.inr ⟨0, by omega, by omega⟩)
      · rw [h4 hud hut]
        split
        · exact hr16 _
        · exact Or.inr (Or.inr ⟨0, by omega, rfl⟩)
  have hta' : TaOk f := by
    unfold TaOk
    rcases hr with h | h | ⟨k, hk, h⟩ <;> rw [h] <;> constructor <;> omega
  have hq : (f.ta * 2).tdiv 250 ≤ 156 ∧ -2 ≤ (f.ta * 2).tdiv 250 ∧ (f.ta * 2).tdiv 250 * 250 = f.ta * 2 := by
    rcases hr with h | h | ⟨k, hk, h⟩
    · rw [h]; decide
    · rw [h]; decide
    · rw [h, Int.tdiv_eq_ediv_of_nonneg (by omega)]; omega
  obtain ⟨rc, e, r1, r2, _⟩ := C67_ta8 f b hf ht hta' hb
  have hrc := r2 hd
  obtain ⟨q1, q2, q3⟩ := hq
  clear r2 hr
  generalize (f.ta * 2).tdiv 250 = q at *
  generalize f.ta = z at *
  refine ⟨rc, e, r1, ?_, ?_, ?_⟩ <;> omega

end Verif.Trau
