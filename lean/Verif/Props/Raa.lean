import Verif.Proof.RaaPrimeSafe
import Verif.Spec.Sync
/-!
# C01 – C05: RA2 rate adaption and A-TRAU (RAA') frames
-/
namespace Verif.Raa
open Verif RaaPrime Ra2 Spec
set_option linter.unusedSimpArgs false
set_option maxRecDepth 4000

/-! ### Helper lemmas (private) -/

private theorem u8_bit7 (b : Bool) : (((0x7F ||| (u8 b <<< 7)) >>> 7) &&& 1 == (1 : Byte)) = b := by
  cases b <;> decide

private theorem pack8From_spec (bits : List Bool) : ∀ n i, i + n ≤ bits.length →
    ∃ out, pack8From bits i n = .ok out ∧ out.length = n ∧
      unpack8 out = (bits.drop i).take n ∧ ∀ o ∈ out, o &&& 0x7F = (0x7F : Byte) := by
  intro n
  induction n with
  | zero => intro i _; exact ⟨[], rfl, rfl, by simp [unpack8], by simp⟩
  | succ n ih =>
    intro i h
    obtain ⟨out, h1, h2, h3, h4⟩ := ih (i + 1) (by omega)
    refine ⟨(0x7F ||| (u8 bits[i] <<< 7)) :: out, ?_, by simp [h2], ?_, ?_⟩
    · rw [pack8From, rd_ok (by omega)]; simp only [bind_ok, h1]
    · rw [List.drop_eq_getElem_cons (by omega : i < bits.length), List.take_succ_cons, ← h3]
      simp only [unpack8, List.map_cons, u8_bit7]
    · intro o ho
      rcases List.mem_cons.1 ho with rfl | ho
      · cases bits[i] <;> decide
      · exact h4 o ho

private theorem pack16From_spec (bits : List Bool) : ∀ n i, i + 2 * n ≤ bits.length →
    ∃ out, pack16From bits i n = .ok out ∧ out.length = n ∧
      unpack16 out = (bits.drop i).take (2 * n) ∧ ∀ o ∈ out, o &&& 0x3F = (0x3F : Byte) := by
  intro n
  induction n with
  | zero => intro i _; exact ⟨[], rfl, rfl, by simp [unpack16], by simp⟩
  | succ n ih =>
    intro i h
    obtain ⟨out, h1, h2, h3, h4⟩ := ih (i + 2) (by omega)
    refine ⟨((0x3F ||| (u8 bits[i] <<< 7)) ||| (u8 bits[i + 1] <<< 6)) :: out, ?_, by simp [h2], ?_, ?_⟩
    · rw [pack16From, rd_ok (by omega), rd_ok (i := i + 1) (by omega)]; simp only [bind_ok, h1]
    · rw [List.drop_eq_getElem_cons (by omega : i < bits.length),
        List.drop_eq_getElem_cons (by omega : i + 1 < bits.length),
        show 2 * (n + 1) = 2 * n + 1 + 1 by omega, List.take_succ_cons, List.take_succ_cons, ← h3]
      simp only [unpack16]
      generalize bits[i] = a
      generalize bits[i + 1] = b
      cases a <;> cases b <;> simp [u8]
    · intro o ho
      rcases List.mem_cons.1 ho with rfl | ho
      · generalize bits[i] = a
        generalize bits[i + 1] = b
        cases a <;> cases b <;> decide
      · exact h4 o ho

/-! ### C01 -/

/-- **C01 (8k)** Packing any `bits` succeeds, produces one octet per bit, unpacking gives the bits
back, and the seven unused bits of every octet are one. -/
theorem C01_ra2_8k (bits : List Bool) :
    ∃ out, pack8 bits bits.length = .ok out ∧ out.length = bits.length ∧ unpack8 out = bits ∧
      ∀ o ∈ out, ∀ i < 7, o.getLsbD i = true := by
  obtain ⟨out, h1, h2, h3, h4⟩ := pack8From_spec bits bits.length 0 (by omega)
  refine ⟨out, h1, h2, by simpa using h3, ?_⟩
  intro o ho i hi
  have := congrArg (fun v => BitVec.getLsbD v i) (h4 o ho)
  simp only [BitVec.getLsbD_and] at this
  have h7 : (0x7F : Byte).getLsbD i = true := by
    have : ∀ j : Fin 7, (0x7F : Byte).getLsbD j = true := by decide
    exact this ⟨i, hi⟩
  rw [h7] at this
  simpa using this

/-- **C01 (16k)** Two bits per octet. -/
theorem C01_ra2_16k (bits : List Bool) (n : Nat) (h : bits.length = 2 * n) :
    ∃ out, pack16 bits n = .ok out ∧ out.length = n ∧ unpack16 out = bits ∧
      ∀ o ∈ out, ∀ i < 6, o.getLsbD i = true := by
  obtain ⟨out, h1, h2, h3, h4⟩ := pack16From_spec bits n 0 (by omega)
  refine ⟨out, h1, h2, by rw [h3, List.drop_zero, ← h, List.take_length], ?_⟩
  intro o ho i hi
  have := congrArg (fun v => BitVec.getLsbD v i) (h4 o ho)
  simp only [BitVec.getLsbD_and] at this
  have h7 : (0x3F : Byte).getLsbD i = true := by
    have : ∀ j : Fin 6, (0x3F : Byte).getLsbD j = true := by decide
    exact this ⟨i, hi⟩
  rw [h7] at this
  simpa using this

private theorem bit7 (a : Byte) : ((a >>> 7) &&& 1 == 1) = a.getLsbD 7 := by
  revert a; decide +kernel
private theorem bit6 (a : Byte) : ((a >>> 6) &&& 1 == 1) = a.getLsbD 6 := by
  revert a; decide +kernel

/-- **C01 (8k receive)** bit `i` of the result is the most significant bit of octet `i`, whatever
the other bits are. -/
theorem C01_ra2_8k_rx (bytes : List Byte) : unpack8 bytes = bytes.map (fun b => b.getLsbD 7) := by
  simp only [unpack8, bit7]

/-- **C01 (16k receive)** the result consists of the two most significant bits of each octet. -/
theorem C01_ra2_16k_rx (bytes : List Byte) :
    unpack16 bytes = bytes.flatMap (fun b => [b.getLsbD 7, b.getLsbD 6]) := by
  induction bytes with
  | nil => rfl
  | cons b l ih => simp only [unpack16, bit7, bit6, ih, List.flatMap_cons, List.cons_append,
      List.nil_append]

example : unpack8 [0x80, 0x7f, 0xff] = [true, false, true] := by decide
example : pack16 [true, false, false, true] 2 = .ok [0xbf, 0x7f] := by decide

/-! ### C02, C03 -/

/-- **C02** Any M bits, 288 D bits, C4, C5 survive encoding and decoding. -/
theorem C02_atrau_roundtrip (m0 m1 c4 c5 : Bool) (d : List Bool) (hd : d.length = 288) :
    ∃ frame, toAtrauBits [m0, m1] d c4 c5 = .ok frame ∧
      fromAtrauBits frame = .ok (some { m := [m0, m1], d := d, c4 := c4, c5 := c5 }) :=
  ⟨_, toAtrauBits_eq m0 m1 d c4 c5 hd, fromAtrauBits_enc m0 m1 d c4 c5 hd⟩

/-- **C02** The same through the 160 RA2 octets. -/
theorem C02_atrau_ra2_roundtrip (m0 m1 c4 c5 : Bool) (d : List Bool) (hd : d.length = 288) :
    ∃ octets, toAtrauRa2 [m0, m1] d c4 c5 = .ok octets ∧ octets.length = 160 ∧
      fromAtrauRa2 octets = .ok (some { m := [m0, m1], d := d, c4 := c4, c5 := c5 }) := by
  obtain ⟨out, h1, h2, h3, _⟩ := C01_ra2_16k (encFrame m0 m1 d c4 c5) 160
    (encFrame_length m0 m1 d c4 c5 hd)
  refine ⟨out, ?_, h2, ?_⟩
  · rw [toAtrauRa2, toAtrauBits_eq m0 m1 d c4 c5 hd]; exact h1
  · rw [fromAtrauRa2, List.take_of_length_le (by omega), h3]
    exact fromAtrauBits_enc m0 m1 d c4 c5 hd

/-- a D-bit vector exercising zero suppression: 36 zeros, then ones -/
example : (List.replicate 36 false ++ List.replicate 252 true).length = 288 := by simp

/-- **C03** For every input of the documented size the encoder neither asserts, nor accesses
anything out of bounds, nor leaves one of the 320 bits unwritten. -/
theorem C03_atrau_encode_safe (m d : List Bool) (c4 c5 : Bool) (hm : m.length = 2)
    (hd : d.length = 288) :
    ∃ frame, toAtrauBits m d c4 c5 = .ok frame ∧ frame.length = 320 := by
  match m, hm with
  | [m0, m1], _ => exact ⟨_, toAtrauBits_eq m0 m1 d c4 c5 hd, encFrame_length m0 m1 d c4 c5 hd⟩

/-! ### C04 -/

/-- Specification: `s` is a back-to-back sequence of frames produced by the encoder. -/
inductive EncodedStream : List Bool → Prop
  | nil : EncodedStream []
  | snoc (s frame m d : List Bool) (c4 c5 : Bool) : EncodedStream s → m.length = 2 →
      d.length = 288 → toAtrauBits m d c4 c5 = .ok frame → EncodedStream (s ++ frame)

private theorem stream_inv {s : List Bool} (h : EncodedStream s) :
    s.length % 320 = 0 ∧ runEnd 0 s ≤ 7 ∧ ∀ i, SyncAt s i → i % 320 = 16 := by
  induction h with
  | nil => exact ⟨rfl, by simp [runEnd], fun i h => by have := h.2.1; simp at this⟩
  | snoc s frame m d c4 c5 _ hm hd he ih =>
    obtain ⟨h1, h2, h3⟩ := ih
    match m, hm with
    | [m0, m1], _ =>
    rw [toAtrauBits_eq m0 m1 d c4 c5 hd] at he
    have he' := Except.ok.inj he
    subst he'
    have hl := encFrame_length m0 m1 d c4 c5 hd
    refine ⟨by simp [hl]; omega, by rw [runEnd_append]; exact frame_end m0 m1 d c4 c5 hd _, ?_⟩
    intro i hi
    by_cases hlt : i < s.length
    · refine h3 i ⟨hi.1, ?_, ?_⟩
      · have := hi.2.1; rwa [List.getElem?_append_left hlt] at this
      · intro j h4 h5
        have := hi.2.2 j h4 h5
        rwa [List.getElem?_append_left (by omega)] at this
    · have hb : i < s.length + 320 := by
        have := hi.2.1
        rcases Nat.lt_or_ge i (s.length + 320) with h | h
        · exact h
        · rw [List.getElem?_eq_none (by simp [hl]; omega)] at this; cases this
      have := runEnd_take_ge (s ++ encFrame m0 m1 d c4 c5) 16 i 0 hi.1 (by simp [hl]; omega) hi.2.2
      rw [List.take_append, List.take_of_length_le (by omega), runEnd_append] at this
      have hs := frame_sync m0 m1 d c4 c5 hd _ (i - s.length) (by omega)
        (by have := hi.2.1; rwa [List.getElem?_append_right (by omega)] at this) this
      omega

/-- **C04** In any back-to-back stream of encoded frames the sync pattern is seen only at the true
frame starts. -/
theorem C04_no_sync_emulation (s : List Bool) (h : EncodedStream s) (i : Nat) (hi : SyncAt s i) :
    i % 320 = 16 := (stream_inv h).2.2 i hi

/-- **C04** … and it *is* seen at every frame start. -/
theorem C04_sync_present (s : List Bool) (h : EncodedStream s) (k : Nat) (hk : 320 * k < s.length) :
    SyncAt s (320 * k + 16) := by
  induction h with
  | nil => simp at hk
  | snoc s frame m d c4 c5 hs hm hd he ih =>
    have hmod := (stream_inv hs).1
    match m, hm with
    | [m0, m1], _ =>
    rw [toAtrauBits_eq m0 m1 d c4 c5 hd] at he
    have he' := Except.ok.inj he
    subst he'
    have hl := encFrame_length m0 m1 d c4 c5 hd
    by_cases hlt : 320 * k < s.length
    · obtain ⟨a, b, c⟩ := ih hlt
      refine ⟨by omega, ?_, ?_⟩
      · rw [List.getElem?_append_left (by omega)]; exact b
      · intro j h1 h2; rw [List.getElem?_append_left (by omega)]; exact c j h1 h2
    · have hk' : 320 * k = s.length := by simp [hl] at hk; omega
      refine ⟨by omega, ?_, ?_⟩
      · rw [List.getElem?_append_right (by omega), show 320 * k + 16 - s.length = 16 by omega]
        simp [encFrame, hdr]
      · intro j h1 h2
        rw [List.getElem?_append_right (by omega), encFrame, hdr, List.append_assoc,
          List.getElem?_append_left (by simp; omega), List.getElem?_replicate_of_lt (by omega)]

/-- a two-frame stream with the worst case contents exists -/
example : ∃ s, EncodedStream s ∧ s.length = 640 := by
  have hd : (List.replicate 288 false).length = 288 := List.length_replicate ..
  refine ⟨_, .snoc _ _ [false, false] _ false false
    (.snoc [] _ [false, false] _ false false .nil rfl hd (toAtrauBits_eq false false _ _ _ hd))
    rfl hd (toAtrauBits_eq false false _ _ _ hd), ?_⟩
  rw [List.length_append, List.length_append, encFrame_length _ _ _ _ _ hd]; rfl

/-! ### C05 -/

/-- **C05** On every 320 received bits the decoder returns; if it returns 0 all 288 D bits have been
written. -/
theorem C05_atrau_decode_safe (a : List Bool) (ha : a.length = 320) :
    fromAtrauBits a = .ok none ∨
    ∃ r, fromAtrauBits a = .ok (some r) ∧ r.d.length = 288 ∧ r.m.length = 2 := by
  rw [fromAtrauBits, slice_ok (by omega), rd_ok (by omega : 20 < a.length),
    rd_ok (by omega : 21 < a.length), rd_ok (by omega : 22 < a.length),
    rd_ok (by omega : 23 < a.length)]
  simp only [bind_ok]
  by_cases hh : (a.drop 0).take 20 ≠ headerBits
  · left; rw [if_pos hh]
  · rw [if_neg hh]
    have := decodeSubframes_safe a 8 24 0 (by omega) [] 288 rfl (by omega)
    simp only [List.nil_append] at this
    rcases this with h | ⟨x, hx, h⟩
    · left; rw [h]; rfl
    · right
      refine ⟨⟨[a[22], a[23]], x, a[20], a[21]⟩, ?_, hx, rfl⟩
      rw [h]
      simp [collect_map_some]

/-- **C05** Through the RA2 form: any 160 received octets. -/
theorem C05_atrau_ra2_decode_safe (bytes : List Byte) (h : bytes.length = 160) :
    fromAtrauRa2 bytes = .ok none ∨
    ∃ r, fromAtrauRa2 bytes = .ok (some r) ∧ r.d.length = 288 ∧ r.m.length = 2 := by
  refine C05_atrau_decode_safe _ ?_
  have : ∀ l : List Byte, (unpack16 l).length = 2 * l.length := by
    intro l
    induction l with
    | nil => rfl
    | cons b l ih => simp [unpack16, ih]; omega
  rw [this]; simp [h]

/-- **C05** Acceptance of the header is exact: a frame whose first 20 bits are not the alignment
pattern followed by C1..C3 is rejected. -/
theorem C05_atrau_bad_header (a : List Bool) (ha : a.length = 320)
    (h : a.take 20 ≠ List.replicate 16 false ++ [true, false, true, true]) :
    fromAtrauBits a = .ok none := by
  rw [fromAtrauBits, slice_ok (by omega)]
  simp only [bind_ok, List.drop_zero]
  rw [if_pos (by unfold headerBits; exact h)]

/-- a malformed frame is rejected, a frame with all ones data accepted -/
example : fromAtrauBits (headerBits ++ List.replicate 300 false) = .ok none ∧
    (List.replicate 320 true).length = 320 := by
  constructor
  · decide +kernel
  · simp

end Verif.Raa
