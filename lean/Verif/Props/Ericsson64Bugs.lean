import Verif.Props.Ericsson64Enc
/-! # Ericsson GPRS TRAU frames, 64 kbit/s: what is right and what is not (C37, C77) -/
namespace Verif.Ericsson
open Verif Spec
open Verif.RaaPrime (bind_ok bind_err)
set_option maxRecDepth 10000

/-! ### encoder -/

theorem ctl_ok_tab : ∀ ft ∈ [0x1A, 0x04], ∀ tav ∈ [0, 1, 2], ∀ err ∈ [false, true],
    ([true, !err] = [!err, odd (lsb 5 ft ++ lsb 2 tav ++ [!err])]) ↔ (tav = 0 ∧ err = false) := by decide +kernel

theorem ctl_ok (ft tav : Nat) (err : Bool) (hf : ft = 0x1A ∨ ft = 0x04) (ht : tav < 3) :
    ([true, !err] = [!err, odd (lsb 5 ft ++ lsb 2 tav ++ [!err])]) ↔ (tav = 0 ∧ err = false) :=
  ctl_ok_tab ft (by simpa using hf) tav (by simp; omega) err (by cases err <;> simp)

theorem pcuFrame64_shape (i : PcuData) (hd : i.data.length = 155) (F : List Bool) (hF : pcuFrame64 i = some F) :
    ∃ P R ft, (ft = 0x1A ∨ ft = 0x04) ∧ P.length = 72 ∧
      F = P ++ [!i.ulFrameErr, odd (lsb 5 ft ++ lsb 2 i.tav ++ [!i.ulFrameErr])] ++ R := by
  have hbl := bitsOf_length i.data
  have hl48 : ((bitsOf i.data).take 48).length = 48 := by rw [List.length_take]; omega
  have hA (c : Nat) (p : List Bool) : pcuData64 i c p = (zeros 64 ++ [true] ++ (lsb 5 0x1A ++ lsb 2 i.tav)) ++
      [!i.ulFrameErr, odd (lsb 5 0x1A ++ lsb 2 i.tav ++ [!i.ulFrameErr])] ++ (ext64 i c ++ ones 21 ++ p ++ ones (1164 - p.length)) := by
    simp only [pcuData64, ctl, withParity, List.append_assoc, List.cons_append, List.nil_append]
  have hB : pcuData64Mcs9 i = (zeros 16 ++ [true] ++ (bitsOf i.data).take 48 ++ (lsb 5 0x04 ++ lsb 2 i.tav)) ++
      [!i.ulFrameErr, odd (lsb 5 0x04 ++ lsb 2 i.tav ++ [!i.ulFrameErr])] ++
      (withParity (msb 3 (modeNo i.mode) ++ ones 2 ++ msb 4 i.attenDb) ++ ((bitsOf i.data).drop 48).take 1180 ++ ones 32) := by
    simp only [pcuData64Mcs9, ctl, withParity, List.append_assoc, List.cons_append, List.nil_append]
  have gA (c : Nat) (p : List Bool) (h : pcuData64 i c p = F) : ∃ P R ft, (ft = 0x1A ∨ ft = 0x04) ∧ P.length = 72 ∧
      F = P ++ [!i.ulFrameErr, odd (lsb 5 ft ++ lsb 2 i.tav ++ [!i.ulFrameErr])] ++ R :=
    ⟨zeros 64 ++ [true] ++ (lsb 5 0x1A ++ lsb 2 i.tav), _, 0x1A, .inl rfl, by simp only [List.length_append, lsb_length]; rfl, by rw [← h]; exact hA c p⟩
  have gB (h : pcuData64Mcs9 i = F) : ∃ P R ft, (ft = 0x1A ∨ ft = 0x04) ∧ P.length = 72 ∧
      F = P ++ [!i.ulFrameErr, odd (lsb 5 ft ++ lsb 2 i.tav ++ [!i.ulFrameErr])] ++ R :=
    ⟨zeros 16 ++ [true] ++ (bitsOf i.data).take 48 ++ (lsb 5 0x04 ++ lsb 2 i.tav), _, 0x04, .inr rfl, by simp only [List.length_append, lsb_length, hl48]; rfl, by rw [← h]; exact hB⟩
  unfold pcuFrame64 at hF
  split at hF
  · cases hF
  · exact gA _ _ (Option.some.inj hF)
  · exact gA _ _ (Option.some.inj hF)
  · exact gA _ _ (Option.some.inj hF)
  · exact gA _ _ (Option.some.inj hF)
  · split at hF
    · split at hF
      · exact gB (Option.some.inj hF)
      · exact gA _ _ (Option.some.inj hF)
    · cases hF

/-- **C37, encoder, data frames**: the documented frame is sent if and only if neither a time adjustment nor a frame error is
to be signalled. -/
theorem C37_encode_data_violated (b : List Bool) (hb : b.length = 1296) (i : PcuData) (ht : i.tav < 3) (hd : i.data.length = 155)
    (F : List Bool) (hF : pcuFrame64 i = some F) :
    encode64 b (.data i) = .ok (txLen 64 i.tav, F) ↔ i.tav = 0 ∧ i.ulFrameErr = false := by
  rw [C37_encode_data_partial b hb i ht hd F hF]
  obtain ⟨P, R, ft, hf, hP, e⟩ := pcuFrame64_shape i hd F hF
  rw [← ctl_ok ft i.tav i.ulFrameErr hf ht]
  rw [e, misplaced_eq _ _ _ _ _ hP]
  constructor
  · intro h
    have := (Prod.mk.inj (Except.ok.inj h)).2
    exact List.append_cancel_left (List.append_cancel_right this)
  · intro h; rw [h]

/-- **C37, encoder: an up-link frame error is never signalled**: C8 is 1 in every frame. -/
theorem C37_error_never_signalled_violated (b : List Bool) (hb : b.length = 1296) (i : PcuData) (ht : i.tav < 3) (hd : i.data.length = 155)
    (F : List Bool) (hF : pcuFrame64 i = some F) : ∃ out, encode64 b (.data i) = .ok (txLen 64 i.tav, out) ∧ fld out 72 1 = [true] := by
  refine ⟨_, C37_encode_data_partial b hb i ht hd F hF, ?_⟩
  obtain ⟨P, R, ft, hf, hP, e⟩ := pcuFrame64_shape i hd F hF
  rw [e, misplaced_eq _ _ _ _ _ hP]
  unfold fld
  rw [List.append_assoc, List.drop_left' hP]
  rfl

/-- **C37, encoder, sync frames**: everything is as documented but the bits 72..74 (C8, PC and the bit behind) and the field FN_SS,
which is sent with 15 instead of 16 bits. -/
theorem C37_encode_sync_partial (b : List Bool) (hb : b.length = 1296) (i : PcuSync) (ht : i.tav < 3) :
    ∃ out, encode64 b (.sync i) = .ok (txLen 64 i.tav, out) ∧ out.length = 1296 ∧
      fld out 0 72 = fld (pcuSync64 i) 0 72 ∧ fld out 75 197 = fld (pcuSync64 i) 75 197 ∧ fld out 288 1008 = fld (pcuSync64 i) 288 1008 ∧
      fld out 72 3 = [true, !i.ulFrameErr, odd (lsb 5 0x0F ++ lsb 2 i.tav ++ [true])] ∧ fld out 272 16 = msb 15 i.fnSs ++ [true] := by
  refine ⟨_, encode64_sync b hb i ht, ?_⟩
  obtain ⟨tav, err, pseq, ss, fnUl, fnSs, fnDl, ls⟩ := i
  refine ⟨by show _ = _; kernel_rfl, ?_, ?_, ?_, by show _ = _; kernel_rfl, by show _ = _; kernel_rfl⟩
  · show _ = _; kernel_rfl
  · show _ = _; kernel_rfl
  · show _ = _; kernel_rfl

/-- **C37, encoder, sync frames**: the documented frame is sent if and only if there is a time adjustment, no frame error, and FN_SS
has (by chance) the right form. -/
theorem C37_encode_sync_violated (b : List Bool) (hb : b.length = 1296) (i : PcuSync) (ht : i.tav < 3) :
    encode64 b (.sync i) = .ok (txLen 64 i.tav, pcuSync64 i) ↔
      i.tav ≠ 0 ∧ i.ulFrameErr = false ∧ msb 16 i.fnSs = msb 15 i.fnSs ++ [true] := by
  obtain ⟨out, he, hl, h1, h2, h3, h4, h5⟩ := C37_encode_sync_partial b hb i ht
  have hl' : (pcuSync64 i).length = 1296 := by show _ = _; kernel_rfl
  have key : out = pcuSync64 i ↔ fld out 72 3 = fld (pcuSync64 i) 72 3 ∧ fld out 272 16 = fld (pcuSync64 i) 272 16 := by
    constructor
    · rintro rfl; exact ⟨rfl, rfl⟩
    · rintro ⟨k1, k2⟩
      have split (l : List Bool) (hl : l.length = 1296) : l = fld l 0 72 ++ fld l 72 3 ++ fld l 75 197 ++ fld l 272 16 ++ fld l 288 1008 := by
        unfold fld
        rw [List.drop_zero]
        have e1 : l.take 72 ++ (l.drop 72).take 3 = l.take 75 := by rw [← List.take_add]
        have e2 : l.take 75 ++ (l.drop 75).take 197 = l.take 272 := by rw [← List.take_add]
        have e3 : l.take 272 ++ (l.drop 272).take 16 = l.take 288 := by rw [← List.take_add]
        have e4 : l.take 288 ++ (l.drop 288).take 1008 = l.take 1296 := by rw [← List.take_add]
        rw [e1, e2, e3, e4, List.take_of_length_le (by omega)]
      rw [split out hl, split (pcuSync64 i) hl', h1, h2, h3, k1, k2]
  rw [he]
  have f72 : fld (pcuSync64 i) 72 3 = [!i.ulFrameErr, odd (lsb 5 0x0F ++ lsb 2 i.tav ++ [!i.ulFrameErr]), true] := by show _ = _; kernel_rfl
  have f272 : fld (pcuSync64 i) 272 16 = msb 16 i.fnSs := by show _ = _; kernel_rfl
  have tab : ∀ tav ∈ [0, 1, 2], ∀ err ∈ [false, true],
    ([true, !err, odd (lsb 5 0x0F ++ lsb 2 tav ++ [true])] = [!err, odd (lsb 5 0x0F ++ lsb 2 tav ++ [!err]), true]) ↔ (tav ≠ 0 ∧ err = false) := by
    decide +kernel
  have t := tab i.tav (by simp; omega) i.ulFrameErr (by cases i.ulFrameErr <;> simp)
  rw [f72, h4, t, f272, h5] at key
  constructor
  · intro h
    have := key.1 (Prod.mk.inj (Except.ok.inj h)).2
    exact ⟨this.1.1, this.1.2, this.2.symm⟩
  · rintro ⟨k1, k2, k3⟩
    rw [key.2 ⟨⟨k1, k2⟩, k3.symm⟩]

/-! ### decoder -/

/-- **C37, decoder**: the bit error probabilities of an EGPRS frame are delivered only if they are zero. -/
theorem C37_bep_violated (g b : List Bool) (hg : g.length = 1234) (hb : b.length = 1280) (j : CcuData) (h : IsCcuData64 b j)
    (m c : Nat) (x y z : Bool) (hq : j.qual = .egprs m c x y z) :
    decode64 g b = .ok (0, .data j) ↔ m = 0 ∧ c = 0 := by
  have hft : fld b 65 5 ≠ lsb 5 0x04 := by rw [h.ft]; decide
  rw [(C37_decode_data_partial g b hg hb hft { j with qual := bepBug j.qual }).2 ⟨j, h, rfl⟩]
  constructor
  · intro e
    have := congrArg CcuData.qual (DecFrame.data.inj (Prod.mk.inj (Except.ok.inj e)).2)
    dsimp only at this
    rw [hq] at this
    simp only [bepBug, Qual.egprs.injEq] at this
    omega
  · rintro ⟨rfl, rfl⟩
    rw [hq]; dsimp only [bepBug]; rw [← hq]

/-- **C37, decoder**: no MCS-9 frame is ever delivered as it was sent (at least its length is missing). -/
theorem C37_decode_mcs9_violated (g b : List Bool) (hg : g.length = 1234) (hb : b.length = 1280) (j : CcuData) (h : IsCcuMcs9 b j) :
    decode64 g b ≠ .ok (0, .data j) := by
  obtain ⟨d, e, _⟩ := C37_decode_mcs9_partial g b hg hb j h
  rw [e]
  intro hh
  have := congrArg CcuData.dataLen (DecFrame.data.inj (Prod.mk.inj (Except.ok.inj hh)).2)
  rw [h.data.2] at this
  cases this

theorem decode64_mcs9_eq (g b : List Bool) (hg : g.length = 1234) (hb : b.length = 1280) (j : CcuData) (h : IsCcuMcs9 b j) :
    ∃ d, decode64 g b = .ok (0, .data { j with qual := bepBug j.qual, data := d, dataLen := 0 }) ∧ Delivers d (mcs9Got g b) := by
  obtain ⟨u1, u2, u3⟩ := ccu64_ft (b := b)
  rcases decode64_cases g b hg hb with ⟨x, hd, hx⟩ | ⟨i, hd, hx⟩ | ⟨hd, _, _, hx⟩
  · exact absurd h (u2 _ _ hx)
  · rcases hx with ⟨x, hx, _⟩ | ⟨x, hx, hdel, hi⟩
    · exact absurd h (u3 _ _ hx)
    · obtain ⟨r, _, hii⟩ := decMcs9_ok g b hg hb h.sync h.ft
      have e := Option.some.inj (((hii i).2 ⟨x, hx, hdel, hi⟩).symm.trans ((hii { j with qual := bepBug j.qual, data := i.data, dataLen := 0 }).2 ⟨j, h, hdel, rfl⟩))
      exact ⟨i.data, by rw [hd, ← e], hdel⟩
  · exact absurd h (hx j)

/-- `b` with the 15 bits D34..D48 replaced -/
def withD34 (b x : List Bool) : List Bool := b.take 50 ++ x ++ b.drop 65

theorem withD34_fld (b x : List Bool) (hb : b.length = 1280) (hx : x.length = 15) (o n : Nat) (h : o + n ≤ 50 ∨ 65 ≤ o) :
    fld (withD34 b x) o n = fld b o n := by
  unfold fld withD34
  rcases h with h | h
  · rw [List.append_assoc, List.drop_append_of_le_length (by simp; omega), List.take_append_of_le_length (by simp; omega),
      List.drop_take, List.take_take, Nat.min_eq_left (by omega)]
  · rw [List.drop_append, List.drop_of_length_le (by simp; omega), List.drop_drop]
    simp only [List.length_append, List.length_take, List.nil_append]
    congr 2
    omega

/-- **C37, decoder**: in MCS-9 frames the bits D34..D48 are lost: whatever was sent there, the result is the same. -/
theorem C37_mcs9_lost_violated (g b x : List Bool) (hg : g.length = 1234) (hb : b.length = 1280) (hx : x.length = 15) (j : CcuData)
    (h : IsCcuMcs9 b j) : decode64 g (withD34 b x) = decode64 g b := by
  have F := fun o n => withD34_fld b x hb hx o n
  have hb' : (withD34 b x).length = 1280 := by unfold withD34; simp; omega
  have h65 : 65 + 5 ≤ b.length := by omega
  obtain ⟨d, hdel⟩ : ∃ d, Delivers d (mcs9Bits (withD34 b x)) := by
    have hl : (mcs9Bits (withD34 b x)).length = 1234 := by
      obtain ⟨f, e⟩ := exists_L' hb'
      rw [e]; rfl
    obtain ⟨d, _, hd⟩ := packData_eq (mcs9Bits (withD34 b x)) 0 1234 (by omega) (by omega)
    refine ⟨d, ?_⟩
    have : fld (mcs9Bits (withD34 b x)) 0 1234 = mcs9Bits (withD34 b x) := by
      unfold fld; rw [List.drop_zero, List.take_of_length_le (by omega)]
    rwa [this] at hd
  have h' : IsCcuMcs9 (withD34 b x) { j with data := d } := by
    refine ⟨?_, ?_, ?_, ?_, ?_, ?_, ?_, ?_, ?_, h.cs, hdel, h.data.2⟩
    · rw [F _ _ (.inl (by omega))]; exact h.sync
    · rw [F _ _ (.inr (by omega))]; exact h.ft
    · rw [F _ _ (.inr (by omega))]; exact h.tav
    · rw [F _ _ (.inr (by omega)), F _ _ (.inr (by omega))]; exact h.pc
    · rw [F _ _ (.inr (by omega))]; exact h.e1
    · rw [F _ _ (.inr (by omega))]; exact h.rxlev
    · rw [F _ _ (.inr (by omega))]; exact h.dev
    · unfold IsEgprsQual
      rw [F _ _ (.inr (by omega)), F _ _ (.inr (by omega)), F _ _ (.inr (by omega)), F _ _ (.inr (by omega)), F _ _ (.inr (by omega))]
      exact h.egprs
    · rw [F _ _ (.inr (by omega)), F _ _ (.inr (by omega))]; exact h.pe
  obtain ⟨d1, e1, k1⟩ := decode64_mcs9_eq g b hg hb j h
  obtain ⟨d2, e2, k2⟩ := decode64_mcs9_eq g _ hg hb' _ h'
  have hgot : mcs9Got g (withD34 b x) = mcs9Got g b := by
    unfold mcs9Got
    rw [F _ _ (.inl (by omega)), F _ _ (.inl (by omega)), F _ _ (.inr (by omega))]
  rw [hgot] at k2
  rw [e1, e2, Delivers.inj k1 k2]

/-- **C77** (a): what is delivered does not depend on uninitialised memory, except for MCS-9 frames. -/
theorem C77_independent_partial (g g' b : List Bool) (hb : b.length = 1280) (hft : fld b 65 5 ≠ lsb 5 0x04) :
    decode64 g b = decode64 g' b := by
  have l65 := fld_length b 65 5 (by omega)
  have h3 : lsbVal (fld b 65 5) ≠ 0x04 := fun h => hft ((lsbVal_iff l65).1 h).2
  unfold decode64
  rw [slice_fld b 65 5 (by omega)]
  simp only [bind_ok]
  split
  · rfl
  · rfl
  · exact absurd ‹_› h3
  · rfl

/-- **C77** (b): for every MCS-9 frame it does. -/
theorem C77_violated (b : List Bool) (hb : b.length = 1280) (j : CcuData) (h : IsCcuMcs9 b j) :
    decode64 (zeros 1234) b ≠ decode64 (ones 1234) b := by
  obtain ⟨d1, e1, k1⟩ := decode64_mcs9_eq (zeros 1234) b (by simp only [zeros, List.length_replicate]) hb j h
  obtain ⟨d2, e2, k2⟩ := decode64_mcs9_eq (ones 1234) b (by simp only [ones, List.length_replicate]) hb j h
  rw [e1, e2]
  intro e
  have ed : d1 = d2 := congrArg CcuData.data (DecFrame.data.inj (Prod.mk.inj (Except.ok.inj e)).2)
  have := k1.2.symm.trans ((congrArg bitsOf ed).trans k2.2)
  have := congrArg (fun l => l[1220]?) this
  obtain ⟨f, rfl⟩ := exists_L' hb
  have a1 : (mcs9Got (zeros 1234) (L 1280 f) ++ zeros (155 * 8 - (mcs9Got (zeros 1234) (L 1280 f)).length))[1220]? = some false := by kernel_rfl
  have a2 : (mcs9Got (ones 1234) (L 1280 f) ++ zeros (155 * 8 - (mcs9Got (ones 1234) (L 1280 f)).length))[1220]? = some true := by kernel_rfl
  rw [a1, a2] at this
  cases this

end Verif.Ericsson
