import Verif.Props.RtpE2e
/-!
# C72, C73, C75: where the RTP conversion does not do what its users rely on
-/
namespace Verif.RtpConv
open Verif Verif.Trau Verif.Spec.Trau Verif.Spec.Rtp
open Verif.RaaPrime (bind_ok bind_err)
set_option maxRecDepth 10000

/-! ### C72: the frame made of a payload does not depend on what the structure contained before -/

/-- **C72 (full rate)** -/
theorem C72_fr (K : Codec) (st : State) (hst : st.type = .fr) {tf1 tf2 : Frame} (h1 : tf1.WF) (h2 : tf2.WF) (hd : tf1.dir = tf2.dir)
    {data pl : List Byte} {s : List Bool} (hp : IsFr pl s) (hdata : data = pl ∨ ∃ dtxd bfi taf, data = tw001Hdr dtxd bfi taf :: pl) :
    ∃ r1 r2, rtp2trau K st tf1 data = .ok (0, r1) ∧ rtp2trau K st tf2 data = .ok (0, r2) ∧
      r1.type = r2.type ∧ payload .fr 0 r1 = payload .fr 0 r2 := by
  obtain ⟨a, b, c, hs⟩ := fr_strip hp hdata
  have e : ∀ tf, rtp2trau K st tf data = rtp2trauFr K tf data := fun tf => by rw [rtp2trau, hst]
  refine ⟨_, _, (e _).trans (rtp2trauFr_eq K h1 hs hp), (e _).trans (rtp2trauFr_eq K h2 hs hp), rfl, ?_⟩
  have hl := reverse_fr_length hp.nspeech
  simp only [payload, nC, nD, nT, nS, nM, nXC, hasCrc, hasUfi, List.take_left' hl, List.drop_zero, List.take_zero,
    List.take_left' (frC_length K _ a b c pl), hd]
  simp

/-- **C72 (enhanced full rate)** The check bits are determined by the speech bits. -/
theorem C72_efr (K : Codec) (st : State) (hst : st.type = .efr) {tf1 tf2 : Frame} (h1 : tf1.WF) (h2 : tf2.WF) (hd : tf1.dir = tf2.dir)
    {data pl : List Byte} {s : List Bool} (hp : IsEfr pl s) (hdata : data = pl ∨ ∃ dtxd bfi taf, data = tw001Hdr dtxd bfi taf :: pl) :
    ∃ r1 r2, rtp2trau K st tf1 data = .ok (0, r1) ∧ rtp2trau K st tf2 data = .ok (0, r2) ∧
      r1.type = r2.type ∧ efrSpeechBits r1.d = efrSpeechBits r2.d ∧ EfrChecksOk r1.d ∧ EfrChecksOk r2.d ∧
      r1.c.take 21 = r2.c.take 21 := by
  obtain ⟨a, b, c, hs⟩ := efr_strip hp hdata
  obtain ⟨r1, a1, _, a3, _, _, a6, a7, a8⟩ := rtp2trauEfr_all K st hst h1 hp hs
  obtain ⟨r2, b1, _, b3, _, _, b6, b7, b8⟩ := rtp2trauEfr_all K st hst h2 hp hs
  refine ⟨r1, r2, a1, b1, a3.trans b3.symm, a7.trans b7.symm, a6, b6, ?_⟩
  rw [a8, b8, List.take_left' (efrC_length K _ a b c pl), List.take_left' (efrC_length K _ a b c pl), hd]

/-- **C72 (half rate, 8k)** -/
theorem C72_hr8 (K : Codec) (st : State) (hst : st.type = .speech8) {tf1 tf2 : Frame} (h1 : tf1.WF) (h2 : tf2.WF) (hd1 : tf1.dir = .dl)
    (hd2 : tf2.dir = .dl) {data pl : List Byte} (hp : pl.length = 14) (hdata : data = pl ∨ ∃ x, data = x :: pl) :
    ∃ r1 r2, rtp2trau K st tf1 data = .ok (0, r1) ∧ rtp2trau K st tf2 data = .ok (0, r2) ∧
      r1.type = r2.type ∧ payload .speech8 0 r1 = payload .speech8 0 r2 := by
  have e : ∀ tf, rtp2trau K st tf data = rtp2trauHr8 K tf data := fun tf => by rw [rtp2trau, hst]
  refine ⟨_, _, (e _).trans (rtp2trauHr8_eq K h1 hdata hp hd1), (e _).trans (rtp2trauHr8_eq K h2 hdata hp hd2), rfl, ?_⟩
  have hl := hr_bits_length hp
  simp only [payload, nC, nD, nT, nS, nM, nXC, hasCrc, hasUfi, List.take_left' hl, List.drop_zero, List.take_zero]
  simp

/-- **C72 (half rate, 16k)** (partial) Down-link frames do not depend on the former contents, and in up-link frames everything
but C15 does not.  Missing: C15 (the time alignment flag) of up-link frames, see `C72_hr16_violated`. -/
theorem C72_hr16_partial (K : Codec) (st : State) (hst : st.type = .hr) {tf1 tf2 : Frame} (h1 : tf1.WF) (h2 : tf2.WF)
    (hd : tf1.dir = tf2.dir) {data pl : List Byte} (hp : pl.length = 14) (hdata : data = pl ∨ ∃ x, data = x :: pl) :
    ∃ r1 r2, rtp2trau K st tf1 data = .ok (0, r1) ∧ rtp2trau K st tf2 data = .ok (0, r2) ∧
      r1.type = r2.type ∧ r1.c.take 14 = r2.c.take 14 ∧ (r1.c.take 21).drop 15 = (r2.c.take 21).drop 15 ∧
      (tf1.dir = .dl → r1.c.take 21 = r2.c.take 21) ∧
      r1.d.take 112 = r2.d.take 112 ∧ r1.crc = r2.crc ∧ r1.ufi = r2.ufi := by
  obtain ⟨r1, t1, a1, a2, a3, a4, a5, a6, a7, a8, a9⟩ := rtp2trauHr16_all K st hst h1 hp hdata
  obtain ⟨r2, t2, b1, b2, b3, b4, b5, b6, b7, b8, b9⟩ := rtp2trauHr16_all K st hst h2 hp hdata
  refine ⟨r1, r2, a1, b1, a3.trans b3.symm, ?_, ?_, ?_, a5.trans b5.symm, a6.trans b6.symm, by rw [a9, b9, hd]⟩
  · rw [a8, b8, hd]; cases tf2.dir <;> rfl
  · rw [a8, b8, hd]; cases tf2.dir <;> rfl
  · intro h; rw [a8, b8, ← hd, h]; rfl

/-- **C72** is false for up-link half rate frames: *every* payload, for every former contents, gives a frame whose C15 is what C15
was before. -/
theorem C72_hr16_violated (K : Codec) (st : State) (hst : st.type = .hr) {tf : Frame} (h : tf.WF) (hd : tf.dir = .ul)
    {data pl : List Byte} (hp : pl.length = 14) (hdata : data = pl ∨ ∃ x, data = x :: pl) :
    ∃ r, rtp2trau K st tf data = .ok (0, r) ∧ r.c[14]? = tf.c[14]? := by
  obtain ⟨r, t, a1, _, _, _, _, _, a7, a8, _⟩ := rtp2trauHr16_all K st hst h hp hdata
  exact ⟨r, a1, by rw [a8, a7, hd]; rfl⟩

/-- two frames that differ in a stale C15 only, and the frames they become -/
example : ((rtp2trau K0 ⟨.hr, false, false, false⟩ (Frame0 .ul) exFr.tail.tail).toOption.map (·.1)) = some (-EINVAL) := by decide +kernel
example : ∃ tf1 tf2 : Frame, tf1.WF ∧ tf2.WF ∧ tf1.dir = .ul ∧ tf2.dir = .ul ∧
    ((rtp2trau K0 ⟨.hr, false, false, false⟩ tf1 (exFr.take 14)).toOption.map fun r => r.2.c[14]?) = some (some false) ∧
    ((rtp2trau K0 ⟨.hr, false, false, false⟩ tf2 (exFr.take 14)).toOption.map fun r => r.2.c[14]?) = some (some true) :=
  ⟨Frame0 .ul, { Frame0 .ul with c := List.replicate 25 true }, Frame0_WF _, by constructor <;> rfl, rfl, rfl, by decide +kernel, by
    decide +kernel⟩

/-! ### C73: down-link without speech: the idle code does not reach the wire -/

/-- **C73** is false: for an empty payload in the down-link the conversion puts the code of an idle speech frame into C1..C5, but the
bits on the wire have the code of a (good) full rate speech frame. -/
theorem C73_fr_violated (K : Codec) (st : State) (hst : st.type = .fr) {tf f0 : Frame} (h : tf.WF) (h0 : f0.WF) (hdl : tf.dir = .dl)
    (hta : TaOk tf) {b : List Bool} (hb : 639 ≤ b.length) :
    ∃ tf' f', rtp2trau K st tf [] = .ok (0, tf') ∧ tf'.c.take 5 = code .idle .dl ∧ Over16 b f0 tf' f' ∧
      f'.type = .fr ∧ f'.c.take 5 = code .fr .dl := by
  obtain ⟨tf', h1, h2, h3, h4, h5, h6, h7⟩ := C32_nodata K st hst h (data := []) (.inl rfl)
  have hta' : TaOk tf' := by
    have := rtp2trau_ta K st tf [] _ h1
    unfold TaOk; rw [this]; exact hta
  obtain ⟨rc, e, f', w1, w2, _, w3, w4, w5, w6, _⟩ := C23_roundtrip tf' f0 b h2 h0 (by rw [h3]; decide) (by rw [h3]; exact hb) hta'
  refine ⟨tf', f', h1, by rw [h7 hdl]; rfl, ⟨rc, e, w1, w2, w3⟩, w4.trans h3, ?_⟩
  rw [w6, h3, h4, hdl]

/-- … and the same for enhanced full rate. -/
theorem C73_efr_violated (K : Codec) (st : State) (hst : st.type = .efr) {tf f0 : Frame} (h : tf.WF) (h0 : f0.WF) (hdl : tf.dir = .dl)
    (hta : TaOk tf) {b : List Bool} (hb : 639 ≤ b.length) :
    ∃ tf' f', rtp2trau K st tf [] = .ok (0, tf') ∧ tf'.c.take 5 = code .idle .dl ∧ Over16 b f0 tf' f' ∧
      f'.type = .efr ∧ f'.c.take 5 = code .efr .dl := by
  obtain ⟨tf', h1, h2, h3, h4, h5, h6, h7⟩ := C33_nodata K st hst h (data := []) (.inl rfl)
  have hta' : TaOk tf' := by
    have := rtp2trau_ta K st tf [] _ h1
    unfold TaOk; rw [this]; exact hta
  obtain ⟨rc, e, f', w1, w2, _, w3, w4, w5, w6, _⟩ := C23_roundtrip tf' f0 b h2 h0 (by rw [h3]; decide) (by rw [h3]; exact hb) hta'
  refine ⟨tf', f', h1, by rw [h7 hdl]; rfl, ⟨rc, e, w1, w2, w3⟩, w4.trans h3, ?_⟩
  rw [w6, h3, h4, hdl]

/-- **C73** (partial) What reaches the wire: C6..C21 of the idle speech frame (C12 .. C21 and T bits one) and D bits all one; only the
code is that of a speech frame. -/
theorem C73_nodata_partial (K : Codec) (st : State) (hst : st.type = .fr) {tf f0 : Frame} (h : tf.WF) (h0 : f0.WF) (hdl : tf.dir = .dl)
    (hta : TaOk tf) {b : List Bool} (hb : 639 ≤ b.length) :
    ∃ tf' f', rtp2trau K st tf [] = .ok (0, tf') ∧ Over16 b f0 tf' f' ∧ f'.d.take 260 = List.replicate 260 true ∧
      (f'.c.take 21).drop 5 = List.replicate 6 false ++ List.replicate 10 true ∧ f'.t = List.replicate 4 true := by
  have e : rtp2trau K st tf [] = rtp2trauFr K tf [] := by rw [rtp2trau, hst]
  have h1 := e.trans (rtp2trauFr_nodata K h (data := []) (dtxd := false) (bfi := false) (taf := false) rfl)
  obtain ⟨tf', h1', h2, h3, h4, h5, h6, h7⟩ := C32_nodata K st hst h (data := []) (.inl rfl)
  rw [h1] at h1'
  have h1' := (Prod.mk.inj (Except.ok.inj h1')).2
  rw [h1'] at h1
  have hta' : TaOk tf' := by
    have := rtp2trau_ta K st tf [] _ h1
    unfold TaOk; rw [this]; exact hta
  obtain ⟨rc, e, f', w1, w2, w3, w4, w5, w6, w7⟩ := wire16 tf' f0 b h2 h0 (by rw [h3]; decide) (by rw [h3]; exact hb) hta'
  refine ⟨tf', f', h1, ⟨rc, e, w1, w2, w3⟩, ?_⟩
  rw [h3] at w7
  simp only [payload, nC, nD, nT, Prod.mk.injEq] at w7
  refine ⟨w7.2.1.trans h5, ?_, ?_⟩
  · rw [w7.1, ← h1', hdl]; rfl
  · have := w7.2.2.1
    rw [List.take_of_length_le (by rw [w4.t]; decide), ← h1'] at this
    exact this

/-! ### C75: no payload must not become speech -/

/-- **C75** is false on 8k sub-slots: an empty payload in the down-link becomes a frame with correct check bits and parity that is
taken for good speech (or a good SID): 15 octets come out of it, whatever libosmocodec says about an empty payload. -/
theorem C75_hr8_violated (K : Codec) (hK : K.Sane) (st st' : State) (hst : st.type = .speech8) (hst' : st'.twts002 = false) {tf : Frame}
    (h : tf.WF) (hdl : tf.dir = .dl) {out : List Byte} (ho : 15 ≤ out.length) :
    ∃ tf' out', rtp2trau K st tf [] = .ok (0, tf') ∧ trau2rtp K st' out tf' = .ok (15, out') := by
  have e : rtp2trau K st tf [] = rtp2trauHr8 K tf [] := by rw [rtp2trau, hst]
  have h1 : rtp2trauHr8 K tf [] = .ok (0, { tf with
      type := .speech8
      c := [false, false, false, true, false] ++ List.replicate 4 true ++ tf.c.drop 9
      t := List.replicate 2 true ++ tf.t.drop 2
      xc := [false, false, false, K.hrCheckSid [], false, !K.hrCheckSid []]
      d := List.replicate 112 false ++ tf.d.drop 112
      crc := crc3 (List.replicate 44 false) }) := by
    have hd : hrD tf.d [] = .ok (List.replicate 112 false ++ tf.d.drop 112) := by
      unfold hrD
      rw [if_neg (by simp), blit_ok (by simp [HR_BYTES, h.d])]
      simp [HR_BYTES]
    have hsl : slice (List.replicate 112 false ++ tf.d.drop 112) 0 44 = .ok (List.replicate 44 false) := by
      rw [slice_ok (by simp), List.drop_zero, List.take_append_of_le_length (by simp)]
      rfl
    have hcrc : blit tf.crc 0 (crc3 (List.replicate 44 false)) = .ok (crc3 (List.replicate 44 false)) := by
      have h3 : (crc3 (List.replicate 44 false)).length = 3 := rfl
      rw [blit_ok (by rw [h.crc]; exact Nat.le_refl 3), h3]
      congr 1
      rw [List.drop_of_length_le (by rw [h.crc]; decide)]
      simp
    unfold rtp2trauHr8
    rw [show hrPayload [] = some [] from rfl]
    dsimp only
    rw [if_neg (by simp [hdl])]
    simp only [hd, bind_ok, hsl, hcrc]
    clear hd hsl hcrc
    obtain ⟨ty, dir, ta, c, d, t, s, m, ufi, crc, xc⟩ := tf
    obtain ⟨h1, h2, h3, h4, h5, h6, h7⟩ := h
    simp only at h1 h3 h7
    obtain ⟨c, rfl⟩ := exists_L' h1
    obtain ⟨t, rfl⟩ := exists_L' h3
    obtain ⟨xc, rfl⟩ := exists_L' h7
    generalize crc3 (List.replicate 44 false) = X
    cases K.hrCheckSid []
    · show _ = _
      kernel_rfl
    · show _ = _
      kernel_rfl
  obtain ⟨tf', htf⟩ : ∃ tf' : Frame, tf' = { tf with
      type := .speech8
      c := [false, false, false, true, false] ++ List.replicate 4 true ++ tf.c.drop 9
      t := List.replicate 2 true ++ tf.t.drop 2
      xc := [false, false, false, K.hrCheckSid [], false, !K.hrCheckSid []]
      d := List.replicate 112 false ++ tf.d.drop 112
      crc := crc3 (List.replicate 44 false) } := ⟨_, rfl⟩
  have hwf : tf'.WF := by
    subst htf
    exact ⟨by simp [h.c], by simp [h.d], by simp [h.t], h.s, h.m, rfl, rfl⟩
  obtain ⟨pl, _, g1, g2, _⟩ := C34_trau2rtp_8k K hK st' hst' hwf (by subst htf; rfl) ho
  have hck : checkBitsOk (tf'.d.take 44) tf'.crc := by
    subst htf
    rw [checkBits_iff]
    dsimp only
    rw [List.take_append_of_le_length (by simp)]
    rfl
  cases hk : K.hrCheckSid []
  · exact ⟨_, _, e.trans h1, by rw [← htf]; exact g1 ⟨hck, by subst htf; rw [hk]; rfl⟩⟩
  · exact ⟨_, _, e.trans h1, by rw [← htf]; exact g2 ⟨hck, by subst htf; rw [hk]; rfl⟩⟩

/-- **C75** (partial) Full rate and enhanced full rate, both directions: no payload remains no payload.  Missing: half rate, see
`C75_hr8_violated`. -/
theorem C75_nodata_partial (K : Codec) (st st' : State) (hst : st.type = .fr ∨ st.type = .efr) (hst' : st'.twts001 = false)
    {tf : Frame} (h : tf.WF) {out : List Byte} (ho : 33 ≤ out.length) :
    ∃ tf', rtp2trau K st tf [] = .ok (0, tf') ∧ trau2rtp K st' out tf' = .ok (0, out) := by
  rcases hst with hst | hst
  · exact C32_nodata_roundtrip K st st' hst hst' h ho
  · obtain ⟨tf', h1, _, h2, _, _, h3, _⟩ := C33_nodata K st hst h (data := []) (.inl rfl)
    exact ⟨tf', h1, C33_bad_frame K st' hst' h2 h3 (by omega)⟩

end Verif.RtpConv
