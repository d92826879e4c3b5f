import Verif.Props.RtpEfr
/-!
# C34: half rate speech between RTP payloads and TRAU frames (16k and 8k)
-/
namespace Verif.RtpConv
open Verif Verif.Trau Verif.Spec.Rtp
open Verif.RaaPrime (bind_ok bind_err)
set_option maxRecDepth 10000

/-- libosmocodec's SID repair does not change the length -/
def Codec.Sane (K : Codec) : Prop := ∀ l, (K.hrSidReset l).length = l.length

theorem hr_bits_length {pl : List Byte} (h : pl.length = 14) : (bitsOf pl).length = 112 := by
  rw [bitsOf_eq, pbit2ubit_length, h]
theorem hrPl_is {d : List Bool} (h : d.length = 288) : IsHr (ubit2pbit 14 (d.take 112)) (d.take 112) :=
  ⟨by simp, by rw [bitsOf_eq, pbit2ubit_ubit2pbit _ _ (by simp [h])]⟩
theorem IsHr.unique {a b : List Byte} {s : List Bool} (ha : IsHr a s) (hb : IsHr b s) : a = b :=
  pbit2ubit_inj (by rw [← bitsOf_eq, ← bitsOf_eq, ha.bits, hb.bits])

theorem get_some {α : Type} {l : List α} {i : Nat} (h : i < l.length) : ∃ x, l[i]? = some x := ⟨_, List.getElem?_eq_getElem h⟩

/-! ### RTP → TRAU -/

theorem rtp2trauHr16_all (K : Codec) (st : State) (hst : st.type = .hr) {tf : Frame} (h : tf.WF) {data pl : List Byte}
    (hp : pl.length = 14) (hdata : data = pl ∨ ∃ x, data = x :: pl) :
    ∃ tf' taf, rtp2trau K st tf data = .ok (0, tf') ∧ tf'.WF ∧ tf'.type = .hr ∧ tf'.dir = tf.dir ∧
      tf'.d.take 112 = bitsOf pl ∧ tf'.crc = crc3 ((bitsOf pl).take 44) ∧ tf.c[14]? = some taf ∧
      tf'.c = hr16C K tf.dir taf pl ++ tf.c.drop 21 ∧ tf'.ufi = (tf.dir == .dl) := by
  obtain ⟨taf, h14⟩ := get_some (l := tf.c) (i := 14) (by rw [h.c]; decide)
  have e : rtp2trau K st tf data = rtp2trauHr16 K tf data := by rw [rtp2trau, hst]
  have hl : (hr16C K tf.dir taf pl).length = 21 := by cases tf.dir <;> rfl
  refine ⟨_, taf, e.trans (rtp2trauHr16_eq K h hdata hp h14), ⟨?_, ?_, rfl, h.s, h.m, rfl, h.xc⟩, rfl, rfl, ?_, rfl, h14,
    rfl, rfl⟩
  · simp [hl, h.c]
  · simp [hr_bits_length hp, h.d]
  · exact List.take_left' (hr_bits_length hp)

/-- **C34 (RTP → 16k TRAU)** Every half rate payload (14 octets, or 15 with an RFC 5993 header octet) is accepted in
both directions; D1..D112 are the speech bits, the check bits are right and C1..C5 identify the frame. -/
theorem C34_rtp2trau_16k (K : Codec) (st : State) (hst : st.type = .hr) {tf : Frame} (h : tf.WF) {data pl : List Byte}
    {s : List Bool} (hp : IsHr pl s) (hdata : data = pl ∨ ∃ x, data = x :: pl) :
    ∃ tf', rtp2trau K st tf data = .ok (0, tf') ∧ tf'.WF ∧ tf'.type = .hr ∧ tf'.dir = tf.dir ∧ tf'.d.take 112 = s ∧
      checkBitsOk (tf'.d.take 44) tf'.crc ∧
      tf'.c.take 5 = (if tf.dir = .ul then [false, false, false, true, true] else [true, true, true, false, true]) ∧
      (tf.dir = .ul → tf'.c[11]? = some false ∧ tf'.c[12]? = some (K.hrCheckSid pl) ∧ tf'.c[13]? = some false) := by
  obtain ⟨tf', taf, h1, h2, h3, h4, h5, h6, h7, h8, h9⟩ := rtp2trauHr16_all K st hst h hp.len hdata
  refine ⟨tf', h1, h2, h3, h4, by rw [h5, hp.bits], ?_, ?_, ?_⟩
  · have : tf'.d.take 44 = (bitsOf pl).take 44 := by rw [← h5, List.take_take]; rfl
    rw [this, h6, checkBits_iff]
  · rw [h8]; cases tf.dir <;> rfl
  · intro hd; rw [h8, hd]; exact ⟨rfl, rfl, rfl⟩

theorem rtp2trauHr8_all (K : Codec) (st : State) (hst : st.type = .speech8) {tf : Frame} (h : tf.WF) {data pl : List Byte}
    (hp : pl.length = 14) (hdata : data = pl ∨ ∃ x, data = x :: pl) (hdl : tf.dir = .dl) :
    ∃ tf', rtp2trau K st tf data = .ok (0, tf') ∧ tf'.WF ∧ tf'.type = .speech8 ∧ tf'.dir = .dl ∧
      tf'.d.take 112 = bitsOf pl ∧ tf'.crc = crc3 ((bitsOf pl).take 44) ∧
      tf'.c.take 5 = [false, false, false, true, false] ∧ tf'.c[8]? = some true ∧
      tf'.xc = [false, false, false, K.hrCheckSid pl, false, !K.hrCheckSid pl] := by
  have e : rtp2trau K st tf data = rtp2trauHr8 K tf data := by rw [rtp2trau, hst]
  refine ⟨_, e.trans (rtp2trauHr8_eq K h hdata hp hdl), ⟨?_, ?_, ?_, h.s, h.m, rfl, rfl⟩, rfl, hdl, ?_, rfl, rfl, rfl, rfl⟩
  · simp [h.c]
  · simp [hr_bits_length hp, h.d]
  · simp [h.t]
  · exact List.take_left' (hr_bits_length hp)

/-- **C34 (RTP → 8k TRAU)** The same for down-link 8k frames; XC1..XC6 are "speech" or "SID" with odd parity. -/
theorem C34_rtp2trau_8k (K : Codec) (st : State) (hst : st.type = .speech8) {tf : Frame} (h : tf.WF) {data pl : List Byte}
    {s : List Bool} (hp : IsHr pl s) (hdata : data = pl ∨ ∃ x, data = x :: pl) (hdl : tf.dir = .dl) :
    ∃ tf', rtp2trau K st tf data = .ok (0, tf') ∧ tf'.WF ∧ tf'.type = .speech8 ∧ tf'.dir = .dl ∧ tf'.d.take 112 = s ∧
      checkBitsOk (tf'.d.take 44) tf'.crc ∧ hr8Ft tf'.xc = (if K.hrCheckSid pl then 2 else 0) ∧
      tf'.c.take 5 = [false, false, false, true, false] := by
  obtain ⟨tf', h1, h2, h3, h4, h5, h6, h7, h8, h9⟩ := rtp2trauHr8_all K st hst h hp.len hdata hdl
  refine ⟨tf', h1, h2, h3, h4, by rw [h5, hp.bits], ?_, ?_, h7⟩
  · have : tf'.d.take 44 = (bitsOf pl).take 44 := by rw [← h5, List.take_take]; rfl
    rw [this, h6, checkBits_iff]
  · rw [h9]; cases K.hrCheckSid pl <;> rfl

/-- **C34 (8k up-link)** is not supported: refused without change. -/
theorem C34_8k_uplink (K : Codec) (st : State) (hst : st.type = .speech8) {tf : Frame} {data : List Byte}
    (hlen : data.length ∈ [0, 14, 15]) (hul : tf.dir = .ul) :
    rtp2trau K st tf data = .ok (-ENOTSUP, tf) := by
  have e : rtp2trau K st tf data = rtp2trauHr8 K tf data := by rw [rtp2trau, hst]
  rw [e, rtp2trauHr8]
  have : ∃ pl, hrPayload data = some pl := by
    unfold hrPayload
    simp only [List.mem_cons, List.not_mem_nil, or_false] at hlen
    rcases hlen with h | h | h <;> simp [h, HR_BYTES, HR_RFC5993]
  obtain ⟨pl, hpl⟩ := this
  rw [hpl]
  simp [hul]

/-- **C34 (malformed)** Any other length is refused. -/
theorem C34_malformed (K : Codec) (st : State) (hst : st.type = .hr ∨ st.type = .speech8) {tf : Frame} {data : List Byte}
    (hlen : data.length ∉ [0, 14, 15]) : rtp2trau K st tf data = .ok (-EINVAL, tf) := by
  have hpl : hrPayload data = none := by
    unfold hrPayload
    simp only [List.mem_cons, List.not_mem_nil, or_false, not_or] at hlen
    rw [if_neg (show ¬ data.length = HR_BYTES from hlen.2.1), if_neg (show ¬ data.length = HR_RFC5993 from hlen.2.2),
      if_neg hlen.1]
  rcases hst with h | h
  · rw [rtp2trau, h]; show rtp2trauHr16 K tf data = _; rw [rtp2trauHr16, hpl]
  · rw [rtp2trau, h]; show rtp2trauHr8 K tf data = _; rw [rtp2trauHr8, hpl]

/-! ### TRAU → RTP -/

theorem split15 {out : List Byte} (h : 15 ≤ out.length) :
    ∃ x mid, mid.length = 14 ∧ out = x :: (mid ++ out.drop 15) := by
  obtain ⟨x, mid, h1, h2⟩ := split_at1 h
  exact ⟨x, mid, h1, h2⟩

/-- **C34 (16k TRAU → RTP)** A frame with right check bits, without BFI and with SID classification 0 gives an RFC 5993
"speech" octet and the 14 octets of its speech bits; with classification 2 a "SID" octet and the repaired SID;
everything else gives no payload. -/
theorem C34_trau2rtp_16k (K : Codec) (hK : K.Sane) (st : State) (hst : st.twts002 = false) {tf : Frame} (h : tf.WF)
    (ht : tf.type = .hr) {bfi s1 s0 : Bool} (h11 : tf.c[11]? = some bfi) (h12 : tf.c[12]? = some s1)
    (h13 : tf.c[13]? = some s0) {out : List Byte} (ho : 15 ≤ out.length) :
    ∃ pl, IsHr pl (tf.d.take 112) ∧
      (checkBitsOk (tf.d.take 44) tf.crc ∧ bfi = false ∧ s1 = false ∧ s0 = false →
        trau2rtp K st out tf = .ok (15, 0x00 :: pl ++ out.drop 15)) ∧
      (checkBitsOk (tf.d.take 44) tf.crc ∧ bfi = false ∧ s1 = true ∧ s0 = false →
        trau2rtp K st out tf = .ok (15, 0x20 :: K.hrSidReset pl ++ out.drop 15)) ∧
      (¬ (checkBitsOk (tf.d.take 44) tf.crc ∧ bfi = false ∧ s0 = false) → trau2rtp K st out tf = .ok (0, out)) := by
  obtain ⟨x, mid, hm, ho⟩ := split15 ho
  have e : trau2rtp K st out tf = trau2rtpHr16 K (x :: (mid ++ out.drop 15)) tf false := by
    rw [trau2rtp, ht]; show trau2rtpHr16 K out tf st.twts002 = _; rw [hst]
    exact congrArg (trau2rtpHr16 K · tf false) ho
  have he := trau2rtpHr16_plain K hK h ht (x := x) h11 h12 h13 hm (rest := out.drop 15)
  simp only [checkBits_iff]
  refine ⟨_, hrPl_is h.d, ?_, ?_, ?_⟩
  · rintro ⟨hc, rfl, rfl, rfl⟩
    rw [e, he, if_pos ⟨hc, rfl, rfl⟩]; rfl
  · rintro ⟨hc, rfl, rfl, rfl⟩
    rw [e, he, if_pos ⟨hc, rfl, rfl⟩]; rfl
  · intro hc
    rw [e, he, if_neg hc, ← ho]

/-- **C34 (16k TRAU → RTP, TW-TS-002)** The header octet carries frame type, DTX, UFI and TAF; frame types 1
(invalid SID) and 7 (no data) have no payload. A wrong check bit or the reserved SID code gives type 7. -/
theorem C34_trau2rtp_16k_tw (K : Codec) (st : State) (hst : st.twts002 = true) {tf : Frame} (h : tf.WF)
    (ht : tf.type = .hr) {dtxd bfi taf s1 s0 : Bool} (h16 : tf.c[16]? = some dtxd) (h11 : tf.c[11]? = some bfi)
    (h14 : tf.c[14]? = some taf) (h12 : tf.c[12]? = some s1) (h13 : tf.c[13]? = some s0)
    {out : List Byte} (ho : 15 ≤ out.length) :
    ∃ pl ft, IsHr pl (tf.d.take 112) ∧
      (checkBitsOk (tf.d.take 44) tf.crc → ft = hr16Ft bfi s1 s0) ∧ (¬ checkBitsOk (tf.d.take 44) tf.crc → ft = 7) ∧
      trau2rtp K st out tf = .ok (
        if ft = 1 ∨ ft = 7 then (1, tw002Hdr ft dtxd tf.ufi taf :: out.tail)
        else (15, tw002Hdr ft dtxd tf.ufi taf :: pl ++ out.drop 15)) := by
  obtain ⟨x, mid, hm, ho⟩ := split15 ho
  have e : trau2rtp K st out tf = trau2rtpHr16 K (x :: (mid ++ out.drop 15)) tf true := by
    rw [trau2rtp, ht]; show trau2rtpHr16 K out tf st.twts002 = _; rw [hst]
    exact congrArg (trau2rtpHr16 K · tf true) ho
  have he := trau2rtpHr16_tw K h ht (x := x) h16 h11 h14 h12 h13 hm (rest := out.drop 15)
  dsimp only at he
  have htl : out.tail = mid ++ out.drop 15 := congrArg List.tail ho
  simp only [checkBits_iff]
  refine ⟨_, if tf.crc = crc3 (tf.d.take 44) then hr16Ft bfi s1 s0 else 7, hrPl_is h.d, fun h => if_pos h, fun h => if_neg h, ?_⟩
  rw [e, he, hrResult, htl]
  rfl

/-- **C34 (8k TRAU → RTP)** the same for 8k frames -/
theorem C34_trau2rtp_8k (K : Codec) (hK : K.Sane) (st : State) (hst : st.twts002 = false) {tf : Frame} (h : tf.WF)
    (ht : tf.type = .speech8) {out : List Byte} (ho : 15 ≤ out.length) :
    ∃ pl, IsHr pl (tf.d.take 112) ∧
      (checkBitsOk (tf.d.take 44) tf.crc ∧ hr8Ft tf.xc = 0 →
        trau2rtp K st out tf = .ok (15, 0x00 :: pl ++ out.drop 15)) ∧
      (checkBitsOk (tf.d.take 44) tf.crc ∧ hr8Ft tf.xc = 2 →
        trau2rtp K st out tf = .ok (15, 0x20 :: K.hrSidReset pl ++ out.drop 15)) ∧
      (¬ (checkBitsOk (tf.d.take 44) tf.crc ∧ (hr8Ft tf.xc = 0 ∨ hr8Ft tf.xc = 2)) →
        trau2rtp K st out tf = .ok (0, out)) := by
  obtain ⟨x, mid, hm, ho⟩ := split15 ho
  have e : trau2rtp K st out tf = trau2rtpHr8 K (x :: (mid ++ out.drop 15)) tf false := by
    rw [trau2rtp, ht]; show trau2rtpHr8 K out tf st.twts002 = _; rw [hst]
    exact congrArg (trau2rtpHr8 K · tf false) ho
  obtain ⟨f, hxc⟩ := exists_L' h.xc
  have hxc : tf.xc = [f 0, f 1, f 2, f 3, f 4, f 5] := hxc
  have he := trau2rtpHr8_plain K hK h ht (x := x) hxc hm (rest := out.drop 15)
  rw [← hxc] at he
  simp only [checkBits_iff]
  refine ⟨_, hrPl_is h.d, ?_, ?_, ?_⟩
  · rintro ⟨hc, hf⟩
    rw [e, he, if_neg (by rw [hf]; simp), if_pos ⟨hc, hf⟩]; rfl
  · rintro ⟨hc, hf⟩
    rw [e, he, if_pos ⟨hc, hf⟩]; rfl
  · intro hc
    rw [e, he, if_neg (fun h => hc ⟨h.1, .inr h.2⟩), if_neg (fun h => hc ⟨h.1, .inl h.2⟩), ← ho]

/-- **C34 (8k TRAU → RTP, TW-TS-002)** DTX is C9, UFI is XC5, TAF is XC4 for the frame types where XC4 is not part of
the code. -/
theorem C34_trau2rtp_8k_tw (K : Codec) (st : State) (hst : st.twts002 = true) {tf : Frame} (h : tf.WF)
    (ht : tf.type = .speech8) {dtxd xc4 xc5 : Bool} (h8 : tf.c[8]? = some dtxd) (h3 : tf.xc[3]? = some xc4)
    (h4 : tf.xc[4]? = some xc5) {out : List Byte} (ho : 15 ≤ out.length) :
    ∃ pl ft, IsHr pl (tf.d.take 112) ∧
      (checkBitsOk (tf.d.take 44) tf.crc → ft = hr8Ft tf.xc) ∧ (¬ checkBitsOk (tf.d.take 44) tf.crc → ft = 7) ∧
      trau2rtp K st out tf = .ok (
        let hdr := tw002Hdr ft dtxd xc5 ((ft = 1 ∨ ft = 6) && xc4)
        if ft = 1 ∨ ft = 7 then (1, hdr :: out.tail) else (15, hdr :: pl ++ out.drop 15)) := by
  obtain ⟨x, mid, hm, ho⟩ := split15 ho
  have e : trau2rtp K st out tf = trau2rtpHr8 K (x :: (mid ++ out.drop 15)) tf true := by
    rw [trau2rtp, ht]; show trau2rtpHr8 K out tf st.twts002 = _; rw [hst]
    exact congrArg (trau2rtpHr8 K · tf true) ho
  obtain ⟨f, hxc⟩ := exists_L' h.xc
  have hxc : tf.xc = [f 0, f 1, f 2, f 3, f 4, f 5] := hxc
  have e3 : f 3 = xc4 := by rw [hxc] at h3; exact Option.some.inj h3
  have e4 : f 4 = xc5 := by rw [hxc] at h4; exact Option.some.inj h4
  have he := trau2rtpHr8_tw K h ht (x := x) h8 hxc hm (rest := out.drop 15)
  dsimp only at he
  rw [← hxc, e3, e4] at he
  have htl : out.tail = mid ++ out.drop 15 := congrArg List.tail ho
  simp only [checkBits_iff]
  refine ⟨_, if tf.crc = crc3 (tf.d.take 44) then hr8Ft tf.xc else 7, hrPl_is h.d, fun h => if_pos h, fun h => if_neg h, ?_⟩
  rw [e, he, hrResult, htl]
  rfl

/-! ### round trips -/

/-- **C34 (round trip 16k)** Every half rate payload that is not SID survives conversion to a 16k up-link frame and
back (as RFC 5993 payload); a SID comes back repaired. -/
theorem C34_roundtrip_16k (K : Codec) (hK : K.Sane) (st st' : State) (hst : st.type = .hr) (hst' : st'.twts002 = false)
    {tf : Frame} (h : tf.WF) (hul : tf.dir = .ul) {data pl : List Byte} (hp : pl.length = 14)
    (hdata : data = pl ∨ ∃ x, data = x :: pl) {out : List Byte} (ho : 15 ≤ out.length) :
    ∃ tf', rtp2trau K st tf data = .ok (0, tf') ∧ trau2rtp K st' out tf' = .ok (15,
      (if K.hrCheckSid pl then 0x20 :: K.hrSidReset pl else 0x00 :: pl) ++ out.drop 15) := by
  obtain ⟨tf', h1, h2, h3, h4, h5, h6, h7, h8⟩ := C34_rtp2trau_16k K st hst h ⟨hp, rfl⟩ hdata
  obtain ⟨h9, h10, h11⟩ := h8 hul
  obtain ⟨pl', h12, h13, h14, _⟩ := C34_trau2rtp_16k K hK st' hst' h2 h3 h9 h10 h11 ho
  rw [h5] at h12
  have := IsHr.unique h12 ⟨hp, rfl⟩
  subst this
  refine ⟨tf', h1, ?_⟩
  cases hs : K.hrCheckSid pl'
  · rw [h13 ⟨h6, rfl, hs, rfl⟩]; rfl
  · rw [h14 ⟨h6, rfl, hs, rfl⟩]; rfl

/-- **C34 (round trip 8k)** the same for 8k down-link frames -/
theorem C34_roundtrip_8k (K : Codec) (hK : K.Sane) (st st' : State) (hst : st.type = .speech8) (hst' : st'.twts002 = false)
    {tf : Frame} (h : tf.WF) (hdl : tf.dir = .dl) {data pl : List Byte} (hp : pl.length = 14)
    (hdata : data = pl ∨ ∃ x, data = x :: pl) {out : List Byte} (ho : 15 ≤ out.length) :
    ∃ tf', rtp2trau K st tf data = .ok (0, tf') ∧ trau2rtp K st' out tf' = .ok (15,
      (if K.hrCheckSid pl then 0x20 :: K.hrSidReset pl else 0x00 :: pl) ++ out.drop 15) := by
  obtain ⟨tf', h1, h2, h3, h4, h5, h6, h7, h8⟩ := C34_rtp2trau_8k K st hst h ⟨hp, rfl⟩ hdata hdl
  obtain ⟨pl', h12, h13, h14, _⟩ := C34_trau2rtp_8k K hK st' hst' h2 h3 ho
  rw [h5] at h12
  have := IsHr.unique h12 ⟨hp, rfl⟩
  subst this
  refine ⟨tf', h1, ?_⟩
  cases hs : K.hrCheckSid pl'
  · rw [h13 ⟨h6, by rw [h7, hs]; rfl⟩]; rfl
  · rw [h14 ⟨h6, by rw [h7, hs]; rfl⟩]; rfl

/-- **C34 (round trip TRAU → RTP → TRAU)** The speech bits and check bits of a good 16k speech frame survive. -/
theorem C34_roundtrip_trau_16k (K : Codec) (hK : K.Sane) (st st' : State) (hst : st.twts002 = false) (hst' : st'.type = .hr)
    {tf tf0 : Frame} (h : tf.WF) (h0 : tf0.WF) (ht : tf.type = .hr) (h11 : tf.c[11]? = some false)
    (h12 : tf.c[12]? = some false) (h13 : tf.c[13]? = some false) (hg : checkBitsOk (tf.d.take 44) tf.crc)
    {out : List Byte} (ho : 15 ≤ out.length) :
    ∃ pl tf', pl.length = 15 ∧ trau2rtp K st out tf = .ok (15, pl ++ out.drop 15) ∧
      rtp2trau K st' tf0 pl = .ok (0, tf') ∧ tf'.d.take 112 = tf.d.take 112 ∧ tf'.crc = tf.crc := by
  obtain ⟨pl, hp, h1, _, _⟩ := C34_trau2rtp_16k K hK st hst h ht h11 h12 h13 ho
  obtain ⟨tf', taf, h2, _, _, _, h3, h4, _⟩ := rtp2trauHr16_all K st' hst' h0 hp.len (.inr ⟨0x00, rfl⟩)
  refine ⟨0x00 :: pl, tf', by simp [hp.len], h1 ⟨hg, rfl, rfl, rfl⟩, h2, by rw [h3, hp.bits], ?_⟩
  rw [h4, (checkBits_iff _ _).1 hg, hp.bits, List.take_take]
  rfl

/-- **C34 (errors)** Up to three consecutive wrong bits within D1..D44 and the check bits are noticed: the check
fails. -/
theorem C34_burst {d d' c c' a m m' b : List Bool} (hg : checkBitsOk (d.take 44) c)
    (h : d.take 44 ++ c = a ++ m ++ b) (h' : d'.take 44 ++ c' = a ++ m' ++ b)
    (hl : m.length = m'.length) (h3 : m.length ≤ 3) (hne : m ≠ m') : ¬ checkBitsOk (d'.take 44) c' := by
  intro hg'
  have r := hg.2
  have r' := hg'.2
  rw [h] at r
  rw [h'] at r'
  exact remainder_burst hl h3 hne (r.trans r'.symm)

/-! ### concrete cases -/

def exHr : List Byte := (List.range 14).map fun i => BitVec.ofNat 8 (17 * i + 5)
def stHr (ty : FT) (tw : Bool) : State := ⟨ty, false, tw, false⟩
example : K0.Sane ∧ K1.Sane := ⟨fun _ => rfl, fun _ => rfl⟩
example : (rtp2trau K0 (stHr .hr false) (Frame0 .ul) exHr >>= fun r => trau2rtp K0 (stHr .hr false) (List.replicate 20 0x55) r.2) =
    .ok (15, 0 :: exHr ++ List.replicate 5 0x55) := by decide +kernel
example : (rtp2trau K0 (stHr .speech8 false) (Frame0 .dl) (0x10 :: exHr) >>= fun r =>
    trau2rtp K0 (stHr .speech8 false) (List.replicate 20 0x55) r.2) = .ok (15, 0 :: exHr ++ List.replicate 5 0x55) := by decide +kernel
example : (rtp2trau K1 (stHr .hr false) (Frame0 .ul) exHr >>= fun r => trau2rtp K1 (stHr .hr true) (List.replicate 20 0x55) r.2) =
    .ok (15, 0x20 :: exHr ++ List.replicate 5 0x55) := by decide +kernel
example : (rtp2trau K0 (stHr .hr false) (Frame0 .ul) [] >>= fun r => trau2rtp K0 (stHr .hr true) (List.replicate 20 0x55) r.2) =
    .ok (15, 0x60 :: List.replicate 14 0 ++ List.replicate 5 0x55) := by decide +kernel

end Verif.RtpConv
