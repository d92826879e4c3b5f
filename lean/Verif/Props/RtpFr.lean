import Verif.Proof.RtpData
/-!
# C32: full rate speech between RTP payloads and TRAU frames
-/
namespace Verif.RtpConv
open Verif Verif.Trau Verif.Spec.Rtp
open Verif.RaaPrime (bind_ok bind_err)
set_option maxRecDepth 10000

/-- contents without meaning, to be overwritten -/
def Frame0 (dir : Dir) : Frame :=
  { type := .none, dir := dir, ta := 0, c := List.replicate 25 false, d := List.replicate 288 false,
    t := List.replicate 4 false, s := List.replicate 6 false, m := List.replicate 2 false, ufi := false,
    crc := List.replicate 3 false, xc := List.replicate 6 false }
theorem Frame0_WF (dir : Dir) : (Frame0 dir).WF := by constructor <;> rfl

theorem nibD : ∀ x : Byte, x &&& 0xF0 = 0xD0 →
    x.getLsbD 7 = true ∧ x.getLsbD 6 = true ∧ x.getLsbD 5 = false ∧ x.getLsbD 4 = true := by decide +kernel

theorem strip_of_hd {b : Byte} {l : List Byte} (h : b &&& 0xF0 ≠ 0xE0) :
    stripTwts001 (b :: l) = (false, false, false, b :: l) := by
  unfold stripTwts001
  dsimp only
  rw [if_neg h]

theorem strip_hdr (dtxd bfi taf : Bool) (l : List Byte) :
    stripTwts001 (tw001Hdr dtxd bfi taf :: l) = (dtxd, bfi, taf, l) := by
  cases dtxd <;> cases bfi <;> cases taf <;> rfl

theorem split_at {α : Type} {l : List α} {n : Nat} (h : n ≤ l.length) :
    ∃ a, a.length = n ∧ l = a ++ l.drop n := ⟨l.take n, by simp; omega, by simp⟩

theorem split_at1 {α : Type} {l : List α} {n : Nat} (h : n + 1 ≤ l.length) :
    ∃ x a, a.length = n ∧ l = x :: a ++ l.drop (n + 1) := by
  match l, h with
  | x :: l, h => exact ⟨x, l.take n, by simp at h ⊢; omega, by simp⟩

theorem strip_fr {pl s} (h : IsFr pl s) : stripTwts001 pl = (false, false, false, pl) := by
  obtain ⟨b, rest, rfl, _, hb⟩ := isFr_hd h
  exact strip_of_hd (by rw [hb]; decide)


theorem fr_strip {data pl : List Byte} {s : List Bool} (hp : IsFr pl s)
    (hdata : data = pl ∨ ∃ dtxd bfi taf, data = tw001Hdr dtxd bfi taf :: pl) :
    ∃ a b c, stripTwts001 data = (a, b, c, pl) := by
  rcases hdata with rfl | ⟨a, b, c, rfl⟩
  · exact ⟨_, _, _, strip_fr hp⟩
  · exact ⟨_, _, _, strip_hdr a b c pl⟩

theorem reverse_fr_length {s : List Bool} (h : s.length = 260) : (reverseEach frWidths s).length = 260 := by
  rw [reverseEach_length _ _ (by rw [h]; decide)]; decide

theorem frC_length (K : Codec) (dir : Dir) (a b c : Bool) (pl : List Byte) : (frC K dir a b c pl).length = 21 := by
  cases dir <;> rfl

theorem frFrame_WF (K : Codec) {tf : Frame} (h : tf.WF) {a b c : Bool} {pl : List Byte} {s : List Bool}
    (hs : s.length = 260) :
    ({ tf with
      type := .fr
      c := frC K tf.dir a b c pl ++ tf.c.drop 21
      t := List.replicate 4 true
      d := reverseEach frWidths s ++ tf.d.drop 260 } : Frame).WF where
  c := by simp [frC_length, h.c]
  d := by simp [reverse_fr_length hs, h.d]
  t := rfl
  s := h.s
  m := h.m
  crc := h.crc
  xc := h.xc

/-- **C32 (RTP → TRAU)** Every 33 octet full rate payload is accepted, in both directions, with or without a
TW-TS-001 header; the TRAU frame carries each of the 76 speech parameters, least significant bit first, in
D1..D260. -/
theorem C32_rtp2trau (K : Codec) (st : State) (hst : st.type = .fr) {tf : Frame} (h : tf.WF)
    {data pl : List Byte} {s : List Bool} (hp : IsFr pl s)
    (hdata : data = pl ∨ ∃ dtxd bfi taf, data = tw001Hdr dtxd bfi taf :: pl) :
    ∃ tf', rtp2trau K st tf data = .ok (0, tf') ∧ tf'.WF ∧ tf'.type = .fr ∧ tf'.dir = tf.dir ∧
      tf'.d.take 260 = reverseEach frWidths s := by
  obtain ⟨a, b, c, hs⟩ := fr_strip hp hdata
  have he := rtp2trauFr_eq K h hs hp
  have e : rtp2trau K st tf data = rtp2trauFr K tf data := by rw [rtp2trau, hst]
  exact ⟨_, e.trans he, frFrame_WF K h hp.nspeech, rfl, rfl,
    List.take_left' (reverse_fr_length hp.nspeech)⟩

/-- **C32 (control bits)** C1..C5 identify the frame; in the up-link C12 is the BFI, C13/C14 the SID
classification of the payload, C15 the TAF and C17 the DTX flag, taken from the TW-TS-001 header (or 0). -/
theorem C32_rtp2trau_control (K : Codec) (st : State) (hst : st.type = .fr) {tf : Frame} (h : tf.WF)
    {pl : List Byte} {s : List Bool} (hp : IsFr pl s) (dtxd bfi taf : Bool) :
    ∃ tf', rtp2trau K st tf (tw001Hdr dtxd bfi taf :: pl) = .ok (0, tf') ∧
      tf'.c.take 5 = (if tf.dir = .ul then [false, false, false, true, false] else [true, true, true, false, false]) ∧
      (tf.dir = .ul → tf'.c[11]? = some bfi ∧ tf'.c[12]? = some (K.frSidClassify pl / 2 % 2 == 1) ∧
        tf'.c[13]? = some (K.frSidClassify pl % 2 == 1) ∧ tf'.c[14]? = some taf ∧ tf'.c[16]? = some dtxd) ∧
      (tf.dir = .dl → tf'.c[15]? = some (!K.frCheckSid pl)) := by
  have he := rtp2trauFr_eq K h (strip_hdr dtxd bfi taf pl) hp
  have e : rtp2trau K st tf (tw001Hdr dtxd bfi taf :: pl) = rtp2trauFr K tf (tw001Hdr dtxd bfi taf :: pl) := by
    rw [rtp2trau, hst]
  refine ⟨_, e.trans he, ?_, ?_, ?_⟩
  · dsimp only; cases tf.dir <;> rfl
  · intro hd; dsimp only; rw [hd]; exact ⟨rfl, rfl, rfl, rfl, rfl⟩
  · intro hd; dsimp only; rw [hd]; rfl

/-- **C32 (TRAU → RTP)** A good full rate frame gives 33 octets with the parameters most significant bit first;
nothing else is written. -/
theorem C32_trau2rtp (K : Codec) (st : State) (hst : st.twts001 = false) {tf : Frame} (h : tf.WF)
    (ht : tf.type = .fr) (hb : tf.c[11]? = some false) {out : List Byte} (ho : 33 ≤ out.length) :
    ∃ pl, IsFr pl (reverseEach frWidths (tf.d.take 260)) ∧
      trau2rtp K st out tf = .ok (33, pl ++ out.drop 33) := by
  obtain ⟨mid, hm, ho⟩ := split_at ho
  refine ⟨frPayload (reverseEach frWidths (tf.d.take 260)),
    frPayload_isFr (reverse_fr_length (by simp [h.d])), ?_⟩
  rw [trau2rtp, ht]
  show trau2rtpFr K out tf st.twts001 = _
  rw [hst]
  conv => lhs; rw [ho]
  exact trau2rtpFr_plain K h ht hb hm

/-- **C32 (TRAU → RTP, TW-TS-001)** With the extension negotiated the payload is preceded by a header octet with
DTX, BFI and TAF of the frame. A frame that is marked bad and not SID but looks like a SID gets the middle bits
of the first four pulses of every sub-frame set; everything else is unchanged. -/
theorem C32_trau2rtp_tw (K : Codec) (st : State) (hst : st.twts001 = true) {tf : Frame} (h : tf.WF)
    (ht : tf.type = .fr) {dtxd bfi taf s1 s0 : Bool} (h16 : tf.c[16]? = some dtxd) (h11 : tf.c[11]? = some bfi)
    (h14 : tf.c[14]? = some taf) (h12 : tf.c[12]? = some s1) (h13 : tf.c[13]? = some s0)
    {out : List Byte} (ho : 34 ≤ out.length) :
    ∃ pl pl' s, IsFr pl (reverseEach frWidths (tf.d.take 260)) ∧ IsFr pl' s ∧
      trau2rtp K st out tf = .ok (34, tw001Hdr dtxd bfi taf :: pl' ++ out.drop 34) ∧
      (if bfi ∧ s1 = false ∧ s0 = false ∧ K.frIsAnySid pl then
        ∀ i < 260, s[i]? = if ∃ sub < 4, ∃ pulse < 4, i = 36 + 56 * sub + 17 + 3 * pulse + 1 then some true
          else (reverseEach frWidths (tf.d.take 260))[i]?
       else pl' = pl) := by
  obtain ⟨x, mid, hm, ho⟩ := split_at1 ho
  have hlen : (reverseEach frWidths (tf.d.take 260)).length = 260 := reverse_fr_length (by simp [h.d])
  have hpl := frPayload_isFr hlen
  have he := trau2rtpFr_tw K h ht h16 h11 h14 h12 h13 (mid := mid) (rest := out.drop 34) (x := x) hm
  dsimp only at he
  have e : trau2rtp K st out tf = trau2rtpFr K out tf true := by
    rw [trau2rtp, ht]; show trau2rtpFr K out tf st.twts001 = _; rw [hst]
  have e : trau2rtp K st out tf = trau2rtpFr K (x :: mid ++ out.drop 34) tf true := by rw [e]; exact congrArg (trau2rtpFr K · tf true) ho
  by_cases hc : bfi ∧ s1 = false ∧ s0 = false ∧ K.frIsAnySid (frPayload (reverseEach frWidths (tf.d.take 260)))
  · rw [if_pos hc] at he
    obtain ⟨p, hp⟩ := exists_L' hlen
    have hb := brk_bits p
    have hPB : tw001Hdr dtxd bfi taf :: frPayload (reverseEach frWidths (tf.d.take 260)) ++ out.drop 34 =
        PB 33 [tw001Hdr dtxd bfi taf] ([true, true, false, true] ++ L 260 p) (out.drop 34) := by
      rw [PB, ← hp]; rfl
    have h2 := orBits_PB (n := 33) (pre := [tw001Hdr dtxd bfi taf]) (rest := out.drop 34) (d := [true])
      (brkPos.map fun j => (j, 0)) (by rfl) hb
    rw [hPB, show (6 : Nat) = [tw001Hdr dtxd bfi taf].length + 5 from rfl, makeFr_eq, h2.1, bind_ok] at he
    refine ⟨_, _, _, hpl, frPayload_isFr (s := L 260 fun i => if brkPos.contains (i + 4) then p i || true else p i) (by simp),
      e.trans he, ?_⟩
    rw [if_pos hc]
    intro i hi
    rw [L_getElem? _ _ _ hi, hp, L_getElem? _ _ _ hi]
    have key : ∀ i < 260, brkPos.contains (i + 4) = true ↔ ∃ sub < 4, ∃ pulse < 4, i = 36 + 56 * sub + 17 + 3 * pulse + 1 := by
      decide +kernel
    by_cases hk : brkPos.contains (i + 4) = true
    · rw [if_pos hk, if_pos ((key i hi).1 hk), Bool.or_true]
    · rw [if_neg hk, if_neg (fun h => hk ((key i hi).2 h))]
  · rw [if_neg hc] at he
    refine ⟨_, _, _, hpl, hpl, e.trans he, ?_⟩
    rw [if_neg hc]

/-- **C32 (round trip RTP → TRAU → RTP)** Every full rate payload survives conversion to an up-link TRAU frame
and back, bit for bit, whatever the buffers contained. -/
theorem C32_roundtrip_rtp (K : Codec) (st st' : State) (hst : st.type = .fr) (hst' : st'.twts001 = false)
    {tf : Frame} (h : tf.WF) (hul : tf.dir = .ul) {pl : List Byte} {s : List Bool} (hp : IsFr pl s)
    {out : List Byte} (ho : 33 ≤ out.length) :
    ∃ tf', rtp2trau K st tf pl = .ok (0, tf') ∧ trau2rtp K st' out tf' = .ok (33, pl ++ out.drop 33) := by
  have he := rtp2trauFr_eq K h (strip_fr hp) hp
  have e : rtp2trau K st tf pl = rtp2trauFr K tf pl := by rw [rtp2trau, hst]
  refine ⟨_, e.trans he, ?_⟩
  obtain ⟨pl', h1, h2⟩ := C32_trau2rtp K st' hst' (frFrame_WF K h (a := false) (b := false) (c := false) (pl := pl) hp.nspeech)
    rfl (by dsimp only; rw [hul]; rfl) ho
  rw [h2]
  dsimp only at h1
  rw [List.take_left' (reverse_fr_length hp.nspeech), reverseEach_reverseEach _ _ (by rw [hp.nspeech]; decide)] at h1
  rw [IsFr.unique h1 hp]

/-- **C32 (round trip with TW-TS-001)** The same with the header octet, for good frames: the header comes back, too. -/
theorem C32_roundtrip_rtp_tw (K : Codec) (st st' : State) (hst : st.type = .fr) (hst' : st'.twts001 = true)
    {tf : Frame} (h : tf.WF) (hul : tf.dir = .ul) {pl : List Byte} {s : List Bool} (hp : IsFr pl s) (dtxd taf : Bool)
    {out : List Byte} (ho : 34 ≤ out.length) :
    ∃ tf', rtp2trau K st tf (tw001Hdr dtxd false taf :: pl) = .ok (0, tf') ∧
      trau2rtp K st' out tf' = .ok (34, tw001Hdr dtxd false taf :: pl ++ out.drop 34) := by
  have he := rtp2trauFr_eq K h (strip_hdr dtxd false taf pl) hp
  have e : rtp2trau K st tf (tw001Hdr dtxd false taf :: pl) = rtp2trauFr K tf (tw001Hdr dtxd false taf :: pl) := by
    rw [rtp2trau, hst]
  refine ⟨_, e.trans he, ?_⟩
  obtain ⟨pl1, pl', s', h1, _, h2, h3⟩ := C32_trau2rtp_tw K st' hst'
    (frFrame_WF K h (a := dtxd) (b := false) (c := taf) (pl := pl) hp.nspeech)
    rfl (dtxd := dtxd) (bfi := false) (taf := taf) (s1 := K.frSidClassify pl / 2 % 2 == 1) (s0 := K.frSidClassify pl % 2 == 1)
    (by dsimp only; rw [hul]; rfl) (by dsimp only; rw [hul]; rfl) (by dsimp only; rw [hul]; rfl)
    (by dsimp only; rw [hul]; rfl) (by dsimp only; rw [hul]; rfl) ho
  rw [if_neg (by simp)] at h3
  rw [h2]
  dsimp only at h1
  rw [List.take_left' (reverse_fr_length hp.nspeech), reverseEach_reverseEach _ _ (by rw [hp.nspeech]; decide)] at h1
  rw [h3, IsFr.unique h1 hp]

/-- **C32 (round trip TRAU → RTP → TRAU)** The D bits of a good full rate frame survive. -/
theorem C32_roundtrip_trau (K : Codec) (st st' : State) (hst : st.twts001 = false) (hst' : st'.type = .fr) {tf tf0 : Frame}
    (h : tf.WF) (h0 : tf0.WF) (ht : tf.type = .fr) (hb : tf.c[11]? = some false) {out : List Byte} (ho : 33 ≤ out.length) :
    ∃ pl tf', pl.length = 33 ∧ trau2rtp K st out tf = .ok (33, pl ++ out.drop 33) ∧
      rtp2trau K st' tf0 pl = .ok (0, tf') ∧ tf'.d.take 260 = tf.d.take 260 := by
  obtain ⟨pl, h1, h2⟩ := C32_trau2rtp K st hst h ht hb ho
  obtain ⟨tf', h3, _, _, _, h4⟩ := C32_rtp2trau K st' hst' h0 h1 (.inl rfl)
  refine ⟨pl, tf', h1.len, h2, h3, ?_⟩
  rw [h4, reverseEach_reverseEach _ _ (by simp [h.d]; decide)]

/-- **C32 (bad frames)** Without TW-TS-001 a frame with BFI set gives no payload and the buffer is untouched. -/
theorem C32_bad_frame (K : Codec) (st : State) (hst : st.twts001 = false) {tf : Frame}
    (ht : tf.type = .fr) (hb : tf.c[11]? = some true) {out : List Byte} (ho : 33 ≤ out.length) :
    trau2rtp K st out tf = .ok (0, out) := by
  have h11 : rd tf.c 11 = .ok true := by unfold rd; rw [hb]
  rw [trau2rtp, ht]
  show trau2rtpFr K out tf st.twts001 = _
  rw [hst]
  unfold trau2rtpFr
  simp only [ht, ne_eq, not_true_eq_false, if_false, Bool.false_eq_true, h11, bind_ok]
  rw [if_neg (by simp only [FR_BYTES]; omega)]
  rfl


/-- C1..C21 of a full rate frame without speech -/
def frNoC (dir : Dir) (dtxd taf : Bool) : List Bool :=
  match dir with
  | .ul => [false, false, false, true, false] ++ List.replicate 6 false ++
      [true, false, false, taf, true, dtxd] ++ List.replicate 4 true
  | .dl => [false, true, true, true, false] ++ List.replicate 6 false ++ List.replicate 10 true

theorem rtp2trauFr_nodata (K : Codec) {tf : Frame} (h : tf.WF) {data : List Byte} {dtxd bfi taf}
    (hs : stripTwts001 data = (dtxd, bfi, taf, [])) :
    rtp2trauFr K tf data = .ok (0, { tf with
      type := .fr
      c := frNoC tf.dir dtxd taf ++ tf.c.drop 21
      t := List.replicate 4 true
      d := List.replicate 260 true ++ tf.d.drop 260 }) := by
  obtain ⟨ty, dir, ta, c', d, t, s, m, ufi, crc, xc⟩ := tf
  obtain ⟨hc, hd, ht, hs', hm, hcrc, hxc⟩ := h
  dsimp only at hc hd ht hs' hm hcrc hxc
  obtain ⟨c', rfl⟩ := exists_L' hc
  obtain ⟨t, rfl⟩ := exists_L' ht
  obtain ⟨d, rfl⟩ := exists_L' hd
  unfold rtp2trauFr
  rw [hs]
  cases dir <;> cases bfi <;> (show _ = _; kernel_rfl)

/-- **C32 (no data)** An empty payload, or a TW-TS-001 header alone, gives a frame with BFI set and D bits one. -/
theorem C32_nodata (K : Codec) (st : State) (hst : st.type = .fr) {tf : Frame} (h : tf.WF)
    {data : List Byte} (hdata : data = [] ∨ ∃ dtxd bfi taf, data = [tw001Hdr dtxd bfi taf]) :
    ∃ tf', rtp2trau K st tf data = .ok (0, tf') ∧ tf'.WF ∧ tf'.type = .fr ∧ tf'.dir = tf.dir ∧
      tf'.d.take 260 = List.replicate 260 true ∧ tf'.c[11]? = some true ∧
      (tf.dir = .dl → tf'.c.take 5 = [false, true, true, true, false]) := by
  have hs : ∃ a b c, stripTwts001 data = (a, b, c, []) := by
    rcases hdata with rfl | ⟨a, b, c, rfl⟩
    · exact ⟨_, _, _, rfl⟩
    · exact ⟨_, _, _, strip_hdr a b c []⟩
  obtain ⟨a, b, c, hs⟩ := hs
  have e : rtp2trau K st tf data = rtp2trauFr K tf data := by rw [rtp2trau, hst]
  refine ⟨_, e.trans (rtp2trauFr_nodata K h hs), ⟨?_, ?_, rfl, h.s, h.m, h.crc, h.xc⟩, rfl, rfl, ?_, ?_, ?_⟩
  · have : (frNoC tf.dir a c).length = 21 := by cases tf.dir <;> rfl
    simp [this, h.c]
  · simp only [List.length_append, List.length_replicate, List.length_drop, h.d]
  · exact List.take_left' (List.length_replicate ..)
  · dsimp only; cases tf.dir <;> rfl
  · intro hd; dsimp only; rw [hd]; rfl

/-- **C32 (no data, round trip)** … and such a frame gives no payload. -/
theorem C32_nodata_roundtrip (K : Codec) (st st' : State) (hst : st.type = .fr) (hst' : st'.twts001 = false)
    {tf : Frame} (h : tf.WF) {out : List Byte} (ho : 33 ≤ out.length) :
    ∃ tf', rtp2trau K st tf [] = .ok (0, tf') ∧ trau2rtp K st' out tf' = .ok (0, out) := by
  obtain ⟨tf', h1, _, h2, _, _, h3, _⟩ := C32_nodata K st hst h (data := []) (.inl rfl)
  exact ⟨tf', h1, C32_bad_frame K st' hst' h2 h3 ho⟩

/-- **C32 (malformed)** Every other payload (wrong length or signature) is refused and the frame is unchanged. -/
theorem C32_malformed (K : Codec) (st : State) (hst : st.type = .fr) (tf : Frame) {data pl : List Byte}
    (hdata : data = pl ∧ (∀ x ∈ data.head?, x >>> 4 ≠ 0xE) ∨ ∃ dtxd bfi taf, data = tw001Hdr dtxd bfi taf :: pl)
    (hne : pl ≠ []) (hbad : ¬ ∃ s, IsFr pl s) :
    rtp2trau K st tf data = .ok (-EINVAL, tf) := by
  have hs : ∃ a b c, stripTwts001 data = (a, b, c, pl) := by
    rcases hdata with ⟨rfl, hx⟩ | ⟨a, b, c, rfl⟩
    · match data, hne, hx with
      | x :: data, _, hx =>
        refine ⟨_, _, _, strip_of_hd ?_⟩
        have := hx x rfl
        revert this
        generalize x = x
        revert x
        decide +kernel
    · exact ⟨_, _, _, strip_hdr a b c pl⟩
  obtain ⟨a, b, c, hs⟩ := hs
  have e : rtp2trau K st tf data = rtp2trauFr K tf data := by rw [rtp2trau, hst]
  rw [e]
  unfold rtp2trauFr
  rw [hs]
  have h0 : pl.length ≠ 0 := by simpa using hne
  by_cases hl : pl.length = FR_BYTES
  · match pl, hl, hbad with
    | x :: r, hl, hbad =>
      have hx : x &&& 0xF0 ≠ 0xD0 := by
        intro hx
        apply hbad
        have hb : x.getLsbD 7 = true ∧ x.getLsbD 6 = true ∧ x.getLsbD 5 = false ∧ x.getLsbD 4 = true := by
          exact nibD x hx
        refine ⟨(bitsOf (x :: r)).drop 4, hl, ?_, ?_⟩
        · rw [bitsOf_eq, List.length_drop, pbit2ubit_length, hl]; rfl
        · rw [bitsOf, hb.1, hb.2.1, hb.2.2.1, hb.2.2.2]; rfl
      dsimp only
      rw [if_pos hl, show rd (x :: r) 0 = .ok x from rfl, bind_ok]
      rw [if_neg (fun h => h.1 hl), if_pos hx]
  · dsimp only
    rw [if_neg hl, bind_ok, if_pos ⟨hl, h0⟩]

/-- **C32 (no space)** A buffer that is too small is refused and left alone. -/
theorem C32_nospace (K : Codec) (st : State) {tf : Frame} (ht : tf.type = .fr) {out : List Byte}
    (ho : out.length < if st.twts001 then 34 else 33) :
    trau2rtp K st out tf = .ok (-ENOSPC, out) := by
  rw [trau2rtp, ht]
  show trau2rtpFr K out tf st.twts001 = _
  unfold trau2rtpFr
  rw [if_neg (by rw [ht]; simp), if_pos (show out.length < if st.twts001 = true then FR_BYTES + 1 else FR_BYTES from ho)]

/-! ### concrete cases -/

/-- a stand-in for libosmocodec that says "no SID" -/
def K0 : Codec :=
  { frSidClassify := fun _ => 0, frIsAnySid := fun _ => false, frCheckSid := fun _ => false,
    efrSidClassify := fun _ => 0, efrIsAnySid := fun _ => false, efrCheckSid := fun _ => false,
    hrCheckSid := fun _ => false, hrSidReset := id }
/-- one that says "SID" -/
def K1 : Codec :=
  { frSidClassify := fun _ => 2, frIsAnySid := fun _ => true, frCheckSid := fun _ => true,
    efrSidClassify := fun _ => 2, efrIsAnySid := fun _ => true, efrCheckSid := fun _ => true,
    hrCheckSid := fun _ => true, hrSidReset := id }
/-- a full rate payload with all octets different -/
def exFr : List Byte := (0xd3 : Byte) :: (List.range 32).map fun i => BitVec.ofNat 8 (7 * i + 1)
def stFr (tw : Bool) : State := ⟨.fr, tw, false, false⟩

example : IsFr exFr ((bitsOf exFr).drop 4) := ⟨by rfl, by rfl, by decide +kernel⟩
example : (rtp2trau K0 (stFr false) (Frame0 .ul) exFr >>= fun r => trau2rtp K0 (stFr false) (List.replicate 40 0x55) r.2) =
    .ok (33, exFr ++ List.replicate 7 0x55) := by decide +kernel
example : (rtp2trau K1 (stFr true) (Frame0 .ul) (0xE9#8 :: exFr) >>= fun r =>
    trau2rtp K1 (stFr true) (List.replicate 40 0x55) r.2) = .ok (34, 0xE9 :: exFr ++ List.replicate 6 0x55) := by decide +kernel
/-- a down-link frame is not converted back: C12 is one there, which reads as BFI -/
example : (rtp2trau K0 (stFr false) (Frame0 .dl) exFr >>= fun r => trau2rtp K0 (stFr false) (List.replicate 40 0x55) r.2) =
    .ok (0, List.replicate 40 0x55) := by decide +kernel
/-- a bad frame that looks like a SID, with TW-TS-001 -/
example : (rtp2trau { K1 with frSidClassify := fun _ => 0 } (stFr true) (Frame0 .ul)
      (tw001Hdr false true false :: 0xd0 :: List.replicate 32 0) >>= fun r =>
    trau2rtp K1 (stFr true) (List.replicate 34 0x55) r.2) =
    .ok (34, 0xE2 :: 0xd0 :: [0, 0, 0, 0, 0, 0, 0x24, 0x90, 0, 0, 0, 0, 0, 0x24, 0x90, 0, 0, 0, 0, 0, 0x24, 0x90,
      0, 0, 0, 0, 0, 0x24, 0x90, 0, 0, 0]) := by decide +kernel
example : ¬ ∃ s, IsFr (0xc3 :: exFr.tail) s := by
  rintro ⟨s, h⟩
  have h3 : (bitsOf (0xc3 :: exFr.tail))[3]? = some true := by rw [h.bits]; rfl
  revert h3
  decide +kernel
example : rtp2trau K0 (stFr false) (Frame0 .ul) [1, 2, 3] = .ok (-EINVAL, Frame0 .ul) := by decide +kernel

end Verif.RtpConv
