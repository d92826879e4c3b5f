import Verif.Props.RtpFr
/-!
# C33: enhanced full rate speech between RTP payloads and TRAU frames
-/
namespace Verif.RtpConv
open Verif Verif.Trau Verif.Spec.Rtp
open Verif.RaaPrime (bind_ok bind_err)
set_option maxRecDepth 10000

theorem efrGood_iff (d : List Bool) : efrGood d ↔ EfrChecksOk d := by
  unfold efrGood EfrChecksOk
  constructor
  · intro h blk hb
    obtain ⟨k, hk, rfl⟩ := List.getElem_of_mem hb
    rw [checkBits_iff]
    have := h k hk
    match k, hk with
    | 0, _ => exact this
    | 1, _ => exact this
    | 2, _ => exact this
    | 3, _ => exact this
    | 4, _ => exact this
  · intro h k hk
    match k, hk with
    | 0, _ => exact (checkBits_iff _ _).1 (h efrBlocks[0] (List.getElem_mem _))
    | 1, _ => exact (checkBits_iff _ _).1 (h efrBlocks[1] (List.getElem_mem _))
    | 2, _ => exact (checkBits_iff _ _).1 (h efrBlocks[2] (List.getElem_mem _))
    | 3, _ => exact (checkBits_iff _ _).1 (h efrBlocks[3] (List.getElem_mem _))
    | 4, _ => exact (checkBits_iff _ _).1 (h efrBlocks[4] (List.getElem_mem _))

theorem strip_efr {pl s} (h : IsEfr pl s) : stripTwts001 pl = (false, false, false, pl) := by
  obtain ⟨b, rest, rfl, _, hb⟩ := isEfr_hd h
  exact strip_of_hd (by rw [hb]; decide)

theorem efr_strip {data pl : List Byte} {s : List Bool} (hp : IsEfr pl s)
    (hdata : data = pl ∨ ∃ dtxd bfi taf, data = tw001Hdr dtxd bfi taf :: pl) :
    ∃ a b c, stripTwts001 data = (a, b, c, pl) := by
  rcases hdata with rfl | ⟨a, b, c, rfl⟩
  · exact ⟨_, _, _, strip_efr hp⟩
  · exact ⟨_, _, _, strip_hdr a b c pl⟩

theorem efrC_length (K : Codec) (dir : Dir) (a b c : Bool) (pl : List Byte) : (efrC K dir a b c pl).length = 21 := by
  cases dir <;> rfl

theorem efrData_length {s x1 x2 x3 x4 x5 : List Bool} (hs : s.length = 244) (h1 : x1.length = 3) (h2 : x2.length = 3)
    (h3 : x3.length = 3) (h4 : x4.length = 3) (h5 : x5.length = 3) : (efrData s x1 x2 x3 x4 x5).length = 260 := by
  simp [efrData, *]

/-- everything about the conversion of one payload -/
theorem rtp2trauEfr_all (K : Codec) (st : State) (hst : st.type = .efr) {tf : Frame} (h : tf.WF)
    {data pl : List Byte} {dtxd bfi taf : Bool} {s : List Bool} (hp : IsEfr pl s)
    (hs : stripTwts001 data = (dtxd, bfi, taf, pl)) :
    ∃ tf', rtp2trau K st tf data = .ok (0, tf') ∧ tf'.WF ∧ tf'.type = .efr ∧ tf'.dir = tf.dir ∧
      (∃ x1 x2 x3 x4 x5, x1.length = 3 ∧ x2.length = 3 ∧ x3.length = 3 ∧ x4.length = 3 ∧ x5.length = 3 ∧
        tf'.d.take 260 = efrData s x1 x2 x3 x4 x5) ∧
      EfrChecksOk tf'.d ∧ efrSpeechBits tf'.d = s ∧
      tf'.c = efrC K tf.dir dtxd bfi taf pl ++ tf.c.drop 21 := by
  obtain ⟨x1, x2, x3, x4, x5, l1, l2, l3, l4, l5, hg, hsp, he⟩ := rtp2trauEfr_eq K h hs hp
  have e : rtp2trau K st tf data = rtp2trauEfr K tf data := by rw [rtp2trau, hst]
  have hl := efrData_length hp.nspeech l1 l2 l3 l4 l5
  refine ⟨_, e.trans he, ⟨?_, ?_, rfl, h.s, h.m, h.crc, h.xc⟩, rfl, rfl,
    ⟨x1, x2, x3, x4, x5, l1, l2, l3, l4, l5, List.take_left' hl⟩, (efrGood_iff _).1 hg, hsp, rfl⟩
  · simp [efrC_length, h.c]
  · rw [List.length_append, hl, List.length_drop, h.d]

/-- **C33 (RTP → TRAU)** Every 31 octet enhanced full rate payload is accepted; the D bits are the 244 speech bits
in their five blocks with right check bits. -/
theorem C33_rtp2trau (K : Codec) (st : State) (hst : st.type = .efr) {tf : Frame} (h : tf.WF)
    {data pl : List Byte} {s : List Bool} (hp : IsEfr pl s)
    (hdata : data = pl ∨ ∃ dtxd bfi taf, data = tw001Hdr dtxd bfi taf :: pl) :
    ∃ tf', rtp2trau K st tf data = .ok (0, tf') ∧ tf'.WF ∧ tf'.type = .efr ∧ tf'.dir = tf.dir ∧
      (∃ x1 x2 x3 x4 x5, x1.length = 3 ∧ x2.length = 3 ∧ x3.length = 3 ∧ x4.length = 3 ∧ x5.length = 3 ∧
        tf'.d.take 260 = efrData s x1 x2 x3 x4 x5) ∧
      EfrChecksOk tf'.d := by
  obtain ⟨a, b, c, hs⟩ := efr_strip hp hdata
  obtain ⟨tf', h1, h2, h3, h4, h5, h6, _⟩ := rtp2trauEfr_all K st hst h hp hs
  exact ⟨tf', h1, h2, h3, h4, h5, h6⟩

/-- **C33 (control bits)** as C32; C1..C5 are the same in both directions -/
theorem C33_rtp2trau_control (K : Codec) (st : State) (hst : st.type = .efr) {tf : Frame} (h : tf.WF)
    {pl : List Byte} {s : List Bool} (hp : IsEfr pl s) (dtxd bfi taf : Bool) :
    ∃ tf', rtp2trau K st tf (tw001Hdr dtxd bfi taf :: pl) = .ok (0, tf') ∧
      tf'.c.take 5 = [true, true, false, true, false] ∧
      (tf.dir = .ul → tf'.c[11]? = some bfi ∧ tf'.c[12]? = some (K.efrSidClassify pl / 2 % 2 == 1) ∧
        tf'.c[13]? = some (K.efrSidClassify pl % 2 == 1) ∧ tf'.c[14]? = some taf ∧ tf'.c[16]? = some dtxd) ∧
      (tf.dir = .dl → tf'.c[15]? = some (!K.efrCheckSid pl)) := by
  obtain ⟨tf', h1, _, _, _, _, _, _, h2⟩ := rtp2trauEfr_all K st hst h hp (strip_hdr dtxd bfi taf pl)
  refine ⟨tf', h1, ?_, ?_, ?_⟩
  · rw [h2]; cases tf.dir <;> rfl
  · intro hd; rw [h2, hd]; exact ⟨rfl, rfl, rfl, rfl, rfl⟩
  · intro hd; rw [h2, hd]; rfl

/-- **C33 (TRAU → RTP)** A frame without BFI whose check bits are right gives the 31 octets of its speech bits;
one with any check bit wrong gives none. Nothing outside the first 31 octets is written. -/
theorem C33_trau2rtp (K : Codec) (st : State) (hst : st.twts001 = false) {tf : Frame} (h : tf.WF)
    (ht : tf.type = .efr) (hb : tf.c[11]? = some false) {out : List Byte} (ho : 31 ≤ out.length) :
    (EfrChecksOk tf.d → ∃ pl, IsEfr pl (efrSpeechBits tf.d) ∧ trau2rtp K st out tf = .ok (31, pl ++ out.drop 31)) ∧
    (¬ EfrChecksOk tf.d → ∃ mid, mid.length = 31 ∧ trau2rtp K st out tf = .ok (0, mid ++ out.drop 31)) := by
  obtain ⟨mid, hm, ho⟩ := split_at ho
  have e : trau2rtp K st out tf = trau2rtpEfr K (mid ++ out.drop 31) tf false := by
    rw [trau2rtp, ht]; show trau2rtpEfr K out tf st.twts001 = _; rw [hst]
    exact congrArg (trau2rtpEfr K · tf false) ho
  obtain ⟨h1, h2⟩ := trau2rtpEfr_plain K h ht hm hb (rest := out.drop 31)
  rw [e, ← efrGood_iff]
  exact ⟨fun hg => ⟨_, efrPayload_isEfr (efrSpeech_length h.d), h1 hg⟩, h2⟩

/-- what is done to octet `i` of a bad frame that looks like a SID -/
def efrMask (i : Nat) (x : Byte) : Byte :=
  if i = 6 then x &&& 0x99 else if i = 12 then x &&& 0xE6 else if i = 13 then x &&& 0x7F
  else if i = 19 then x &&& 0x33 else if i = 25 then x &&& 0xCC else x

theorem makeEfr_eq (h : Byte) (p : Nat → Byte) (rest : List Byte) : makeEfrBfiNonsid (h :: L 31 p ++ rest) 1 =
   (.ok (h :: L 31 (fun i => efrMask i (p i)) ++ rest) : M _) := by kernel_rfl

/-- speech bit positions: the last two bits of LTP lag and gain of each sub-frame -/
def efrBrk : List Nat := [38 + 7, 38 + 8, 38 + 11, 38 + 12, 91 + 4, 91 + 5, 91 + 8, 91 + 9,
  141 + 7, 141 + 8, 141 + 11, 141 + 12, 194 + 4, 194 + 5, 194 + 8, 194 + 9]

theorem efrMask_bit (i : Nat) (x : Byte) (j : Nat) (hj : j < 8) : (efrMask i x).getLsbD j = (x.getLsbD j && (efrMask i 0xFF).getLsbD j) := by
  have hff : (0xFF : Byte).getLsbD j = true := by
    have : ∀ k < 8, (0xFF : Byte).getLsbD k = true := by decide
    exact this j hj
  unfold efrMask
  (repeat' split) <;> simp only [BitVec.getLsbD_and, hff, Bool.true_and, Bool.and_true]

theorem makeEfr_spec {pl : List Byte} {s : List Bool} (hp : IsEfr pl s) (h : Byte) (rest : List Byte) :
    ∃ pl' s', makeEfrBfiNonsid (h :: pl ++ rest) 1 = .ok (h :: pl' ++ rest) ∧ IsEfr pl' s' ∧
      ∀ i < 244, s'[i]? = if i ∈ efrBrk then some false else s[i]? := by
  obtain ⟨p, hpp⟩ := exists_L' hp.len
  subst hpp
  have hb : ∀ j < 248, (bitsOf (L 31 fun i => efrMask i (p i)))[j]? =
      (bitsOf (L 31 p))[j]?.map fun b => b && (efrMask (j / 8) 0xFF).getLsbD (7 - j % 8) := by
    intro j hj
    rw [bitsOf_eq, bitsOf_eq, getElem?_pbit2ubit, getElem?_pbit2ubit, L_getElem? _ _ _ (by omega), L_getElem? _ _ _ (by omega)]
    simp only [Option.map_some, Option.some.injEq]
    exact efrMask_bit _ _ _ (by omega)
  have hm4 : ∀ j < 4, (efrMask (j / 8) 0xFF).getLsbD (7 - j % 8) = true := by decide +kernel
  have hmr : ∀ j < 244, (efrMask ((4 + j) / 8) 0xFF).getLsbD (7 - (4 + j) % 8) = !decide (j ∈ efrBrk) := by decide +kernel
  have hl : (bitsOf (L 31 fun i => efrMask i (p i))).length = 248 := by rw [bitsOf_eq, pbit2ubit_length, L_length]
  have h4 : (bitsOf (L 31 fun i => efrMask i (p i))).take 4 = [true, true, false, false] := by
    apply List.ext_getElem?
    intro i
    by_cases hi : i < 4
    · rw [List.getElem?_take_of_lt hi, hb i (by omega), hp.bits, hm4 i hi]
      rw [List.getElem?_append_left hi]
      cases ([true, true, false, false] : List Bool)[i]? <;> simp
    · rw [List.getElem?_eq_none (by simp; omega), List.getElem?_eq_none (by simp; omega)]
  refine ⟨_, (bitsOf (L 31 fun i => efrMask i (p i))).drop 4, makeEfr_eq h p rest, ⟨by simp, by simp [hl], ?_⟩, ?_⟩
  · rw [← h4, List.take_append_drop]
  · intro i hi
    rw [List.getElem?_drop, hb _ (by omega), hp.bits, List.getElem?_append_right (by simp), hmr i hi]
    have : i < s.length := by rw [hp.nspeech]; exact hi
    simp only [List.length_cons, List.length_nil, Nat.add_sub_cancel_left, List.getElem?_eq_getElem this, Option.map_some]
    by_cases hc : i ∈ efrBrk <;> simp [hc]

/-- **C33 (TRAU → RTP, TW-TS-001)** The payload is preceded by the header octet; wrong check bits give a header
octet alone, with BFI and the no-data flag set. A bad frame that is not SID but looks like one gets the last two
bits of LTP lag and gain of every sub-frame cleared. -/
theorem C33_trau2rtp_tw (K : Codec) (st : State) (hst : st.twts001 = true) {tf : Frame} (h : tf.WF)
    (ht : tf.type = .efr) {dtxd bfi taf s1 s0 : Bool} (h16 : tf.c[16]? = some dtxd) (h11 : tf.c[11]? = some bfi)
    (h14 : tf.c[14]? = some taf) (h12 : tf.c[12]? = some s1) (h13 : tf.c[13]? = some s0)
    {out : List Byte} (ho : 32 ≤ out.length) :
    (EfrChecksOk tf.d → ∃ pl pl' s, IsEfr pl (efrSpeechBits tf.d) ∧ IsEfr pl' s ∧
      trau2rtp K st out tf = .ok (32, tw001Hdr dtxd bfi taf :: pl' ++ out.drop 32) ∧
      (if bfi ∧ s1 = false ∧ s0 = false ∧ K.efrIsAnySid pl then
        ∀ i < 244, s[i]? = if i ∈ efrBrk then some false else (efrSpeechBits tf.d)[i]?
       else pl' = pl)) ∧
    (¬ EfrChecksOk tf.d → ∃ mid, mid.length = 31 ∧
      trau2rtp K st out tf = .ok (1, (tw001Hdr dtxd true taf ||| 0x04) :: mid ++ out.drop 32)) := by
  obtain ⟨x, mid, hm, ho⟩ := split_at1 ho
  have e : trau2rtp K st out tf = trau2rtpEfr K (x :: mid ++ out.drop 32) tf true := by
    rw [trau2rtp, ht]; show trau2rtpEfr K out tf st.twts001 = _; rw [hst]
    exact congrArg (trau2rtpEfr K · tf true) ho
  obtain ⟨h1, h2⟩ := trau2rtpEfr_tw K h ht h16 h11 h14 h12 h13 hm (rest := out.drop 32) (x := x)
  rw [e, ← efrGood_iff]
  have hpl := efrPayload_isEfr (efrSpeech_length h.d)
  constructor
  · intro hg
    have := h1 hg
    dsimp only at this
    by_cases hc : bfi ∧ s1 = false ∧ s0 = false ∧ K.efrIsAnySid (efrPayload (efrSpeech tf.d))
    · rw [if_pos hc] at this
      obtain ⟨pl', s', e1, e2, e3⟩ := makeEfr_spec hpl (tw001Hdr dtxd bfi taf) (out.drop 32)
      rw [e1, bind_ok] at this
      refine ⟨_, pl', s', hpl, e2, this, ?_⟩
      rw [if_pos hc]
      exact e3
    · rw [if_neg hc] at this
      refine ⟨_, _, _, hpl, hpl, this, ?_⟩
      rw [if_neg hc]
  · intro hg
    obtain ⟨mid', e1, e2⟩ := h2 hg
    refine ⟨mid', e1, ?_⟩
    rw [e2]
    have : tw001Hdr dtxd bfi taf ||| 0x06 = tw001Hdr dtxd true taf ||| 0x04 := by
      cases dtxd <;> cases bfi <;> cases taf <;> rfl
    rw [this]

/-- **C33 (round trip)** Every payload survives conversion to an up-link TRAU frame and back. -/
theorem C33_roundtrip_rtp (K : Codec) (st st' : State) (hst : st.type = .efr) (hst' : st'.twts001 = false)
    {tf : Frame} (h : tf.WF) (hul : tf.dir = .ul) {pl : List Byte} {s : List Bool} (hp : IsEfr pl s)
    {out : List Byte} (ho : 31 ≤ out.length) :
    ∃ tf', rtp2trau K st tf pl = .ok (0, tf') ∧ trau2rtp K st' out tf' = .ok (31, pl ++ out.drop 31) := by
  obtain ⟨tf', h1, h2, h3, h4, _, h6, h7, h8⟩ := rtp2trauEfr_all K st hst h hp (strip_efr hp)
  obtain ⟨pl', h9, h10⟩ := (C33_trau2rtp K st' hst' h2 h3 (by rw [h8, hul]; rfl) ho).1 h6
  rw [h7] at h9
  exact ⟨tf', h1, by rw [h10, IsEfr.unique h9 hp]⟩

/-- **C33 (round trip with TW-TS-001)** The header octet comes back, too. -/
theorem C33_roundtrip_rtp_tw (K : Codec) (st st' : State) (hst : st.type = .efr) (hst' : st'.twts001 = true)
    {tf : Frame} (h : tf.WF) (hul : tf.dir = .ul) {pl : List Byte} {s : List Bool} (hp : IsEfr pl s) (dtxd taf : Bool)
    {out : List Byte} (ho : 32 ≤ out.length) :
    ∃ tf', rtp2trau K st tf (tw001Hdr dtxd false taf :: pl) = .ok (0, tf') ∧
      trau2rtp K st' out tf' = .ok (32, tw001Hdr dtxd false taf :: pl ++ out.drop 32) := by
  obtain ⟨tf', h1, h2, h3, h4, _, h6, h7, h8⟩ := rtp2trauEfr_all K st hst h hp (strip_hdr dtxd false taf pl)
  obtain ⟨pl1, pl', s', h9, _, h10, h11⟩ := (C33_trau2rtp_tw K st' hst' h2 h3
    (dtxd := dtxd) (bfi := false) (taf := taf) (s1 := K.efrSidClassify pl / 2 % 2 == 1) (s0 := K.efrSidClassify pl % 2 == 1)
    (by rw [h8, hul]; rfl) (by rw [h8, hul]; rfl) (by rw [h8, hul]; rfl) (by rw [h8, hul]; rfl) (by rw [h8, hul]; rfl) ho).1 h6
  rw [if_neg (by simp)] at h11
  rw [h7] at h9
  exact ⟨tf', h1, by rw [h10, h11, IsEfr.unique h9 hp]⟩

/-- **C33 (round trip TRAU → RTP → TRAU)** The speech bits of a good frame survive, and so do the check bits and
with them D2..D260. -/
theorem C33_roundtrip_trau (K : Codec) (st st' : State) (hst : st.twts001 = false) (hst' : st'.type = .efr) {tf tf0 : Frame}
    (h : tf.WF) (h0 : tf0.WF) (ht : tf.type = .efr) (hb : tf.c[11]? = some false) (hg : EfrChecksOk tf.d)
    {out : List Byte} (ho : 31 ≤ out.length) :
    ∃ pl tf', pl.length = 31 ∧ trau2rtp K st out tf = .ok (31, pl ++ out.drop 31) ∧
      rtp2trau K st' tf0 pl = .ok (0, tf') ∧ efrSpeechBits tf'.d = efrSpeechBits tf.d ∧ EfrChecksOk tf'.d := by
  obtain ⟨pl, h1, h2⟩ := (C33_trau2rtp K st hst h ht hb ho).1 hg
  obtain ⟨tf', h3, _, _, _, _, h4, h5, _⟩ := rtp2trauEfr_all K st' hst' h0 h1 (strip_efr h1)
  exact ⟨pl, tf', h1.len, h2, h3, h5, h4⟩

/-! ### error detection -/

theorem pick_length (d : List Bool) (l : List Nat) : (pick d l).length = l.length := by simp [pick]
theorem pick_append (d : List Bool) (a b : List Nat) : pick d (a ++ b) = pick d a ++ pick d b := by simp [pick]

theorem nodup_idx {l : List Nat} (hn : l.Nodup) {i j : Nat} (hi : i < l.length) (hj : j < l.length) (h : l[i] = l[j]) : i = j :=
  (List.getElem_inj hn).1 h

theorem pick_set {d : List Bool} {l : List Nat} {j : Nat} (hj : j < l.length) (hn : l.Nodup) (hd : l[j] < d.length) (x : Bool) :
    pick (d.set l[j] x) l = (pick d l).take j ++ [x] ++ (pick d l).drop (j + 1) := by
  apply List.ext_getElem?
  intro i
  have hset : ∀ y, (d.set l[j] x).getD y false = if y = l[j] then x else d.getD y false := by
    intro y
    by_cases h : y = l[j]
    · subst h; simp [List.getD_eq_getElem?_getD, hd]
    · rw [if_neg h, List.getD_eq_getElem?_getD, List.getElem?_set_ne (fun e => h e.symm), List.getD_eq_getElem?_getD]
  by_cases hi : i < l.length
  · have e1 : (pick (d.set l[j] x) l)[i]? = some (if l[i] = l[j] then x else d.getD l[i] false) := by
      simp only [pick, List.getElem?_map, List.getElem?_eq_getElem hi, Option.map_some, hset]
    have e0 : ∀ k, k < l.length → (pick d l)[k]? = l[k]?.map fun y => d.getD y false := by
      intro k _; simp [pick]
    rw [e1]
    rcases Nat.lt_trichotomy i j with h | h | h
    · rw [if_neg (fun e => by have := nodup_idx hn _ _ e; omega), List.append_assoc,
        List.getElem?_append_left (by simp [pick_length]; omega), List.getElem?_take_of_lt h, e0 i hi,
        List.getElem?_eq_getElem hi]; rfl
    · subst h
      rw [if_pos rfl, List.append_assoc, List.getElem?_append_right (by simp [pick_length]; omega)]
      simp [pick_length, Nat.min_eq_left (Nat.le_of_lt hi)]
    · rw [if_neg (fun e => by have := nodup_idx hn _ _ e; omega),
        List.getElem?_append_right (by simp [pick_length]; omega)]
      simp only [List.length_append, List.length_take, pick_length, List.length_cons, List.length_nil, List.getElem?_drop]
      rw [Nat.min_eq_left (by omega), show j + 1 + (i - (j + (0 + 1))) = i by omega, e0 i hi, List.getElem?_eq_getElem hi]
      rfl
  · rw [List.getElem?_eq_none (by simp [pick_length]; omega), List.getElem?_eq_none (by simp [pick_length]; omega)]

/-- **C33 (burst errors)** If the protected and check bits of a block, written one after the other, are changed
only within three consecutive places, the frame is recognised as bad. -/
theorem C33_burst {d d' : List Bool} (hg : EfrChecksOk d) {blk : Nat × Nat × List Nat} (hb : blk ∈ efrBlocks)
    {a m m' b : List Bool} (h : pick d (efrProtPos blk ++ efrChkPos blk) = a ++ m ++ b)
    (h' : pick d' (efrProtPos blk ++ efrChkPos blk) = a ++ m' ++ b)
    (hl : m.length = m'.length) (h3 : m.length ≤ 3) (hne : m ≠ m') : ¬ EfrChecksOk d' := by
  intro hg'
  have r := (hg blk hb).2
  have r' := (hg' blk hb).2
  rw [← pick_append] at r r'
  rw [h] at r
  rw [h'] at r'
  exact remainder_burst hl h3 hne (r.trans r'.symm)

/-- **C33 (single bit errors)** A good frame in which one protected bit or check bit has been inverted gives no
payload, whichever bit it was. -/
theorem C33_single_bit (K : Codec) (st : State) (hst : st.twts001 = false) {tf : Frame} (h : tf.WF)
    (ht : tf.type = .efr) (hb : tf.c[11]? = some false) (hg : EfrChecksOk tf.d)
    {blk : Nat × Nat × List Nat} (hblk : blk ∈ efrBlocks) {i : Nat} (hi : i ∈ efrProtPos blk ++ efrChkPos blk)
    {out : List Byte} (ho : 31 ≤ out.length) :
    ∃ mid, mid.length = 31 ∧
      trau2rtp K st out { tf with d := tf.d.set i !(tf.d.getD i false) } = .ok (0, mid ++ out.drop 31) := by
  have hwf : ({ tf with d := tf.d.set i !(tf.d.getD i false) } : Frame).WF :=
    ⟨h.c, by simp [h.d], h.t, h.s, h.m, h.crc, h.xc⟩
  refine (C33_trau2rtp K st hst hwf ht hb ho).2 ?_
  dsimp only
  obtain ⟨j, hj, rfl⟩ := List.getElem_of_mem hi
  have hall : ∀ blk ∈ efrBlocks, (efrProtPos blk ++ efrChkPos blk).Nodup ∧ ∀ x ∈ efrProtPos blk ++ efrChkPos blk, x < 288 := by
    decide +kernel
  obtain ⟨hn, hlt⟩ := hall blk hblk
  have hd := hlt _ hi
  rw [← h.d] at hd
  have hp := pick_set hj hn hd (!(tf.d.getD (efrProtPos blk ++ efrChkPos blk)[j] false))
  have hself : pick tf.d (efrProtPos blk ++ efrChkPos blk) = (pick tf.d (efrProtPos blk ++ efrChkPos blk)).take j ++
      [tf.d.getD (efrProtPos blk ++ efrChkPos blk)[j] false] ++ (pick tf.d (efrProtPos blk ++ efrChkPos blk)).drop (j + 1) := by
    have := pick_set hj hn hd (tf.d.getD (efrProtPos blk ++ efrChkPos blk)[j] false)
    rw [← this]
    congr 1
    rw [List.getD_eq_getElem?_getD, List.getElem?_eq_getElem hd]
    simp
  refine C33_burst hg hblk hself hp rfl (by simp) ?_
  simp

/-- **C33 (bad frames)** Without TW-TS-001 a frame with BFI set gives no payload. -/
theorem C33_bad_frame (K : Codec) (st : State) (hst : st.twts001 = false) {tf : Frame}
    (ht : tf.type = .efr) (hb : tf.c[11]? = some true) {out : List Byte} (ho : 31 ≤ out.length) :
    trau2rtp K st out tf = .ok (0, out) := by
  have h11 : rd tf.c 11 = .ok true := by unfold rd; rw [hb]
  rw [trau2rtp, ht]
  show trau2rtpEfr K out tf st.twts001 = _
  rw [hst]
  unfold trau2rtpEfr
  simp only [ht, ne_eq, not_true_eq_false, if_false, Bool.false_eq_true, h11, bind_ok]
  rw [if_neg (by simp only [EFR_BYTES]; omega)]
  rfl

/-- C1..C21 of an enhanced full rate frame without speech -/
def efrNoC (dir : Dir) (dtxd taf : Bool) : List Bool :=
  match dir with
  | .ul => [true, true, false, true, false] ++ List.replicate 6 false ++
      [true, false, false, taf, true, dtxd] ++ List.replicate 4 true
  | .dl => [false, true, true, true, false] ++ List.replicate 6 false ++ List.replicate 10 true

theorem rtp2trauEfr_nodata (K : Codec) {tf : Frame} (h : tf.WF) {data : List Byte} {dtxd bfi taf}
    (hs : stripTwts001 data = (dtxd, bfi, taf, [])) :
    rtp2trauEfr K tf data = .ok (0, { tf with
      type := .efr
      c := efrNoC tf.dir dtxd taf ++ tf.c.drop 21
      t := List.replicate 4 true
      d := List.replicate 260 true ++ tf.d.drop 260 }) := by
  obtain ⟨ty, dir, ta, c', d, t, s, m, ufi, crc, xc⟩ := tf
  obtain ⟨hc, hd, ht, hs', hm, hcrc, hxc⟩ := h
  dsimp only at hc hd ht hs' hm hcrc hxc
  obtain ⟨c', rfl⟩ := exists_L' hc
  obtain ⟨t, rfl⟩ := exists_L' ht
  obtain ⟨d, rfl⟩ := exists_L' hd
  unfold rtp2trauEfr
  rw [hs]
  cases dir <;> cases bfi <;> (show _ = _; kernel_rfl)

/-- **C33 (no data)** An empty payload, or a header alone, gives a frame with BFI set and D bits one. -/
theorem C33_nodata (K : Codec) (st : State) (hst : st.type = .efr) {tf : Frame} (h : tf.WF)
    {data : List Byte} (hdata : data = [] ∨ ∃ dtxd bfi taf, data = [tw001Hdr dtxd bfi taf]) :
    ∃ tf', rtp2trau K st tf data = .ok (0, tf') ∧ tf'.WF ∧ tf'.type = .efr ∧ tf'.dir = tf.dir ∧
      tf'.d.take 260 = List.replicate 260 true ∧ tf'.c[11]? = some true ∧
      (tf.dir = .dl → tf'.c.take 5 = [false, true, true, true, false]) := by
  have hs : ∃ a b c, stripTwts001 data = (a, b, c, []) := by
    rcases hdata with rfl | ⟨a, b, c, rfl⟩
    · exact ⟨_, _, _, rfl⟩
    · exact ⟨_, _, _, strip_hdr a b c []⟩
  obtain ⟨a, b, c, hs⟩ := hs
  have e : rtp2trau K st tf data = rtp2trauEfr K tf data := by rw [rtp2trau, hst]
  refine ⟨_, e.trans (rtp2trauEfr_nodata K h hs), ⟨?_, ?_, rfl, h.s, h.m, h.crc, h.xc⟩, rfl, rfl, ?_, ?_, ?_⟩
  · have : (efrNoC tf.dir a c).length = 21 := by cases tf.dir <;> rfl
    simp [this, h.c]
  · simp only [List.length_append, List.length_replicate, List.length_drop, h.d]
  · exact List.take_left' (List.length_replicate ..)
  · dsimp only; cases tf.dir <;> rfl
  · intro hd; dsimp only; rw [hd]; rfl

/-- **C33 (malformed)** Every other payload (wrong length or signature) is refused and the frame is unchanged. -/
theorem C33_malformed (K : Codec) (st : State) (hst : st.type = .efr) (tf : Frame) {data pl : List Byte}
    (hdata : data = pl ∧ (∀ x ∈ data.head?, x >>> 4 ≠ 0xE) ∨ ∃ dtxd bfi taf, data = tw001Hdr dtxd bfi taf :: pl)
    (hne : pl ≠ []) (hbad : ¬ ∃ s, IsEfr pl s) :
    rtp2trau K st tf data = .ok (-EINVAL, tf) := by
  have hs : ∃ a b c, stripTwts001 data = (a, b, c, pl) := by
    rcases hdata with ⟨rfl, hx⟩ | ⟨a, b, c, rfl⟩
    · match data, hne, hx with
      | x :: data, _, hx =>
        refine ⟨_, _, _, strip_of_hd ?_⟩
        have := hx x rfl
        revert this
        generalize x = x
        revert x
        decide +kernel
    · exact ⟨_, _, _, strip_hdr a b c pl⟩
  obtain ⟨a, b, c, hs⟩ := hs
  have e : rtp2trau K st tf data = rtp2trauEfr K tf data := by rw [rtp2trau, hst]
  have nib : ∀ x : Byte, x &&& 0xF0 = 0xC0 →
    x.getLsbD 7 = true ∧ x.getLsbD 6 = true ∧ x.getLsbD 5 = false ∧ x.getLsbD 4 = false := by decide +kernel
  rw [e]
  unfold rtp2trauEfr
  rw [hs]
  have h0 : pl.length ≠ 0 := by simpa using hne
  by_cases hl : pl.length = EFR_BYTES
  · match pl, hl, hbad with
    | x :: r, hl, hbad =>
      have hx : x &&& 0xF0 ≠ 0xC0 := by
        intro hx
        apply hbad
        have hb := nib x hx
        refine ⟨(bitsOf (x :: r)).drop 4, hl, ?_, ?_⟩
        · rw [bitsOf_eq, List.length_drop, pbit2ubit_length, hl]; rfl
        · rw [bitsOf, hb.1, hb.2.1, hb.2.2.1, hb.2.2.2]; rfl
      dsimp only
      rw [if_pos hl, show rd (x :: r) 0 = .ok x from rfl, bind_ok]
      rw [if_neg (fun h => h.1 hl), if_pos hx]
  · dsimp only
    rw [if_neg hl, bind_ok, if_pos ⟨hl, h0⟩]

/-! ### concrete cases -/

/-- an enhanced full rate payload with all octets different -/
def exEfr : List Byte := (0xc3 : Byte) :: (List.range 30).map fun i => BitVec.ofNat 8 (7 * i + 1)
def stEfr (tw : Bool) : State := ⟨.efr, tw, false, false⟩

example : IsEfr exEfr ((bitsOf exEfr).drop 4) := ⟨by rfl, by rfl, by decide +kernel⟩
example : (rtp2trau K0 (stEfr false) (Frame0 .ul) exEfr >>= fun r => trau2rtp K0 (stEfr false) (List.replicate 40 0x55) r.2) =
    .ok (31, exEfr ++ List.replicate 9 0x55) := by decide +kernel
/-- inverting D25 (protected) is noticed, inverting D40 + 22 = D62 (not protected) is not -/
example : ((rtp2trau K0 (stEfr true) (Frame0 .ul) exEfr >>= fun r =>
    trau2rtp K0 (stEfr true) (List.replicate 32 0) { r.2 with d := r.2.d.set 24 !(r.2.d.getD 24 false) }).toOption.map (·.1)) =
    some 1 := by decide +kernel
example : ((rtp2trau K0 (stEfr true) (Frame0 .ul) exEfr >>= fun r =>
    trau2rtp K0 (stEfr true) (List.replicate 32 0) { r.2 with d := r.2.d.set 61 !(r.2.d.getD 61 false) }).toOption.map (·.1)) =
    some 32 := by decide +kernel
example : 24 ∈ efrProtPos (0, 39, (List.range 22) ++ [24, 25, 26, 28]) := by decide +kernel
/-- a bad frame that looks like a SID, with TW-TS-001 -/
example : (rtp2trau { K1 with efrSidClassify := fun _ => 0 } (stEfr true) (Frame0 .ul)
      (tw001Hdr false true false :: 0xcF :: List.replicate 30 0xFF) >>= fun r =>
    trau2rtp K1 (stEfr true) (List.replicate 32 0x55) r.2) =
    .ok (32, 0xE2 :: 0xcF :: [0xFF, 0xFF, 0xFF, 0xFF, 0xFF, 0x99, 0xFF, 0xFF, 0xFF, 0xFF, 0xFF, 0xE6, 0x7F, 0xFF, 0xFF, 0xFF,
      0xFF, 0xFF, 0x33, 0xFF, 0xFF, 0xFF, 0xFF, 0xFF, 0xCC, 0xFF, 0xFF, 0xFF, 0xFF, 0xFF]) := by decide +kernel

end Verif.RtpConv
