import Verif.Props.RtpHr
/-!
# C35: circuit switched data between CLEARMODE RTP payloads and TRAU frames
-/
namespace Verif.RtpConv
open Verif Verif.Trau Verif.Spec.Rtp
open Verif.RaaPrime (bind_ok bind_err)
set_option maxRecDepth 10000

theorem bits8_eq (pl : List Byte) : Ra2.unpack8 pl = bits8 pl := Raa.C01_ra2_8k_rx pl
theorem bits16_eq (pl : List Byte) : Ra2.unpack16 pl = bits16 pl := by
  rw [Raa.C01_ra2_16k_rx]; rfl
theorem bits16_length (pl : List Byte) : (bits16 pl).length = 2 * pl.length := by rw [← bits16_eq, unpack16_length]

theorem group_block {n : Nat} (ys : List (List Bool)) (hy : ∀ y ∈ ys, y.length = n) :
    ∀ k (h : k < ys.length), group n ys.flatten k = ys[k] := by
  induction ys with
  | nil => intro k h; simp at h
  | cons y ys ih =>
    intro k h
    have h0 := hy y (by simp)
    match k, h with
    | 0, _ => simp [group, ← h0]
    | k + 1, h =>
      have := ih (fun z hz => hy z (by simp [hz])) k (by simpa using h)
      rw [List.getElem_cons_succ, ← this]
      unfold group
      rw [List.flatten_cons, Nat.mul_succ, Nat.add_comm, ← List.drop_drop, List.drop_left' h0]

theorem carries8 {P : List Byte} {xs : List (List Bool)} (hx : ∀ x ∈ xs, x.length = 63) (hl : P.length = 80 * xs.length)
    (hu : Ra2.unpack8 P = (xs.map v110Frame).flatten) (hr : ∀ o ∈ P, ∀ i < 7, o.getLsbD i = true) : Carries8 P xs := by
  refine ⟨hl, fun k h => ?_, hr⟩
  rw [← bits8_eq, hu, group_block _ (by
    intro y hy; obtain ⟨x, h1, rfl⟩ := List.mem_map.1 hy; exact v110Frame_length (hx x h1)) k (by simpa using h)]
  simp only [List.getElem_map]
  exact v110Frame_is (hx _ (List.getElem_mem _))
theorem carries16 {P : List Byte} {xs : List (List Bool)} (hx : ∀ x ∈ xs, x.length = 63) (hl : P.length = 40 * xs.length)
    (hu : Ra2.unpack16 P = (xs.map v110Frame).flatten) (hr : ∀ o ∈ P, ∀ i < 6, o.getLsbD i = true) : Carries16 P xs := by
  refine ⟨hl, fun k h => ?_, hr⟩
  rw [← bits16_eq, hu, group_block _ (by
    intro y hy; obtain ⟨x, h1, rfl⟩ := List.mem_map.1 hy; exact v110Frame_length (hx x h1)) k (by simpa using h)]
  simp only [List.getElem_map]
  exact v110Frame_is (hx _ (List.getElem_mem _))

/-! ### TRAU → RTP -/

/-- **C35 (TRAU → RTP, FR data, 8 kbit/s intermediate rate)** The first and third groups of 63 D bits become the two
V.110 frames of the payload. -/
theorem C35_trau2rtp_data8 (K : Codec) (st : State) {tf : Frame} (h : tf.WF) (ht : tf.type = .data)
    (hc6 : tf.c[5]? = some false) {out : List Byte} (ho : 160 ≤ out.length) :
    ∃ pl, Carries8 pl [group 63 tf.d 0, group 63 tf.d 2] ∧ trau2rtp K st out tf = .ok (160, pl ++ out.drop 160) := by
  obtain ⟨mid, hm, ho'⟩ := split_at ho
  obtain ⟨P, h1, h2, h3, h4⟩ := trau2rtpData8_eq h hm (rest := out.drop 160) 2 (by decide)
  refine ⟨P, carries8 ?_ h1 (by simpa using h2) h3, ?_⟩
  · intro x hx; simp only [List.mem_cons, List.not_mem_nil, or_false] at hx
    rcases hx with rfl | rfl <;> exact group_length h.d (by decide)
  · rw [trau2rtp, ht]
    show trau2rtpDataFr out tf = _
    have r5 : rd tf.c 5 = .ok false := by unfold rd; rw [hc6]
    unfold trau2rtpDataFr
    rw [if_neg (by rw [ht]; simp), if_neg (by simp only [PLEN]; omega), r5, bind_ok]
    simp only [Bool.false_eq_true, if_false]
    rw [← ho'] at h4
    have := congrArg (· >>= fun out => (.ok ((PLEN : Int), out) : M (Int × List Byte))) h4
    simp only [bind_assoc, bind_ok] at this
    exact this

/-- **C35 (TRAU → RTP, FR data, 16 kbit/s intermediate rate)** All four groups become V.110 frames. -/
theorem C35_trau2rtp_data16 (K : Codec) (st : State) {tf : Frame} (h : tf.WF) (ht : tf.type = .data)
    (hc6 : tf.c[5]? = some true) {out : List Byte} (ho : 160 ≤ out.length) :
    ∃ pl, Carries16 pl [group 63 tf.d 0, group 63 tf.d 1, group 63 tf.d 2, group 63 tf.d 3] ∧
      trau2rtp K st out tf = .ok (160, pl ++ out.drop 160) := by
  obtain ⟨mid, hm, ho'⟩ := split_at ho
  obtain ⟨P, h1, h2, h3, h4⟩ := trau2rtpData16_eq h hm (rest := out.drop 160)
  refine ⟨P, carries16 ?_ h1 (by simpa using h2) h3, ?_⟩
  · intro x hx; simp only [List.mem_cons, List.not_mem_nil, or_false] at hx
    rcases hx with rfl | rfl | rfl | rfl <;> exact group_length h.d (by decide)
  · rw [trau2rtp, ht]
    show trau2rtpDataFr out tf = _
    have r5 : rd tf.c 5 = .ok true := by unfold rd; rw [hc6]
    unfold trau2rtpDataFr
    rw [if_neg (by rw [ht]; simp), if_neg (by simp only [PLEN]; omega), r5, bind_ok]
    simp only [if_true]
    rw [← ho'] at h4
    have := congrArg (· >>= fun out => (.ok ((PLEN : Int), out) : M (Int × List Byte))) h4
    simp only [bind_assoc, bind_ok] at this
    exact this

/-- **C35 (TRAU → RTP, half rate data, 16k and 8k frames)** The first two groups of 63 D bits become the two frames. -/
theorem C35_trau2rtp_hr (K : Codec) (st : State) {tf : Frame} (h : tf.WF) (ht : tf.type = .dataHr ∨ tf.type = .data8)
    {out : List Byte} (ho : 160 ≤ out.length) :
    ∃ pl, Carries8 pl [group 63 tf.d 0, group 63 tf.d 1] ∧ trau2rtp K st out tf = .ok (160, pl ++ out.drop 160) := by
  obtain ⟨mid, hm, ho'⟩ := split_at ho
  obtain ⟨P, h1, h2, h3, h4⟩ := trau2rtpData8_eq h hm (rest := out.drop 160) 1 (by decide)
  rw [← ho'] at h4
  have h5 := congrArg (· >>= fun out => (.ok ((PLEN : Int), out) : M (Int × List Byte))) h4
  simp only [bind_assoc, bind_ok] at h5
  refine ⟨P, carries8 ?_ h1 (by simpa using h2) h3, ?_⟩
  · intro x hx; simp only [List.mem_cons, List.not_mem_nil, or_false] at hx
    rcases hx with rfl | rfl <;> exact group_length h.d (by decide)
  · rcases ht with ht | ht
    · rw [trau2rtp, ht]
      show trau2rtpDataHr .dataHr out tf = _
      unfold trau2rtpDataHr
      rw [if_neg (by rw [ht]; simp), if_neg (by simp only [PLEN]; omega)]
      exact h5
    · rw [trau2rtp, ht]
      show trau2rtpDataHr .data8 out tf = _
      unfold trau2rtpDataHr
      rw [if_neg (by rw [ht]; simp), if_neg (by simp only [PLEN]; omega)]
      exact h5

/-! ### RTP → TRAU -/

/-- what ends up in a group of 63 D bits: the contents of V.110 frame `k` if the whole payload is well formed, otherwise
ones -/
def rxGroup (bits : List Bool) (n : Nat) (data : List Byte) (k : Nat) : List Bool :=
  if data.length = 160 ∧ ∀ j < n, IsV110 (group 80 bits j) then v110Data (group 80 bits k) else List.replicate 63 true

theorem rxGroup_length {bits : List Bool} {n : Nat} {data : List Byte} {k : Nat} (hk : k < n) : (rxGroup bits n data k).length = 63 := by
  unfold rxGroup
  split
  · rename_i h
    have := (h.2 k hk).len
    simp only [v110Data, List.length_flatMap, List.length_take, List.length_drop, this]
    decide
  · simp

theorem drop_setC5 {c : List Bool} (h : c.length = 25) (a b c' d e : Bool) :
    setC5 c [a, b, c', d, e] = .ok ([a, b, c', d, e] ++ c.drop 5) := by
  unfold setC5; rw [blit_ok (by simp [h])]; simp

/-- **C35 (RTP → TRAU, FR data, 8 kbit/s)** Any payload is accepted. If it is 160 octets with two aligned V.110 frames, their
contents become the first and third group of D bits, otherwise these are all ones (idle); the other two groups are ones. -/
theorem C35_rtp2trau_data8 (K : Codec) (st : State) (hst : st.type = .data) (hir : st.interm16k = false) {tf : Frame} (h : tf.WF)
    (data : List Byte) :
    ∃ tf', rtp2trau K st tf data = .ok (0, tf') ∧ tf'.WF ∧ tf'.type = .data ∧ tf'.dir = tf.dir ∧
      group 63 tf'.d 0 = rxGroup (bits8 data) 2 data 0 ∧ group 63 tf'.d 1 = List.replicate 63 true ∧
      group 63 tf'.d 2 = rxGroup (bits8 data) 2 data 1 ∧ group 63 tf'.d 3 = List.replicate 63 true ∧
      tf'.c.take 15 = (if tf.dir = .ul then [false, true, false, false, false] else [true, false, true, true, false]) ++
        [false] ++ List.replicate 9 true := by
  have e : rtp2trau K st tf data = rtp2trauDataFr tf data false := by rw [rtp2trau, hst, hir]
  have hd := dataIr8_eq_a h.d data
  rw [bits8_eq] at hd
  have l0 := rxGroup_length (bits := bits8 data) (n := 2) (data := data) (k := 0) (by decide)
  have l1 := rxGroup_length (bits := bits8 data) (n := 2) (data := data) (k := 1) (by decide)
  change dataIr8 tf.d data (63 * 2) = .ok (rxGroup (bits8 data) 2 data 0 ++ (tf.d.drop 63).take 63 ++ rxGroup (bits8 data) 2 data 1 ++ tf.d.drop 189) at hd
  generalize rxGroup (bits8 data) 2 data 0 = a at *
  generalize rxGroup (bits8 data) 2 data 1 = b at *
  rw [e]
  unfold rtp2trauDataFr
  obtain ⟨ty, dir, ta, c, d, t, s, m, ufi, crc, xc⟩ := tf
  obtain ⟨h1, h2, h3, h4, h5, h6, h7⟩ := h
  simp only at h1 h2 h3 h4 h5 h6 h7 hd
  simp only [Bool.false_eq_true, if_false, hd, bind_ok]
  obtain ⟨c, rfl⟩ := exists_L' h1
  obtain ⟨a, rfl⟩ := exists_L' l0
  obtain ⟨b, rfl⟩ := exists_L' l1
  obtain ⟨d, rfl⟩ := exists_L' h2
  let o63 := List.replicate 63 true
  cases dir
  · exact ⟨⟨.data, .ul, ta, [false, true, false, false, false] ++ [false] ++ List.replicate 9 true ++ (L 25 c).drop 15,
      L 63 a ++ o63 ++ L 63 b ++ o63 ++ (L 288 d).drop 252, t, s, m, ufi, crc, xc⟩, by show _ = _; kernel_rfl,
      ⟨rfl, rfl, h3, h4, h5, h6, h7⟩, rfl, rfl, rfl, rfl, rfl, rfl, rfl⟩
  · exact ⟨⟨.data, .dl, ta, [true, false, true, true, false] ++ [false] ++ List.replicate 9 true ++ (L 25 c).drop 15,
      L 63 a ++ o63 ++ L 63 b ++ o63 ++ (L 288 d).drop 252, t, s, m, ufi, crc, xc⟩, by show _ = _; kernel_rfl,
      ⟨rfl, rfl, h3, h4, h5, h6, h7⟩, rfl, rfl, rfl, rfl, rfl, rfl, rfl⟩


/-- **C35 (RTP → TRAU, FR data, 16 kbit/s)** The same with four V.110 frames. -/
theorem C35_rtp2trau_data16 (K : Codec) (st : State) (hst : st.type = .data) (hir : st.interm16k = true) {tf : Frame} (h : tf.WF)
    (data : List Byte) :
    ∃ tf', rtp2trau K st tf data = .ok (0, tf') ∧ tf'.WF ∧ tf'.type = .data ∧ tf'.dir = tf.dir ∧
      (∀ k < 4, group 63 tf'.d k = rxGroup (bits16 data) 4 data k) ∧
      tf'.c.take 15 = (if tf.dir = .ul then [false, true, false, false, false] else [true, false, true, true, false]) ++
        [true] ++ List.replicate 9 true := by
  have e : rtp2trau K st tf data = rtp2trauDataFr tf data true := by rw [rtp2trau, hst, hir]
  have hd := dataIr16_eq h.d data
  rw [bits16_eq] at hd
  have l0 := rxGroup_length (bits := bits16 data) (n := 4) (data := data) (k := 0) (by decide)
  have l1 := rxGroup_length (bits := bits16 data) (n := 4) (data := data) (k := 1) (by decide)
  have l2 := rxGroup_length (bits := bits16 data) (n := 4) (data := data) (k := 2) (by decide)
  have l3 := rxGroup_length (bits := bits16 data) (n := 4) (data := data) (k := 3) (by decide)
  change dataIr16 tf.d data = .ok (rxGroup (bits16 data) 4 data 0 ++ rxGroup (bits16 data) 4 data 1 ++ rxGroup (bits16 data) 4 data 2 ++
    rxGroup (bits16 data) 4 data 3 ++ tf.d.drop 252) at hd
  have hk : ∀ d : List Bool, (∀ k < 4, group 63 d k = rxGroup (bits16 data) 4 data k) ↔
      group 63 d 0 = rxGroup (bits16 data) 4 data 0 ∧ group 63 d 1 = rxGroup (bits16 data) 4 data 1 ∧
      group 63 d 2 = rxGroup (bits16 data) 4 data 2 ∧ group 63 d 3 = rxGroup (bits16 data) 4 data 3 := by
    intro d
    constructor
    · intro h; exact ⟨h 0 (by decide), h 1 (by decide), h 2 (by decide), h 3 (by decide)⟩
    · rintro ⟨a, b, c, d⟩ k hk
      match k, hk with
      | 0, _ => exact a
      | 1, _ => exact b
      | 2, _ => exact c
      | 3, _ => exact d
  simp only [hk]
  generalize rxGroup (bits16 data) 4 data 0 = a at *
  generalize rxGroup (bits16 data) 4 data 1 = b at *
  generalize rxGroup (bits16 data) 4 data 2 = a2 at *
  generalize rxGroup (bits16 data) 4 data 3 = a3 at *
  rw [e]
  unfold rtp2trauDataFr
  obtain ⟨ty, dir, ta, c, d, t, s, m, ufi, crc, xc⟩ := tf
  obtain ⟨h1, h2, h3, h4, h5, h6, h7⟩ := h
  simp only at h1 h2 h3 h4 h5 h6 h7 hd
  simp only [if_true, hd, bind_ok]
  obtain ⟨c, rfl⟩ := exists_L' h1
  obtain ⟨a, rfl⟩ := exists_L' l0
  obtain ⟨b, rfl⟩ := exists_L' l1
  obtain ⟨a2, rfl⟩ := exists_L' l2
  obtain ⟨a3, rfl⟩ := exists_L' l3
  obtain ⟨d, rfl⟩ := exists_L' h2
  cases dir
  · exact ⟨⟨.data, .ul, ta, [false, true, false, false, false] ++ [true] ++ List.replicate 9 true ++ (L 25 c).drop 15,
      L 63 a ++ L 63 b ++ L 63 a2 ++ L 63 a3 ++ (L 288 d).drop 252, t, s, m, ufi, crc, xc⟩, by show _ = _; kernel_rfl,
      ⟨rfl, rfl, h3, h4, h5, h6, h7⟩, rfl, rfl, ⟨rfl, rfl, rfl, rfl⟩, rfl⟩
  · exact ⟨⟨.data, .dl, ta, [true, false, true, true, false] ++ [true] ++ List.replicate 9 true ++ (L 25 c).drop 15,
      L 63 a ++ L 63 b ++ L 63 a2 ++ L 63 a3 ++ (L 288 d).drop 252, t, s, m, ufi, crc, xc⟩, by show _ = _; kernel_rfl,
      ⟨rfl, rfl, h3, h4, h5, h6, h7⟩, rfl, rfl, ⟨rfl, rfl, rfl, rfl⟩, rfl⟩

/-- **C35 (RTP → TRAU, half rate data)** The same with two V.110 frames in the first two groups, for 16k and 8k frames. -/
theorem C35_rtp2trau_hr (K : Codec) (st : State) (hst : st.type = .dataHr ∨ st.type = .data8) {tf : Frame} (h : tf.WF)
    (data : List Byte) :
    ∃ tf', rtp2trau K st tf data = .ok (0, tf') ∧ tf'.WF ∧ tf'.type = st.type ∧ tf'.dir = tf.dir ∧
      group 63 tf'.d 0 = rxGroup (bits8 data) 2 data 0 ∧ group 63 tf'.d 1 = rxGroup (bits8 data) 2 data 1 ∧
      tf'.c.take 5 = (if st.type = .data8 then [false, false, true, true, true] else
        if tf.dir = .ul then [false, true, false, false, true] else [true, false, true, true, true]) := by
  have hd := dataIr8_eq_b h.d data
  rw [bits8_eq] at hd
  have l0 := rxGroup_length (bits := bits8 data) (n := 2) (data := data) (k := 0) (by decide)
  have l1 := rxGroup_length (bits := bits8 data) (n := 2) (data := data) (k := 1) (by decide)
  change dataIr8 tf.d data 63 = .ok (rxGroup (bits8 data) 2 data 0 ++ rxGroup (bits8 data) 2 data 1 ++ tf.d.drop 126) at hd
  have e : rtp2trau K st tf data = if st.type = .data8 then rtp2trauDataHr8 tf data else rtp2trauDataHr16 tf data := by
    rcases hst with hst | hst <;> (rw [rtp2trau, hst]; rfl)
  generalize rxGroup (bits8 data) 2 data 0 = a at *
  generalize rxGroup (bits8 data) 2 data 1 = b at *
  rw [e]
  unfold rtp2trauDataHr8 rtp2trauDataHr16
  obtain ⟨ty, dir, ta, c, d, t, s, m, ufi, crc, xc⟩ := tf
  obtain ⟨h1, h2, h3, h4, h5, h6, h7⟩ := h
  simp only at h1 h2 h3 h4 h5 h6 h7 hd
  simp only [hd, bind_ok]
  obtain ⟨c, rfl⟩ := exists_L' h1
  obtain ⟨a, rfl⟩ := exists_L' l0
  obtain ⟨b, rfl⟩ := exists_L' l1
  obtain ⟨d, rfl⟩ := exists_L' h2
  rcases hst with hst | hst <;> simp only [hst, if_true, reduceCtorEq, if_false]
  · cases dir
    · exact ⟨⟨.dataHr, .ul, ta, [false, true, false, false, true] ++ [false] ++ List.replicate 9 true ++ (L 25 c).drop 15,
        L 63 a ++ L 63 b ++ (L 288 d).drop 126, t, s, m, ufi, crc, xc⟩, by show _ = _; kernel_rfl,
        ⟨rfl, rfl, h3, h4, h5, h6, h7⟩, rfl, rfl, rfl, rfl, rfl⟩
    · exact ⟨⟨.dataHr, .dl, ta, [true, false, true, true, true] ++ [false] ++ List.replicate 9 true ++ (L 25 c).drop 15,
        L 63 a ++ L 63 b ++ (L 288 d).drop 126, t, s, m, ufi, crc, xc⟩, by show _ = _; kernel_rfl,
        ⟨rfl, rfl, h3, h4, h5, h6, h7⟩, rfl, rfl, rfl, rfl, rfl⟩
  · exact ⟨⟨.data8, dir, ta, [false, false, true, true, true] ++ (L 25 c).drop 5,
        L 63 a ++ L 63 b ++ (L 288 d).drop 126, t, s, m, ufi, crc, xc⟩, by show _ = _; kernel_rfl,
        ⟨rfl, rfl, h3, h4, h5, h6, h7⟩, rfl, rfl, rfl, rfl, rfl⟩

/-! ### round trips -/

theorem rx_carries8 {pl : List Byte} {a b : List Bool} (h : Carries8 pl [a, b]) :
    rxGroup (bits8 pl) 2 pl 0 = a ∧ rxGroup (bits8 pl) 2 pl 1 = b := by
  have hc : pl.length = 160 ∧ ∀ j < 2, IsV110 (group 80 (bits8 pl) j) := ⟨h.len, fun j hj => (h.frames j hj).1⟩
  exact ⟨by rw [rxGroup, if_pos hc]; exact (h.frames 0 (by simp)).2, by rw [rxGroup, if_pos hc]; exact (h.frames 1 (by simp)).2⟩
theorem rx_carries16 {pl : List Byte} {xs : List (List Bool)} (hx : xs.length = 4) (h : Carries16 pl xs) :
    ∀ k (hk : k < 4), rxGroup (bits16 pl) 4 pl k = xs[k] := by
  have hc : pl.length = 160 ∧ ∀ j < 4, IsV110 (group 80 (bits16 pl) j) :=
    ⟨by rw [h.len, hx], fun j hj => (h.frames j (by omega)).1⟩
  intro k hk
  rw [rxGroup, if_pos hc]; exact (h.frames k (by omega)).2

/-- **C35 (round trip)** TRAU → RTP → TRAU preserves the D bits in use, whatever the buffers contained before:
the first and third group for 8 kbit/s full rate data, … -/
theorem C35_roundtrip_data8 (K : Codec) (st st' : State) (hst : st'.type = .data) (hir : st'.interm16k = false) {tf tf0 : Frame}
    (h : tf.WF) (h0 : tf0.WF) (ht : tf.type = .data) (hc6 : tf.c[5]? = some false) {out : List Byte} (ho : 160 ≤ out.length) :
    ∃ pl tf', pl.length = 160 ∧ trau2rtp K st out tf = .ok (160, pl ++ out.drop 160) ∧ rtp2trau K st' tf0 pl = .ok (0, tf') ∧
      group 63 tf'.d 0 = group 63 tf.d 0 ∧ group 63 tf'.d 2 = group 63 tf.d 2 := by
  obtain ⟨pl, h1, h2⟩ := C35_trau2rtp_data8 K st h ht hc6 ho
  obtain ⟨tf', h3, _, _, _, h4, _, h5, _⟩ := C35_rtp2trau_data8 K st' hst hir h0 pl
  obtain ⟨e1, e2⟩ := rx_carries8 h1
  exact ⟨pl, tf', h1.len, h2, h3, h4.trans e1, h5.trans e2⟩

/-- … all 252 bits for 16 kbit/s full rate data, … -/
theorem C35_roundtrip_data16 (K : Codec) (st st' : State) (hst : st'.type = .data) (hir : st'.interm16k = true) {tf tf0 : Frame}
    (h : tf.WF) (h0 : tf0.WF) (ht : tf.type = .data) (hc6 : tf.c[5]? = some true) {out : List Byte} (ho : 160 ≤ out.length) :
    ∃ pl tf', pl.length = 160 ∧ trau2rtp K st out tf = .ok (160, pl ++ out.drop 160) ∧ rtp2trau K st' tf0 pl = .ok (0, tf') ∧
      tf'.d.take 252 = tf.d.take 252 := by
  obtain ⟨pl, h1, h2⟩ := C35_trau2rtp_data16 K st h ht hc6 ho
  obtain ⟨tf', h3, hwf, _, _, h4, _⟩ := C35_rtp2trau_data16 K st' hst hir h0 pl
  have e := rx_carries16 rfl h1
  refine ⟨pl, tf', h1.len, h2, h3, ?_⟩
  have hs : ∀ d : List Bool, d.take 252 = group 63 d 0 ++ group 63 d 1 ++ group 63 d 2 ++ group 63 d 3 := by
    intro d
    unfold group
    simp only [Nat.mul_zero, List.drop_zero, Nat.mul_one]
    rw [show (252 : Nat) = 63 + (63 + (63 + 63)) from rfl, List.take_add, List.take_add, List.take_add]
    simp [List.drop_drop, List.append_assoc]
  rw [hs, hs, h4 0 (by decide), h4 1 (by decide), h4 2 (by decide), h4 3 (by decide), e 0 (by decide), e 1 (by decide),
    e 2 (by decide), e 3 (by decide)]
  rfl

/-- … and all 126 bits for half rate data. -/
theorem C35_roundtrip_hr (K : Codec) (st st' : State) (hst : st'.type = .dataHr ∨ st'.type = .data8) {tf tf0 : Frame}
    (h : tf.WF) (h0 : tf0.WF) (ht : tf.type = .dataHr ∨ tf.type = .data8) {out : List Byte} (ho : 160 ≤ out.length) :
    ∃ pl tf', pl.length = 160 ∧ trau2rtp K st out tf = .ok (160, pl ++ out.drop 160) ∧ rtp2trau K st' tf0 pl = .ok (0, tf') ∧
      tf'.d.take 126 = tf.d.take 126 := by
  obtain ⟨pl, h1, h2⟩ := C35_trau2rtp_hr K st h ht ho
  obtain ⟨tf', h3, _, _, _, h4, h5, _⟩ := C35_rtp2trau_hr K st' hst h0 pl
  obtain ⟨e1, e2⟩ := rx_carries8 h1
  refine ⟨pl, tf', h1.len, h2, h3, ?_⟩
  have hs : ∀ d : List Bool, d.take 126 = group 63 d 0 ++ group 63 d 1 := by
    intro d
    unfold group
    rw [show (126 : Nat) = 63 + 63 from rfl, List.take_add]
    rfl
  rw [hs, hs, h4, h5, e1, e2]

theorem ext_bits {a b : Byte} {n : Nat} (hl : ∀ i < 8, n ≤ i → a.getLsbD i = b.getLsbD i) (ha : ∀ i < n, a.getLsbD i = true)
    (hb : ∀ i < n, b.getLsbD i = true) : a = b := by
  apply BitVec.eq_of_getLsbD_eq
  intro i hi
  by_cases h : n ≤ i
  · exact hl i hi h
  · rw [ha i (by omega), hb i (by omega)]

theorem Carries8.unique {a b : List Byte} {xs : List (List Bool)} (ha : Carries8 a xs) (hb : Carries8 b xs) : a = b := by
  have hl : a.length = b.length := by rw [ha.len, hb.len]
  have hbits : bits8 a = bits8 b := by
    apply List.ext_getElem?
    intro i
    by_cases hi : i < 80 * xs.length
    · have hk : i / 80 < xs.length := by omega
      have e1 := v110Frame_unique (ha.frames _ hk).1
      have e2 := v110Frame_unique (hb.frames _ hk).1
      rw [(ha.frames _ hk).2] at e1
      rw [(hb.frames _ hk).2] at e2
      have e3 := congrArg (·[i % 80]?) (e1.symm.trans e2)
      simp only [group, List.getElem?_take_of_lt (Nat.mod_lt i (show 0 < 80 by decide)), List.getElem?_drop, Nat.div_add_mod] at e3
      exact e3
    · rw [List.getElem?_eq_none (by rw [bits8, List.length_map, ha.len]; omega),
        List.getElem?_eq_none (by rw [bits8, List.length_map, hb.len]; omega)]
  apply List.ext_getElem hl
  intro i h1 h2
  have := congrArg (·[i]?) hbits
  simp only [bits8, List.getElem?_map, List.getElem?_eq_getElem h1, List.getElem?_eq_getElem h2, Option.map_some, Option.some.injEq] at this
  refine ext_bits (n := 7) ?_ (ha.rest _ (List.getElem_mem _)) (hb.rest _ (List.getElem_mem _))
  intro j hj hj'
  rw [show j = 7 by omega, this]

/-- **C35 (round trip RTP → TRAU → RTP)** A well formed payload of half rate data comes back octet for octet. -/
theorem C35_roundtrip_rtp_hr (K : Codec) (st st' : State) (hst : st.type = .dataHr ∨ st.type = .data8) {tf : Frame} (h : tf.WF)
    {pl : List Byte} {x y : List Bool} (hp : Carries8 pl [x, y]) {out : List Byte} (ho : 160 ≤ out.length) :
    ∃ tf', rtp2trau K st tf pl = .ok (0, tf') ∧ trau2rtp K st' out tf' = .ok (160, pl ++ out.drop 160) := by
  obtain ⟨tf', h1, h2, h3, _, h4, h5, _⟩ := C35_rtp2trau_hr K st hst h pl
  obtain ⟨e1, e2⟩ := rx_carries8 hp
  obtain ⟨pl', h6, h7⟩ := C35_trau2rtp_hr K st' h2 (by rw [h3]; exact hst) ho
  rw [h4, h5, e1, e2] at h6
  exact ⟨tf', h1, by rw [h7, Carries8.unique h6 hp]⟩

/-- … and so does one of 8 kbit/s full rate data. -/
theorem C35_roundtrip_rtp_data8 (K : Codec) (st st' : State) (hst : st.type = .data) (hir : st.interm16k = false) {tf : Frame} (h : tf.WF)
    {pl : List Byte} {x y : List Bool} (hp : Carries8 pl [x, y]) {out : List Byte} (ho : 160 ≤ out.length) :
    ∃ tf', rtp2trau K st tf pl = .ok (0, tf') ∧ trau2rtp K st' out tf' = .ok (160, pl ++ out.drop 160) := by
  obtain ⟨tf', h1, h2, h3, _, h4, _, h5, _, hc⟩ := C35_rtp2trau_data8 K st hst hir h pl
  obtain ⟨e1, e2⟩ := rx_carries8 hp
  have h6 : tf'.c[5]? = some false := by
    rw [← List.getElem?_take_of_lt (i := 5) (j := 15) (by decide), hc]
    cases tf.dir <;> rfl
  obtain ⟨pl', h6, h7⟩ := C35_trau2rtp_data8 K st' h2 h3 h6 ho
  rw [h4, h5, e1, e2] at h6
  exact ⟨tf', h1, by rw [h7, Carries8.unique h6 hp]⟩

/-! ### 14.4 kbit/s data (extended TRAU frames) -/

/-- **C35 (14.4 kbit/s)** TRAU → RTP: 160 octets of an A-TRAU frame with the D and M bits; RTP → TRAU gives the same D and M bits
back and "not idle" in C7. -/
theorem C35_edata_roundtrip (K : Codec) (st st' : State) (hst : st'.type = .edata) {tf tf0 : Frame}
    (h : tf.WF) (h0 : tf0.WF) (ht : tf.type = .edata) {out : List Byte} (ho : 160 ≤ out.length) :
    ∃ pl tf', pl.length = 160 ∧ trau2rtp K st out tf = .ok (160, pl ++ out.drop 160) ∧ rtp2trau K st' tf0 pl = .ok (0, tf') ∧
      tf'.d = tf.d ∧ tf'.m = tf.m ∧ tf'.type = .edata ∧ tf'.c[6]? = some false := by
  obtain ⟨c6, hc6⟩ := get_some (l := tf.c) (i := 5) (by rw [h.c]; decide)
  obtain ⟨m, hm⟩ := exists_L' h.m
  have hm : tf.m = [m 0, m 1] := hm
  obtain ⟨pl, h1, h2, h3⟩ := Raa.C02_atrau_ra2_roundtrip (m 0) (m 1) true c6 tf.d h.d
  obtain ⟨mid, hmid, ho'⟩ := split_at ho
  have e : rtp2trau K st' tf0 pl = rtp2trauEdata tf0 pl := by rw [rtp2trau, hst]
  have hb : blit tf0.d 0 tf.d = .ok tf.d := by
    rw [blit_ok (by simp [h.d, h0.d])]; simp [h.d, h0.d]
  obtain ⟨m', hm'⟩ := exists_L' h0.m
  obtain ⟨c', hc'⟩ := exists_L' h0.c
  refine ⟨pl, ⟨.edata, tf0.dir, tf0.ta, List.replicate 5 true ++ [false, false] ++ List.replicate 6 true ++ tf0.c.drop 13, tf.d,
    tf0.t, tf0.s, [m 0, m 1], tf0.ufi, tf0.crc, tf0.xc⟩, h2, ?_, ?_, rfl, hm.symm, rfl, rfl⟩
  · rw [trau2rtp, ht]
    show trau2rtpEdata out tf = _
    have r5 : rd tf.c 5 = .ok c6 := by unfold rd; rw [hc6]
    unfold trau2rtpEdata
    rw [if_neg (by rw [ht]; simp), if_neg (by simp only [PLEN]; omega), r5, bind_ok, hm, h1, bind_ok]
    conv => lhs; rw [ho']
    have := blit_mid (a := []) (b := mid) (c := out.drop 160) (x := pl) (k := 0) rfl (by omega)
    simp only [List.nil_append] at this
    rw [this]
    rfl
  · rw [e]
    unfold rtp2trauEdata
    rw [if_pos (show pl.length = PLEN from h2), h3, hc', hm']
    simp only [bind_ok]
    rw [hb]
    rfl

/-- **C35 (14.4 kbit/s, bad input)** Anything that is not 160 octets with a decodable A-TRAU frame gives idle fill. -/
theorem C35_edata_idle (K : Codec) (st : State) (hst : st.type = .edata) {tf : Frame} (h : tf.WF) {data : List Byte}
    (hbad : data.length ≠ 160 ∨ RaaPrime.fromAtrauRa2 data = .ok none) :
    ∃ tf', rtp2trau K st tf data = .ok (0, tf') ∧ tf'.type = .edata ∧ tf'.d = List.replicate 288 true ∧
      tf'.m = [true, true] ∧ tf'.c[6]? = some true := by
  have e : rtp2trau K st tf data = rtp2trauEdata tf data := by rw [rtp2trau, hst]
  obtain ⟨m', hm'⟩ := exists_L' h.m
  obtain ⟨c', hc'⟩ := exists_L' h.c
  have hb : blit tf.d 0 (List.replicate 288 true) = .ok (List.replicate 288 true) := by
    rw [blit_ok (by simp [h.d])]; simp [h.d]
  refine ⟨⟨.edata, tf.dir, tf.ta, List.replicate 5 true ++ [false, true] ++ List.replicate 6 true ++ tf.c.drop 13,
    List.replicate 288 true, tf.t, tf.s, [true, true], tf.ufi, tf.crc, tf.xc⟩, ?_, rfl, rfl, rfl, rfl⟩
  rw [e]
  unfold rtp2trauEdata
  have hn : (if data.length = PLEN then RaaPrime.fromAtrauRa2 data else .ok none) = .ok none := by
    by_cases hl : data.length = PLEN
    · rw [if_pos hl]
      rcases hbad with hb | hb
      · exact absurd hl hb
      · exact hb
    · rw [if_neg hl]
  rw [hc', hm', hn]
  simp only [bind_ok]
  rw [hb]
  rfl

/-! ### concrete cases -/

def exD : List Bool := (List.range 288).map fun i => (i * i) % 7 < 3
def exData (ty : FT) (c6 : Bool) : Frame := { Frame0 .ul with type := ty, d := exD, c := (List.replicate 25 true).set 5 c6 }
def stData (ty : FT) (ir : Bool) : State := ⟨ty, false, false, ir⟩
example : (exData .data true).WF := by constructor <;> rfl
example : ((trau2rtp K0 (stData .data true) (List.replicate 160 0) (exData .data true) >>= fun r =>
    rtp2trau K0 (stData .data true) (Frame0 .dl) r.2).toOption.map fun r => r.2.d.take 252) = some (exD.take 252) := by
  decide +kernel
/-- one wrong alignment bit: idle -/
example : ((trau2rtp K0 (stData .data8 true) (List.replicate 160 0) (exData .data8 true) >>= fun r =>
    rtp2trau K0 (stData .data8 true) (Frame0 .dl) (r.2.set 3 0xFF)).toOption.map fun r => r.2.d.take 126) =
    some (List.replicate 126 true) := by decide +kernel

end Verif.RtpConv
