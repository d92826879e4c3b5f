import Verif.Proof.RtpEfr
/-!
# Half rate: the conversion functions in closed form
-/
namespace Verif.RtpConv
open Verif Verif.Trau Verif.Spec.Rtp
open Verif.RaaPrime (bind_ok bind_err)
set_option maxRecDepth 10000

theorem wr0 (x v : Byte) (l : List Byte) : wr (x :: l) 0 v = .ok (v :: l) := by simp [wr]
theorem orByte0 (x v : Byte) (l : List Byte) : orByte (x :: l) 0 v = .ok ((x ||| v) :: l) := by
  unfold orByte; rw [show rd (x :: l) 0 = .ok x from rfl, bind_ok, wr0]
theorem blit1 {mid src : List Byte} (x : Byte) (rest : List Byte) (h : mid.length = src.length) :
    blit (x :: (mid ++ rest)) 1 src = .ok (x :: (src ++ rest)) := by
  rw [blit_ok (by simp; omega)]
  congr 1
  rw [Nat.add_comm 1]
  simp only [List.take_succ_cons, List.take_zero, List.drop_succ_cons]
  rw [List.drop_left' h]
  rfl
theorem slice1 {mid : List Byte} (x : Byte) (rest : List Byte) (h : mid.length = 14) :
    slice (x :: (mid ++ rest)) 1 HR_BYTES = .ok mid := by
  rw [slice_ok (by simp [HR_BYTES]; omega)]
  exact congrArg Except.ok (List.take_left' (by simp [HR_BYTES, h]))

/-- what `osmo_trau2rtp` leaves behind for a half rate frame: frame types 1 and 7 have no speech -/
def hrResult (ft : Nat) (hdr : Byte) (pl : List Byte) (mid rest : List Byte) : Int × List Byte :=
  if ft = 1 ∨ ft = 7 then (1, hdr :: (mid ++ rest)) else (15, hdr :: (pl ++ rest))

theorem hr16Flags_eq {tf : Frame} {dtxd taf : Bool} (h16 : rd tf.c 16 = .ok dtxd) (h14 : rd tf.c 14 = .ok taf)
    (ft : Nat) (hft : ft < 8) (l : List Byte) :
    hr16Flags (BitVec.ofNat 8 (16 * ft) :: l) tf = .ok (tw002Hdr ft dtxd tf.ufi taf :: l) := by
  have hb : ∀ (d u t : Bool) (k : Nat), k < 8 → (((BitVec.ofNat 8 (16 * k) : Byte) ||| (if d then 0x08 else 0)) |||
      (if u then 0x02 else 0)) ||| (if t then 0x01 else 0) = tw002Hdr k d u t := by
    decide +kernel
  have hz : ∀ b : Byte, b ||| 0 = b := fun b => BitVec.or_zero
  have := hb dtxd tf.ufi taf ft hft
  unfold hr16Flags
  rw [h16, h14]
  revert this
  generalize tf.ufi = u
  cases dtxd <;> cases u <;> cases taf <;> intro this <;>
    simp only [Bool.false_eq_true, if_true, if_false, orByte0, bind_ok, hz] at this ⊢ <;> rw [this]

theorem trau2rtpHr16_tw (K : Codec) {tf : Frame} (h : tf.WF) (ht : tf.type = .hr) {mid rest : List Byte} {x : Byte}
    {dtxd bfi taf s1 s0 : Bool} (h16 : tf.c[16]? = some dtxd) (h11 : tf.c[11]? = some bfi)
    (h14 : tf.c[14]? = some taf) (h12 : tf.c[12]? = some s1) (h13 : tf.c[13]? = some s0) (hm : mid.length = 14) :
    let ft := if tf.crc = crc3 (tf.d.take 44) then hr16Ft bfi s1 s0 else 7
    trau2rtpHr16 K (x :: (mid ++ rest)) tf true =
      .ok (hrResult ft (tw002Hdr ft dtxd tf.ufi taf) (ubit2pbit 14 (tf.d.take 112)) mid rest) := by
  have r11 : rd tf.c 11 = .ok bfi := by unfold rd; rw [h11]
  have r12 : rd tf.c 12 = .ok s1 := by unfold rd; rw [h12]
  have r13 : rd tf.c 13 = .ok s0 := by unfold rd; rw [h13]
  have r14 : rd tf.c 14 = .ok taf := by unfold rd; rw [h14]
  have r16 : rd tf.c 16 = .ok dtxd := by unfold rd; rw [h16]
  have hp : slice tf.d 0 44 = .ok (tf.d.take 44) := by rw [slice_ok (by rw [h.d]; decide)]; rfl
  have hd : slice tf.d 0 112 = .ok (tf.d.take 112) := by rw [slice_ok (by rw [h.d]; decide)]; rfl
  have hbad : ∀ y l, hr16Bad (y :: l) tf true = .ok (1, tw002Hdr 7 dtxd tf.ufi taf :: l) := by
    intro y l
    unfold hr16Bad
    rw [if_pos rfl, wr0, bind_ok, show (0x70 : Byte) = BitVec.ofNat 8 (16 * 7) from rfl,
      hr16Flags_eq r16 r14 7 (by decide), bind_ok]
  have hbl : ∀ y, blit (y :: (mid ++ rest)) 1 (ubit2pbit 14 (tf.d.take 112)) =
      .ok (y :: (ubit2pbit 14 (tf.d.take 112) ++ rest)) := fun y => blit1 y rest (by simp [hm])
  have fl := fun ft hft => hr16Flags_eq (tf := tf) r16 r14 ft hft (mid ++ rest)
  have f0 := fl 0 (by decide)
  have f1 := fl 1 (by decide)
  have f2 := fl 2 (by decide)
  have f6 := fl 6 (by decide)
  intro ft
  unfold trau2rtpHr16
  rw [if_neg (by simp [ht]), if_neg (by simp [HR_RFC5993]; omega), hp, bind_ok]
  by_cases hc : tf.crc = crc3 (tf.d.take 44)
  · have : ft = hr16Ft bfi s1 s0 := if_pos hc
    rw [this, if_neg (by simpa using hc), r12, r13, r11]
    simp only [bind_ok, hbad, hd]
    cases s1 <;> cases s0 <;> cases bfi <;>
      simp [hr16Ft, hrResult, wr0, bind_ok, HR_BYTES, HR_RFC5993] at f0 f1 f2 f6 ⊢ <;>
      simp [f0, f1, f2, f6, bind_ok, hbl]
  · have : ft = 7 := if_neg hc
    rw [this, if_pos hc, hbad]
    rfl

theorem trau2rtpHr16_plain (K : Codec) (hK : ∀ l, (K.hrSidReset l).length = l.length) {tf : Frame} (h : tf.WF)
    (ht : tf.type = .hr) {mid rest : List Byte} {x : Byte}
    {bfi s1 s0 : Bool} (h11 : tf.c[11]? = some bfi)
    (h12 : tf.c[12]? = some s1) (h13 : tf.c[13]? = some s0) (hm : mid.length = 14) :
    trau2rtpHr16 K (x :: (mid ++ rest)) tf false = .ok (
      if tf.crc = crc3 (tf.d.take 44) ∧ bfi = false ∧ s0 = false then
        if s1 then (15, 0x20 :: (K.hrSidReset (ubit2pbit 14 (tf.d.take 112)) ++ rest))
        else (15, 0x00 :: (ubit2pbit 14 (tf.d.take 112) ++ rest))
      else (0, x :: (mid ++ rest))) := by
  have r11 : rd tf.c 11 = .ok bfi := by unfold rd; rw [h11]
  have r12 : rd tf.c 12 = .ok s1 := by unfold rd; rw [h12]
  have r13 : rd tf.c 13 = .ok s0 := by unfold rd; rw [h13]
  have hp : slice tf.d 0 44 = .ok (tf.d.take 44) := by rw [slice_ok (by rw [h.d]; decide)]; rfl
  have hd : slice tf.d 0 112 = .ok (tf.d.take 112) := by rw [slice_ok (by rw [h.d]; decide)]; rfl
  have hbad : ∀ l, hr16Bad l tf false = .ok (0, l) := by
    intro l; rfl
  have hbl : ∀ y, blit (y :: (mid ++ rest)) 1 (ubit2pbit 14 (tf.d.take 112)) =
      .ok (y :: (ubit2pbit 14 (tf.d.take 112) ++ rest)) := fun y => blit1 y rest (by simp [hm])
  have hsl : ∀ y, slice (y :: (ubit2pbit 14 (tf.d.take 112) ++ rest)) 1 14 = .ok (ubit2pbit 14 (tf.d.take 112)) :=
    fun y => slice1 y rest (by simp)
  have hbl2 : ∀ y, blit (y :: (ubit2pbit 14 (tf.d.take 112) ++ rest)) 1 (K.hrSidReset (ubit2pbit 14 (tf.d.take 112))) =
      .ok (y :: (K.hrSidReset (ubit2pbit 14 (tf.d.take 112)) ++ rest)) := fun y => blit1 y rest (by simp [hK])
  unfold trau2rtpHr16
  rw [if_neg (by simp [ht]), if_neg (by simp [HR_RFC5993]; omega), hp, bind_ok]
  by_cases hc : tf.crc = crc3 (tf.d.take 44)
  · rw [if_neg (by simpa using hc), r12, r13, r11]
    simp only [bind_ok, hbad, hd]
    cases s1 <;> cases s0 <;> cases bfi <;>
      simp [hc, wr0, bind_ok, HR_BYTES, hbl, hsl, hbl2, HR_RFC5993]
  · rw [if_pos hc, hbad, if_neg (fun hh => hc hh.1)]
/-! ### 8k -/

theorem hr8Flags_eq {tf : Frame} {dtxd ufi : Bool} (h16 : rd tf.c 8 = .ok dtxd) (h14 : rd tf.xc 4 = .ok ufi)
    (ft : Nat) (hft : ft < 8) (l : List Byte) :
    hr8Flags (BitVec.ofNat 8 (16 * ft) :: l) tf = .ok (tw002Hdr ft dtxd ufi false :: l) := by
  have hb : ∀ (d u : Bool) (k : Nat), k < 8 → (((BitVec.ofNat 8 (16 * k) : Byte) ||| (if d then 0x08 else 0)) |||
      (if u then 0x02 else 0)) = tw002Hdr k d u false := by
    decide +kernel
  have hz : ∀ b : Byte, b ||| 0 = b := fun b => BitVec.or_zero
  have := hb dtxd ufi ft hft
  unfold hr8Flags
  rw [h16, h14]
  revert this
  cases dtxd <;> cases ufi <;> intro this <;>
    simp only [Bool.false_eq_true, if_true, if_false, orByte0, bind_ok, hz] at this ⊢ <;> rw [this]

theorem tw002_taf : ∀ (ft : Nat) (d u : Bool), ft < 8 →
    (tw002Hdr ft d u false ||| 1 : Byte) = tw002Hdr ft d u true := by
  have : ∀ (ft : Nat), ft < 8 → ∀ (d u : Bool), (tw002Hdr ft d u false ||| 1 : Byte) = tw002Hdr ft d u true := by
    decide +kernel
  exact fun ft d u h => this ft h d u

theorem trau2rtpHr8_tw (K : Codec) {tf : Frame} (h : tf.WF) (ht : tf.type = .speech8) {mid rest : List Byte}
    {x : Byte} {dtxd : Bool} {x1 x2 x3 x4 x5 x6 : Bool} (h8 : tf.c[8]? = some dtxd)
    (hxc : tf.xc = [x1, x2, x3, x4, x5, x6]) (hm : mid.length = 14) :
    let ft := if tf.crc = crc3 (tf.d.take 44) then hr8Ft [x1, x2, x3, x4, x5, x6] else 7
    trau2rtpHr8 K (x :: (mid ++ rest)) tf true =
      .ok (hrResult ft (tw002Hdr ft dtxd x5 ((ft = 1 ∨ ft = 6) && x4)) (ubit2pbit 14 (tf.d.take 112)) mid rest) := by
  have r8 : rd tf.c 8 = .ok dtxd := by unfold rd; rw [h8]
  have x4e : rd tf.xc 4 = .ok x5 := by rw [hxc]; rfl
  have x3e : rd tf.xc 3 = .ok x4 := by rw [hxc]; rfl
  have sx : slice tf.xc 0 6 = .ok [x1, x2, x3, x4, x5, x6] := by rw [hxc]; rfl
  have hp : slice tf.d 0 44 = .ok (tf.d.take 44) := by rw [slice_ok (by rw [h.d]; decide)]; rfl
  have hd : slice tf.d 0 112 = .ok (tf.d.take 112) := by rw [slice_ok (by rw [h.d]; decide)]; rfl
  have hbad : ∀ y l, hr8Bad (y :: l) tf true = .ok (1, tw002Hdr 7 dtxd x5 false :: l) := by
    intro y l
    unfold hr8Bad
    rw [if_pos rfl, wr0, bind_ok, show (0x70 : Byte) = BitVec.ofNat 8 (16 * 7) from rfl,
      hr8Flags_eq r8 x4e 7 (by decide), bind_ok]
  have hbl : ∀ y, blit (y :: (mid ++ rest)) 1 (ubit2pbit 14 (tf.d.take 112)) =
      .ok (y :: (ubit2pbit 14 (tf.d.take 112) ++ rest)) := fun y => blit1 y rest (by simp [hm])
  have fl := fun ft hft => hr8Flags_eq (tf := tf) r8 x4e ft hft (mid ++ rest)
  have f0 := fl 0 (by decide)
  have f1 := fl 1 (by decide)
  have f2 := fl 2 (by decide)
  have f6 := fl 6 (by decide)
  have t1 := tw002_taf 1 dtxd x5 (by decide)
  have t6 := tw002_taf 6 dtxd x5 (by decide)
  intro ft
  unfold trau2rtpHr8
  rw [if_neg (by simp [ht]), if_neg (by simp [HR_RFC5993]; omega), sx, hp, bind_ok, bind_ok]
  by_cases hc : tf.crc = crc3 (tf.d.take 44)
  · have : ft = hr8Ft [x1, x2, x3, x4, x5, x6] := if_pos hc
    rw [this]
    simp only [hc, bind_ok, hbad, hd, x3e]
    clear sx x4e x3e hxc this hbad
    cases x1 <;> cases x2 <;> cases x3 <;> cases x4 <;> cases x5 <;> cases x6 <;>
      simp [hr8Ft, hrResult, wr0, bind_ok, HR_BYTES, HR_RFC5993] at f0 f1 f2 f6 t1 t6 ⊢ <;>
      simp [f0, f1, f2, f6, bind_ok, hbl, orByte0, t1, t6]
  · have : ft = 7 := if_neg hc
    rw [this, if_pos (Or.inr hc), hbad]
    rfl

theorem trau2rtpHr8_plain (K : Codec) (hK : ∀ l, (K.hrSidReset l).length = l.length) {tf : Frame} (h : tf.WF)
    (ht : tf.type = .speech8) {mid rest : List Byte} {x : Byte} {x1 x2 x3 x4 x5 x6 : Bool}
    (hxc : tf.xc = [x1, x2, x3, x4, x5, x6]) (hm : mid.length = 14) :
    trau2rtpHr8 K (x :: (mid ++ rest)) tf false = .ok (
      if tf.crc = crc3 (tf.d.take 44) ∧ hr8Ft [x1, x2, x3, x4, x5, x6] = 2 then
        (15, 0x20 :: (K.hrSidReset (ubit2pbit 14 (tf.d.take 112)) ++ rest))
      else if tf.crc = crc3 (tf.d.take 44) ∧ hr8Ft [x1, x2, x3, x4, x5, x6] = 0 then
        (15, 0x00 :: (ubit2pbit 14 (tf.d.take 112) ++ rest))
      else (0, x :: (mid ++ rest))) := by
  have x3e : rd tf.xc 3 = .ok x4 := by rw [hxc]; rfl
  have sx : slice tf.xc 0 6 = .ok [x1, x2, x3, x4, x5, x6] := by rw [hxc]; rfl
  have hp : slice tf.d 0 44 = .ok (tf.d.take 44) := by rw [slice_ok (by rw [h.d]; decide)]; rfl
  have hd : slice tf.d 0 112 = .ok (tf.d.take 112) := by rw [slice_ok (by rw [h.d]; decide)]; rfl
  have hbad : ∀ l, hr8Bad l tf false = .ok (0, l) := fun l => rfl
  have hbl : ∀ y, blit (y :: (mid ++ rest)) 1 (ubit2pbit 14 (tf.d.take 112)) =
      .ok (y :: (ubit2pbit 14 (tf.d.take 112) ++ rest)) := fun y => blit1 y rest (by simp [hm])
  have hsl : ∀ y, slice (y :: (ubit2pbit 14 (tf.d.take 112) ++ rest)) 1 14 = .ok (ubit2pbit 14 (tf.d.take 112)) :=
    fun y => slice1 y rest (by simp)
  have hbl2 : ∀ y, blit (y :: (ubit2pbit 14 (tf.d.take 112) ++ rest)) 1 (K.hrSidReset (ubit2pbit 14 (tf.d.take 112))) =
      .ok (y :: (K.hrSidReset (ubit2pbit 14 (tf.d.take 112)) ++ rest)) := fun y => blit1 y rest (by simp [hK])
  unfold trau2rtpHr8
  rw [if_neg (by simp [ht]), if_neg (by simp [HR_RFC5993]; omega), sx, hp, bind_ok, bind_ok]
  by_cases hc : tf.crc = crc3 (tf.d.take 44)
  · simp only [hc, bind_ok, hbad, hd, x3e]
    clear sx x3e hxc hbad
    cases x1 <;> cases x2 <;> cases x3 <;> cases x4 <;> cases x5 <;> cases x6 <;>
      simp [hr8Ft, wr0, bind_ok, HR_BYTES, hbl, hsl, hbl2, HR_RFC5993]
  · rw [if_pos (Or.inr hc), hbad, if_neg (fun hh => hc hh.1), if_neg (fun hh => hc hh.1)]

/-! ### RTP to TRAU -/

theorem hrD_eq {d : List Bool} (hd : d.length = 288) {pl : List Byte} (hp : pl.length = 14) :
    hrD d pl = .ok (bitsOf pl ++ d.drop 112) := by
  unfold hrD
  rw [if_pos (by omega), slice_ok (by simp [HR_BYTES, hp]), bind_ok, blit_ok (by simp [hd, HR_BYTES]; omega)]
  congr 1
  simp only [List.take_zero, List.nil_append, List.drop_zero, Nat.zero_add]
  rw [List.take_of_length_le (by simp [HR_BYTES, hp]), bitsOf_eq, pbit2ubit_length, hp]

theorem hrPayload_eq {data pl : List Byte} (hp : pl.length = 14) (h : data = pl ∨ ∃ x, data = x :: pl) :
    hrPayload data = some pl := by
  unfold hrPayload
  rcases h with rfl | ⟨x, rfl⟩
  · rw [if_pos (show data.length = HR_BYTES from hp)]
  · rw [if_neg (by simp [HR_BYTES, hp]), if_pos (by simp [HR_RFC5993, hp])]; rfl

/-- C1..C21 of a half rate frame made of an RTP payload; `taf` is what C15 was before -/
def hr16C (K : Codec) (dir : Dir) (taf : Bool) (pl : List Byte) : List Bool :=
  match dir with
  | .ul => [false, false, false, true, true] ++ List.replicate 6 false ++
      [false, K.hrCheckSid pl, false, taf, false, false] ++ List.replicate 4 true
  | .dl => [true, true, true, false, true] ++ List.replicate 6 false ++
      [true, true, true, true, !K.hrCheckSid pl, true] ++ List.replicate 4 true

theorem rtp2trauHr16_eq (K : Codec) {tf : Frame} (h : tf.WF) {data pl : List Byte} {taf : Bool}
    (hs : data = pl ∨ ∃ x, data = x :: pl) (hp : pl.length = 14) (h14 : tf.c[14]? = some taf) :
    rtp2trauHr16 K tf data = .ok (0, { tf with
      type := .hr
      c := hr16C K tf.dir taf pl ++ tf.c.drop 21
      t := List.replicate 4 true
      d := bitsOf pl ++ tf.d.drop 112
      crc := crc3 ((bitsOf pl).take 44)
      ufi := tf.dir == .dl }) := by
  have hl : (bitsOf pl).length = 112 := by rw [bitsOf_eq]; simp [hp]
  have hd := hrD_eq h.d hp
  have hsl : slice (bitsOf pl ++ tf.d.drop 112) 0 44 = .ok ((bitsOf pl).take 44) := by
    rw [slice_ok (by simp [hl]; omega), List.drop_zero, List.take_append_of_le_length (by omega)]
  have hcrc : blit tf.crc 0 (crc3 ((bitsOf pl).take 44)) = .ok (crc3 ((bitsOf pl).take 44)) := by
    have h3 : (crc3 ((bitsOf pl).take 44)).length = 3 := rfl
    rw [blit_ok (by rw [h.crc]; exact Nat.le_refl 3), h3]
    congr 1
    rw [List.drop_of_length_le (by rw [h.crc]; decide)]
    simp
  have h0 : (pl.length == 0) = false := by rw [hp]; rfl
  unfold rtp2trauHr16
  rw [hrPayload_eq hp hs]
  simp only [hd, bind_ok, hsl, hcrc, h0]
  clear hd hsl hcrc
  obtain ⟨ty, dir, ta, c, d, t, s, m, ufi, crc, xc⟩ := tf
  obtain ⟨h1, h2, h3, h4, h5, h6, h7⟩ := h
  simp only at h1 h3 h14
  obtain ⟨c, rfl⟩ := exists_L' h1
  obtain ⟨t, rfl⟩ := exists_L' h3
  have e : c 14 = taf := Option.some.inj h14
  rw [← e]
  generalize crc3 ((bitsOf pl).take 44) = X
  cases dir
  · show _ = _
    kernel_rfl
  · show _ = _
    kernel_rfl

theorem rtp2trauHr8_eq (K : Codec) {tf : Frame} (h : tf.WF) {data pl : List Byte}
    (hs : data = pl ∨ ∃ x, data = x :: pl) (hp : pl.length = 14) (hdl : tf.dir = .dl) :
    rtp2trauHr8 K tf data = .ok (0, { tf with
      type := .speech8
      c := [false, false, false, true, false] ++ List.replicate 4 true ++ tf.c.drop 9
      t := List.replicate 2 true ++ tf.t.drop 2
      xc := [false, false, false, K.hrCheckSid pl, false, !K.hrCheckSid pl]
      d := bitsOf pl ++ tf.d.drop 112
      crc := crc3 ((bitsOf pl).take 44) }) := by
  have hl : (bitsOf pl).length = 112 := by rw [bitsOf_eq]; simp [hp]
  have hd := hrD_eq h.d hp
  have hsl : slice (bitsOf pl ++ tf.d.drop 112) 0 44 = .ok ((bitsOf pl).take 44) := by
    rw [slice_ok (by simp [hl]; omega), List.drop_zero, List.take_append_of_le_length (by omega)]
  have hcrc : blit tf.crc 0 (crc3 ((bitsOf pl).take 44)) = .ok (crc3 ((bitsOf pl).take 44)) := by
    have h3 : (crc3 ((bitsOf pl).take 44)).length = 3 := rfl
    rw [blit_ok (by rw [h.crc]; exact Nat.le_refl 3), h3]
    congr 1
    rw [List.drop_of_length_le (by rw [h.crc]; decide)]
    simp
  unfold rtp2trauHr8
  rw [hrPayload_eq hp hs]
  dsimp only
  rw [if_neg (by simp [hdl])]
  simp only [hd, bind_ok, hsl, hcrc]
  clear hd hsl hcrc
  obtain ⟨ty, dir, ta, c, d, t, s, m, ufi, crc, xc⟩ := tf
  obtain ⟨h1, h2, h3, h4, h5, h6, h7⟩ := h
  simp only at h1 h3 h7
  obtain ⟨c, rfl⟩ := exists_L' h1
  obtain ⟨t, rfl⟩ := exists_L' h3
  obtain ⟨xc, rfl⟩ := exists_L' h7
  generalize crc3 ((bitsOf pl).take 44) = X
  cases K.hrCheckSid pl
  · show _ = _
    kernel_rfl
  · show _ = _
    kernel_rfl
end Verif.RtpConv
