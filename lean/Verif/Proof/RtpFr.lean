import Verif.Proof.RtpConv
import Verif.Spec.RtpConv
/-!
# Full rate: conversion between RTP payload and TRAU frame, in terms of bits
-/
namespace Verif.RtpConv
open Verif Verif.Trau Verif.Spec.Rtp
open Verif.RaaPrime (bind_ok bind_err)
set_option maxRecDepth 10000

theorem bitsOf_eq : ∀ l, bitsOf l = pbit2ubit l
  | [] => rfl
  | b :: l => by rw [bitsOf, bitsOf_eq l, pbit2ubit_cons]; rfl

theorem frGet (p d : Nat → Bool) :
    (do let ps ← frPairs; getB ([true, true, false, true] ++ L 260 p) (L 288 d) ps) =
      (.ok (reverseEach frWidths (L 260 p) ++ (L 288 d).drop 260) : M _) := by kernel_rfl
theorem frOr (d : Nat → Bool) :
    (do let ps ← frPairs; orB ([true, true, false, true] ++ List.replicate 260 false) (L 288 d) ps) =
      (.ok ([true, true, false, true] ++ reverseEach frWidths ((L 288 d).take 260)) : M _) := by kernel_rfl

theorem frGet' {pl : List Byte} {s d : List Bool} (hp : IsFr pl s) (hd : d.length = 288) :
    ∃ ps, frPairs = .ok ps ∧ getPbits pl d ps = .ok (reverseEach frWidths s ++ d.drop 260) := by
  obtain ⟨p, rfl⟩ := exists_L' hp.nspeech
  obtain ⟨d, rfl⟩ := exists_L' hd
  have h := frGet p d
  cases hps : frPairs with
  | error e => rw [hps] at h; cases h
  | ok ps =>
    rw [hps, bind_ok] at h
    exact ⟨ps, rfl, by rw [getPbits_eq, ← bitsOf_eq, hp.bits]; exact h⟩

/-- C1..C21 of a full rate frame made of an RTP payload -/
def frC (K : Codec) (dir : Dir) (dtxd bfi taf : Bool) (pl : List Byte) : List Bool :=
  match dir with
  | .ul => [false, false, false, true, false] ++ List.replicate 6 false ++
      [bfi, K.frSidClassify pl / 2 % 2 == 1, K.frSidClassify pl % 2 == 1, taf, true, dtxd] ++ List.replicate 4 true
  | .dl => [true, true, true, false, false] ++ List.replicate 6 false ++
      [true, true, true, true, !K.frCheckSid pl, true] ++ List.replicate 4 true

theorem nib : ∀ b : Byte, b.getLsbD 7 = true ∧ b.getLsbD 6 = true ∧ b.getLsbD 5 = false ∧ b.getLsbD 4 = true → 
   b &&& 0xF0 = 0xD0 := by decide +kernel

theorem isFr_hd {pl s} (h : IsFr pl s) : ∃ b rest, pl = b :: rest ∧ rest.length = 32 ∧ b &&& 0xF0 = 0xD0 := by
  match pl, h with
  | [], h => cases h.len
  | b :: rest, h =>
    refine ⟨b, rest, rfl, by simpa using h.len, nib b ?_⟩
    have := h.bits
    simp only [bitsOf, List.cons_append, List.cons.injEq, List.nil_append] at this
    exact ⟨this.1, this.2.1, this.2.2.1, this.2.2.2.1⟩

theorem rtp2trauFr_eq (K : Codec) {tf : Frame} (h : tf.WF) {data pl : List Byte} {dtxd bfi taf s}
    (hs : stripTwts001 data = (dtxd, bfi, taf, pl)) (hp : IsFr pl s) :
    rtp2trauFr K tf data = .ok (0, { tf with
      type := .fr
      c := frC K tf.dir dtxd bfi taf pl ++ tf.c.drop 21
      t := List.replicate 4 true
      d := reverseEach frWidths s ++ tf.d.drop 260 }) := by
  obtain ⟨ps, hps, hget⟩ := frGet' hp h.d
  obtain ⟨b, rest, hpl, hrest, hb⟩ := isFr_hd hp
  unfold rtp2trauFr
  rw [hs]
  dsimp only
  have hl : pl.length = FR_BYTES := hp.len
  have hl0 : ¬ (pl.length = 0) := by rw [hp.len]; decide
  have hr : rd pl 0 = .ok b := by rw [hpl]; rfl
  rw [if_pos hl, hr, bind_ok, if_neg (fun hc => hc.1 hl), if_neg (fun hc => hc hb)]
  simp only [hl0, hps, bind_ok, hget, if_false, decide_false, Bool.or_false]
  generalize reverseEach frWidths s ++ tf.d.drop 260 = D
  obtain ⟨ty, dir, ta, c, d, t, s, m, ufi, crc, xc⟩ := tf
  obtain ⟨h1, h2, h3, h4, h5, h6, h7⟩ := h
  simp only at h1 h3
  obtain ⟨c, rfl⟩ := exists_L' h1
  obtain ⟨t, rfl⟩ := exists_L' h3
  cases dir
  · show _ = _
    kernel_rfl
  · show _ = _
    kernel_rfl

theorem frOr' {d : List Bool} (hd : d.length = 288) :
    ∃ ps, frPairs = .ok ps ∧ orB ([true, true, false, true] ++ List.replicate 260 false) d ps =
      .ok ([true, true, false, true] ++ reverseEach frWidths (d.take 260)) := by
  obtain ⟨d, rfl⟩ := exists_L' hd
  have h := frOr d
  cases hps : frPairs with
  | error e => rw [hps] at h; cases h
  | ok ps => rw [hps, bind_ok] at h; exact ⟨ps, rfl, h⟩

theorem reverseEach_length : ∀ (ws : List Nat) (l : List Bool), l.length = ws.sum → (reverseEach ws l).length = ws.sum
  | [], _, _ => rfl
  | w :: ws, l, h => by
    simp only [List.sum_cons] at h
    rw [reverseEach, List.length_append, reverseEach_length ws _ (by simp; omega)]
    simp; omega

theorem reverseEach_reverseEach : ∀ (ws : List Nat) (l : List Bool), l.length = ws.sum →
    reverseEach ws (reverseEach ws l) = l
  | [], l, h => by simp only [List.sum_nil, List.length_eq_zero_iff] at h; rw [h]; rfl
  | w :: ws, l, h => by
    simp only [List.sum_cons] at h
    rw [reverseEach, reverseEach, List.take_append_of_le_length (by simp; omega),
      List.take_of_length_le (by simp; omega), List.reverse_reverse,
      List.drop_append_of_le_length (by simp; omega), List.drop_of_length_le (by simp; omega), List.nil_append,
      reverseEach_reverseEach ws _ (by simp; omega), List.take_append_drop]

/-- overwriting a part of a buffer -/
theorem buf_split {out : List Byte} {o n : Nat} (h : o + n ≤ out.length) :
    ∃ pre mid rest, out = pre ++ mid ++ rest ∧ pre.length = o ∧ mid.length = n :=
  ⟨out.take o, (out.drop o).take n, out.drop (o + n), by
    rw [← List.drop_drop, List.append_assoc, List.take_append_drop, List.take_append_drop], by simp; omega, by simp; omega⟩

theorem init_PB {pre mid rest : List Byte} (n : Nat) (x : Byte) (hm : mid.length = n + 1) :
    ((wr (pre ++ mid ++ rest) pre.length x) >>= fun out => blit out (pre.length + 1) (List.replicate n 0)) =
      (.ok (pre ++ (x :: List.replicate n 0) ++ rest) : M _) := by
  match mid, hm with
  | y :: mid, hm =>
  have hm : mid.length = n := by simpa using hm
  have : wr (pre ++ (y :: mid) ++ rest) pre.length x = .ok (pre ++ (x :: mid) ++ rest) := by
    unfold wr; rw [if_pos (by simp)]; simp [List.append_assoc]
  rw [this, bind_ok]
  unfold blit
  rw [if_pos (by simp; omega)]
  congr 1
  have e1 : pre ++ (x :: mid) ++ rest = (pre ++ [x]) ++ (mid ++ rest) := by simp
  rw [e1, List.take_left' (by simp), ← List.drop_drop, List.drop_left' (by simp), List.drop_left' (by simp [hm])]
  simp

theorem PB_of {n : Nat} {pre mid rest : List Byte} (h : mid.length = n) :
    pre ++ mid ++ rest = PB n pre (pbit2ubit mid) rest := by
  unfold PB; rw [ubit2pbit_pbit2ubit h]

/-- the payload with the given speech bits -/
def frPayload (s : List Bool) : List Byte := ubit2pbit 33 ([true, true, false, true] ++ s)
theorem frPayload_isFr {s : List Bool} (h : s.length = 260) : IsFr (frPayload s) s where
  len := by simp [frPayload]
  nspeech := h
  bits := by rw [bitsOf_eq, frPayload, pbit2ubit_ubit2pbit _ _ (by simp [h])]
theorem IsFr.unique {a b : List Byte} {s : List Bool} (ha : IsFr a s) (hb : IsFr b s) : a = b :=
  pbit2ubit_inj (by rw [← bitsOf_eq, ← bitsOf_eq, ha.bits, hb.bits])

theorem frBody {tf : Frame} (h : tf.WF) {pre mid rest : List Byte} (hm : mid.length = 33) :
    (do
      let out ← wr (pre ++ mid ++ rest) pre.length 0xd0
      let out ← blit out (pre.length + 1) (List.replicate (FR_BYTES - 1) 0)
      let ps ← frPairs
      orBits out pre.length tf.d ps) =
    (.ok (pre ++ frPayload (reverseEach frWidths (tf.d.take 260)) ++ rest) : M _) := by
  obtain ⟨ps, hps, ho⟩ := frOr' h.d
  have hi := init_PB (pre := pre) (rest := rest) 32 0xd0 hm
  have e : ((wr (pre ++ mid ++ rest) pre.length 0xd0) >>= fun out => blit out (pre.length + 1) (List.replicate (FR_BYTES - 1) 0) >>= fun out => frPairs >>= fun ps =>
      orBits out pre.length tf.d ps) = (((wr (pre ++ mid ++ rest) pre.length 0xd0) >>= fun out => blit out (pre.length + 1) (List.replicate 32 0)) >>= fun out => frPairs >>= fun ps =>
      orBits out pre.length tf.d ps) := by
    rw [bind_assoc]; rfl
  show ((wr (pre ++ mid ++ rest) pre.length 0xd0) >>= fun out => blit out (pre.length + 1) (List.replicate (FR_BYTES - 1) 0) >>= fun out => frPairs >>= fun ps =>
      orBits out pre.length tf.d ps) = _
  rw [e, hi, bind_ok, hps, bind_ok, PB_of (n := 33) (by simp)]
  have : pbit2ubit ((0xd0 : Byte) :: List.replicate 32 (0 : Byte)) = [true, true, false, true] ++ List.replicate 260 false := by decide +kernel
  rw [this]
  exact (orBits_PB ps (by simp) ho).1

theorem frBody_k {tf : Frame} (h : tf.WF) {pre mid rest : List Byte} (hm : mid.length = 33)
    (f : List Byte → M (Int × List Byte)) :
    (do
      let out ← wr (pre ++ mid ++ rest) pre.length 0xd0
      let out ← blit out (pre.length + 1) (List.replicate (FR_BYTES - 1) 0)
      let ps ← frPairs
      let out ← orBits out pre.length tf.d ps
      f out) =
    f (pre ++ frPayload (reverseEach frWidths (tf.d.take 260)) ++ rest) := by
  have := congrArg (· >>= f) (frBody h (pre := pre) (rest := rest) hm)
  simp only [bind_assoc, bind_ok] at this
  exact this

theorem frSpeech_length {d : List Bool} (h : d.length = 288) : (reverseEach frWidths (d.take 260)).length = 260 := by
  rw [reverseEach_length _ _ (by simp [h]; decide)]; decide

theorem trau2rtpFr_plain (K : Codec) {tf : Frame} (h : tf.WF) (ht : tf.type = .fr) {mid rest : List Byte}
    (hb : tf.c[11]? = some false) (hm : mid.length = 33) :
    trau2rtpFr K (mid ++ rest) tf false =
      .ok (33, frPayload (reverseEach frWidths (tf.d.take 260)) ++ rest) := by
  have hbd := frBody_k h (pre := []) (rest := rest) hm
  obtain ⟨x12, h12⟩ : ∃ x, rd tf.c 12 = .ok x := ⟨_, rd_ok (by rw [h.c]; decide)⟩
  obtain ⟨x13, h13⟩ : ∃ x, rd tf.c 13 = .ok x := ⟨_, rd_ok (by rw [h.c]; decide)⟩
  obtain ⟨pl, hsl⟩ : ∃ x, slice (frPayload (reverseEach frWidths (tf.d.take 260)) ++ rest) 0 FR_BYTES = .ok x :=
    ⟨_, slice_ok (by simp [frPayload, FR_BYTES])⟩
  have h11 : rd tf.c 11 = .ok false := by unfold rd; rw [hb]
  unfold trau2rtpFr
  simp only [ht, ne_eq, not_true_eq_false, if_false, Bool.false_eq_true, h11, bind_ok, false_and]
  rw [if_neg (by simp [FR_BYTES]; omega)]
  simp only [List.nil_append, List.length_nil] at hbd
  rw [hbd]
  simp only [h12, h13, hsl, bind_ok]
  rfl

theorem twts001Hdr_eq {tf : Frame} {dtxd bfi taf : Bool} (h16 : tf.c[16]? = some dtxd) (h11 : tf.c[11]? = some bfi)
    (h14 : tf.c[14]? = some taf) : twts001Hdr tf = .ok (tw001Hdr dtxd bfi taf) := by
  unfold twts001Hdr rd
  rw [h16, h11, h14]
  cases dtxd <;> cases bfi <;> cases taf <;> rfl

theorem trau2rtpFr_tw (K : Codec) {tf : Frame} (h : tf.WF) (ht : tf.type = .fr) {mid rest : List Byte} {x : Byte}
    {dtxd bfi taf s1 s0 : Bool} (h16 : tf.c[16]? = some dtxd) (h11 : tf.c[11]? = some bfi)
    (h14 : tf.c[14]? = some taf) (h12 : tf.c[12]? = some s1) (h13 : tf.c[13]? = some s0)
    (hm : mid.length = 33)  :
    let pl := frPayload (reverseEach frWidths (tf.d.take 260))
    trau2rtpFr K (x :: mid ++ rest) tf true =
      if bfi ∧ s1 = false ∧ s0 = false ∧ K.frIsAnySid pl then
        makeFrBfiNonsid (tw001Hdr dtxd bfi taf :: pl ++ rest) 6 4 >>= fun out => .ok (34, out)
      else
      .ok (34, tw001Hdr dtxd bfi taf :: pl ++ rest) := by
  intro pl
  have hbd := frBody_k h (pre := [tw001Hdr dtxd bfi taf]) (rest := rest) hm
  have r12 : rd tf.c 12 = .ok s1 := by unfold rd; rw [h12]
  have r13 : rd tf.c 13 = .ok s0 := by unfold rd; rw [h13]
  have hsl : slice (tw001Hdr dtxd bfi taf :: pl ++ rest) 1 FR_BYTES = .ok pl := by
    rw [slice_ok (by simp [pl, frPayload, FR_BYTES])]
    exact congrArg Except.ok (List.take_left' (by simp [pl, frPayload, FR_BYTES]))
  have r11 : rd tf.c 11 = .ok bfi := by unfold rd; rw [h11]
  unfold trau2rtpFr
  simp only [ht, ne_eq, not_true_eq_false, if_false, if_true, r11, bind_ok, and_false,
    twts001Hdr_eq h16 h11 h14]
  rw [if_neg (by simp [FR_BYTES]; omega)]
  have hw : wr (x :: mid ++ rest) 0 (tw001Hdr dtxd bfi taf) = .ok ([tw001Hdr dtxd bfi taf] ++ mid ++ rest) := by
    simp [wr]
  rw [hw, bind_ok]
  simp only [List.length_cons, List.length_nil] at hbd
  rw [hbd]
  simp only [r12, r13, bind_ok]
  rw [show ([tw001Hdr dtxd bfi taf] ++ frPayload (reverseEach frWidths (List.take 260 tf.d)) ++ rest) = 
    tw001Hdr dtxd bfi taf :: pl ++ rest from rfl, hsl, bind_ok]
  simp only [Bool.not_eq_true]
  rfl

theorem orBits_append {o : Nat} {d : List Bool} : ∀ (a b : List (Nat × Nat)) (out : List Byte),
    orBits out o d (a ++ b) = orBits out o d a >>= fun out => orBits out o d b
  | [], b, out => rfl
  | (j, i) :: a, b, out => by
    rw [List.cons_append, orBits, orBits, bind_assoc]
    congr 1; funext x
    rw [bind_assoc]
    congr 1; funext out
    exact orBits_append a b out

theorem orByte_two (out : List Byte) (o i k l : Nat) (hk : k < 8) (hl : l < 8) :
    orByte out (o + i) ((1 <<< (7 - k)) ||| (1 <<< (7 - l))) =
      orBits out o [true] [(8 * i + k, 0), (8 * i + l, 0)] := by
  have e1 : (8 * i + k) / 8 = i := by omega
  have e2 : (8 * i + l) / 8 = i := by omega
  have e3 : (8 * i + k) % 8 = k := by omega
  have e4 : (8 * i + l) % 8 = l := by omega
  simp only [orBits, orBit, e1, e2, e3, e4, orByte]
  by_cases h : o + i < out.length
  · simp [rd, wr, h, bind_ok, BitVec.or_assoc]
  · simp [rd, h, bind_err]

/-- bit positions of the middle bits of the first four pulses of each sub-frame, in the payload -/
def brkPos : List Nat := [58, 61, 64, 67, 114, 117, 120, 123, 170, 173, 176, 179, 226, 229, 232, 235]

theorem makeFr_eq (out : List Byte) (o : Nat) :
    makeFrBfiNonsid out (o + 5) 4 = orBits out o [true] (brkPos.map fun j => (j, 0)) := by
  have s1 : ∀ out i, orByte out (o + i) 0x24 = orBits out o [true] [(8 * i + 2, 0), (8 * i + 5, 0)] := 
    fun out i => orByte_two out o i 2 5 (by decide) (by decide)
  have s2 : ∀ out i, orByte out (o + i) 0x90 = orBits out o [true] [(8 * i + 0, 0), (8 * i + 3, 0)] := 
    fun out i => orByte_two out o i 0 3 (by decide) (by decide)
  simp only [makeFrBfiNonsid, Nat.add_assoc, Nat.reduceAdd, s1, s2, Nat.reduceMul]
  have : (brkPos.map fun j => (j, 0)) = [(58,0),(61,0)] ++ ([(64,0),(67,0)] ++ ([(114,0),(117,0)] ++ ([(120,0),(123,0)]
    ++ ([(170,0),(173,0)] ++ ([(176,0),(179,0)] ++ ([(226,0),(229,0)] ++ [(232,0),(235,0)])))))) := rfl
  rw [this]
  simp only [orBits_append]
  congr 1; funext out
  congr 1; funext out
  congr 1; funext out
  congr 1; funext out
  congr 1; funext out
  congr 1; funext out
  congr 1; funext out
  cases orBits out o [true] [(232,0),(235,0)] <;> rfl

theorem brk_bits (p : Nat → Bool) :
    orB ([true, true, false, true] ++ L 260 p) [true] (brkPos.map fun j => (j, 0)) =
      (.ok ([true, true, false, true] ++ (L 260 fun i => if brkPos.contains (i + 4) then p i || true else p i)) : M _) := by
  kernel_rfl

end Verif.RtpConv
