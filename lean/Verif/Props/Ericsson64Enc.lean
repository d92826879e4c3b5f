import Verif.Props.Ericsson64Dec
/-! # Ericsson GPRS TRAU frames, 64 kbit/s: the encoder (C37) -/
namespace Verif.Ericsson
open Verif Spec
open Verif.RaaPrime (bind_ok bind_err)
set_option maxRecDepth 10000

theorem timing64_eq (tav : Nat) (h : tav < 3) : timing64 tav = txLen 64 tav := by
  match tav, h with
  | 0, _ => rfl
  | 1, _ => rfl
  | 2, _ => rfl

/-- the control bits as the code sends them: C8 = 1 whatever happened; the frame error is in the place of the parity bit -/
def ctlSent (ft tav : Nat) (err : Bool) : List Bool := lsb 5 ft ++ lsb 2 tav ++ [true] ++ [!err]

/-- what the code sends as a PCU-SYNC-IND -/
def sentSync64 (i : PcuSync) : List Bool :=
  zeros 64 ++ [true] ++ ctlSent 0x0F i.tav i.ulFrameErr ++ [odd (lsb 5 0x0F ++ lsb 2 i.tav ++ [true])] ++ ones 95 ++
  msb 22 i.pseq ++ ones 16 ++ msb 16 i.ss ++ ones 10 ++ msb 22 i.fnUl ++ ones 16 ++ msb 15 i.fnSs ++ ones 11 ++
  msb 22 i.fnDl ++ ones 16 ++ msb 16 i.ls ++ ones 944

/-- data frames -/
def encD (i : PcuData) : M (Int × List Bool) :=
  if i.cs = .hdr1 ∨ i.cs = .hdr2 ∨ i.cs = .hdr3 then do
    match ← cpsFromBlock i.data i.cs false with
    | none => .ok (-EINVAL, zeros 64 ++ ones 1232)
    | some cps =>
      match mcsFromCps cps i.cs with
      | none => .ok (-EINVAL, zeros 64 ++ ones 1232)
      | some mcs => if mcs < 9 then encData64 (zeros 64 ++ ones 1232) i mcs else encData64Mcs9 (zeros 64 ++ ones 1232) i
  else encData64 (zeros 64 ++ ones 1232) i 0

/-- the encoder behind the two memset() -/
def enc64 : EncFrame → M (Int × List Bool)
  | .sync i => encSync64 (zeros 64 ++ ones 1232) i
  | .data i => encD i
  | .none => .ok (-EINVAL, zeros 64 ++ ones 1232)

theorem start64 (b : List Bool) (hb : b.length = 1296) (f : EncFrame) : encode64 b f = enc64 f := by
  unfold encode64
  rw [blit_ok (by simp [hb, -List.reduceReplicate]), bind_ok, blit_ok (by simp [hb, -List.reduceReplicate]), bind_ok]
  have : List.take 64 (List.take 0 b ++ List.replicate 64 false ++ List.drop (0 + (List.replicate 64 false).length) b) ++
      List.replicate 1232 true ++ List.drop (64 + (List.replicate 1232 true).length)
        (List.take 0 b ++ List.replicate 64 false ++ List.drop (0 + (List.replicate 64 false).length) b) = zeros 64 ++ ones 1232 := by
    obtain ⟨f, rfl⟩ := exists_L' hb
    kernel_rfl
  rw [this]
  cases f <;> rfl

theorem encSync64_sym (tav : Nat) (err : Bool) (pseq ss fnUl fnSs fnDl ls : Nat) :
    encSync64 (zeros 64 ++ ones 1232) ⟨tav, err, pseq, ss, fnUl, fnSs, fnDl, ls⟩ =
      .ok (timing64 tav, sentSync64 ⟨tav, err, pseq, ss, fnUl, fnSs, fnDl, ls⟩) := by
  unfold sentSync64 ctlSent
  rw [oddfun]
  cases err
  · show _ = _; kernel_rfl
  · show _ = _; kernel_rfl

theorem encode64_sync' (b : List Bool) (hb : b.length = 1296) (i : PcuSync) :
    encode64 b (.sync i) = .ok (timing64 i.tav, sentSync64 i) := by
  rw [start64 b hb]
  exact encSync64_sym i.tav i.ulFrameErr _ _ _ _ _ _

theorem encode64_sync (b : List Bool) (hb : b.length = 1296) (i : PcuSync) (ht : i.tav < 3) :
    encode64 b (.sync i) = .ok (txLen 64 i.tav, sentSync64 i) := by
  rw [encode64_sync' b hb i, timing64_eq _ ht]

/-! ### data frames -/

theorem putC64 (w : List Bool) (hw : w.length = 65) (ft tav : Nat) (hf : ft = 0x04 ∨ ft = 0x1A) (err : Bool) :
    putC (w ++ ones 1231) ft tav err 65 73 74 = .ok (w ++ ctlSent ft tav err ++ ([odd (lsb 5 ft ++ lsb 2 tav ++ [true])] ++ ones 1221)) := by
  obtain ⟨f, rfl⟩ := exists_L' hw
  rw [oddfun]
  unfold ctlSent
  rcases hf with rfl | rfl <;> cases err <;> (show _ = _; kernel_rfl)

theorem blit_over (w x src t : List Bool) (o : Nat) (ho : w.length = o) (h : src.length = x.length) :
    blit (w ++ (x ++ t)) o src = .ok ((w ++ src) ++ t) := by
  subst ho
  rw [blit_ok (by simp; omega)]
  congr 1
  rw [List.take_left' rfl, ← List.append_assoc, List.drop_left' (by simp [h])]

theorem mode64_eq (m : ChMod) : mode64 m = msb 3 (modeNo m) := by cases m <;> rfl

theorem cs64_eq (cs : Cs) : cs64 cs = (csDl64 cs).map (msb 3) := by cases cs <;> rfl

/-- number of bits taken from the data by a 64k frame (without MCS-9) -/
def payBits (cs : Cs) (mcs : Nat) : Nat := if cs = .cs1 ∨ cs = .cs2 ∨ cs = .cs3 ∨ cs = .cs4 then gprsBits cs else mcsBitsDl mcs

theorem payBits_le (cs : Cs) (mcs : Nat) : payBits cs mcs ≤ 1132 := by
  unfold payBits
  split
  · cases cs <;> simp [gprsBits]
  · unfold mcsBitsDl; split <;> omega

/-- what the code sends as a PCU-DATA-IND -/
def sentData64 (i : PcuData) (c : Nat) (payload : List Bool) : List Bool :=
  zeros 64 ++ [true] ++ ctlSent 0x1A i.tav i.ulFrameErr ++ ext64 i c ++ ones 21 ++ payload ++ ones (1164 - payload.length)

def payload64 (i : PcuData) (mcs : Nat) : List Bool :=
  if i.cs = .cs1 then (bitsOf i.data).take 184 ++ crc ((bitsOf i.data).take 184) else (bitsOf i.data).take (payBits i.cs mcs)

theorem ctlSent_length (ft tav : Nat) (err : Bool) : (ctlSent ft tav err).length = 9 := by simp [ctlSent]

theorem put_payload (Q D : List Bool) (n : Nat) (hQ : Q.length = 132) (hD : D.length = n) (hn : n ≤ 1164) :
    blit (Q ++ ones 1164) 132 D = .ok ((Q ++ D) ++ ones (1164 - n)) := by
  rw [blit_at Q D 1164 132 hQ (by omega), hD]

theorem encData64_eq (i : PcuData) (hd : i.data.length = 155) (mcs c : Nat) (hc : csDl64 i.cs = some c) :
    encData64 (zeros 64 ++ ones 1232) i mcs = .ok (timing64 i.tav, sentData64 i c (payload64 i mcs)) := by
  unfold encData64
  rw [show zeros 64 ++ ones 1232 = (zeros 64 ++ [true]) ++ ones 1231 from rfl,
    putC64 _ rfl _ _ (.inr rfl), bind_ok]
  simp only [cs64_eq, hc, Option.map_some, mode64_eq, msbBits_eq]
  have hc9 := ctlSent_length 0x1A i.tav i.ulFrameErr
  have hfin : sentData64 i c (payload64 i mcs) = (zeros 64 ++ [true] ++ ctlSent 0x1A i.tav i.ulFrameErr) ++ ext64 i c ++ ones 21 ++ payload64 i mcs ++ ones (1164 - (payload64 i mcs).length) := rfl
  rw [hfin]
  generalize ctlSent 0x1A i.tav i.ulFrameErr = C at *
  have hP : (zeros 64 ++ [true] ++ C).length = 74 := by
    rw [List.length_append, hc9]; rfl
  generalize zeros 64 ++ [true] ++ C = P at *
  rw [show [odd (lsb 5 26 ++ lsb 2 i.tav ++ [true])] ++ ones 1221 = ([odd (lsb 5 26 ++ lsb 2 i.tav ++ [true])] ++ ones 2) ++ ones 1219 from rfl]
  rw [blit_over P _ (msb 3 c) _ 74 hP (by simp [ones]), bind_ok]
  have h3 := msb_length 3 c
  have h3' := msb_length 3 (modeNo i.mode)
  have h8 := msb_length 8 i.timingOffset
  have h4 := msb_length 4 i.attenDb
  have hext : ext64 i c = withParity (msb 3 c ++ msb 3 (modeNo i.mode) ++ msb 8 i.timingOffset ++ ones 18 ++ msb 4 i.attenDb) := rfl
  rw [hext]
  generalize msb 3 c = e at *
  generalize msb 3 (modeNo i.mode) = Mo at *
  generalize msb 8 i.timingOffset = T at *
  generalize msb 4 i.attenDb = A at *
  rw [blit_at (P ++ e) Mo 1219 77 (by simp [hP, h3]) (by omega), bind_ok, h3']
  rw [blit_at (P ++ e ++ Mo) T 1216 80 (by simp [hP, h3, h3']) (by omega), bind_ok, h8]
  rw [show ones (1216 - 8) = ones 18 ++ ones 1190 from rfl, ← List.append_assoc (P ++ e ++ Mo ++ T)]
  rw [blit_at (P ++ e ++ Mo ++ T ++ ones 18) A 1190 106 (by simp only [List.length_append, hP, h3, h3', h8]; rfl) (by omega), bind_ok, h4]
  have hE : (e ++ Mo ++ T ++ ones 18 ++ A).length = 36 := by simp only [List.length_append, h3, h3', h8, h4]; rfl
  rw [show P ++ e ++ Mo ++ T ++ ones 18 ++ A = P ++ (e ++ Mo ++ T ++ ones 18 ++ A) from by simp only [List.append_assoc]]
  generalize e ++ Mo ++ T ++ ones 18 ++ A = E at *
  rw [slice_at P E _ 74 36 hP hE, bind_ok, wr_at (P ++ E) _ (1190 - 4) 110 (by simp [hP, hE]) (by omega), bind_ok, calcParity_eq]
  rw [show P ++ E ++ [odd E] = P ++ withParity E from by simp [withParity]]
  rw [show ones (1190 - 4 - 1) = ones 21 ++ ones 1164 from rfl, ← List.append_assoc (P ++ withParity E)]
  have hQ' : (P ++ withParity E ++ ones 21).length = 132 := by
    simp only [withParity, List.length_append, hP, hE]; rfl
  generalize P ++ withParity E ++ ones 21 = Q at *
  have hbl := bitsOf_length i.data
  have hlen (n : Nat) (hn : n ≤ 1132) : ((bitsOf i.data).take n).length = n := by rw [List.length_take]; omega
  have hdb (n : Nat) (hn : n ≤ 1132) : dataBits i.data n 0 = .ok ((bitsOf i.data).take n) := by
    rw [dataBits_eq i.data n 0 (by omega), List.drop_zero]
  have hm := payBits_le i.cs mcs
  rw [hdb 184 (by omega), hdb 271 (by omega), hdb 315 (by omega), hdb 431 (by omega)]
  simp only [bind_ok]
  have go (n : Nat) (hn : n ≤ 1132) (hp : payload64 i mcs = (bitsOf i.data).take n) : (do
      let b ← blit (Q ++ ones 1164) 132 ((bitsOf i.data).take n)
      .ok (timing64 i.tav, b)) = (.ok (timing64 i.tav, Q ++ payload64 i mcs ++ ones (1164 - (payload64 i mcs).length)) : M (Int × List Bool)) := by
    rw [put_payload Q _ n hQ' (hlen n hn) (by omega), bind_ok, hp, hlen n hn]
  have hx (h : ¬ (i.cs = .cs1 ∨ i.cs = .cs2 ∨ i.cs = .cs3 ∨ i.cs = .cs4)) : (do
      let d ← dataBits i.data (mcsBitsDl mcs) 0
      let b ← blit (Q ++ ones 1164) 132 d
      .ok (timing64 i.tav, b)) = (.ok (timing64 i.tav, Q ++ payload64 i mcs ++ ones (1164 - (payload64 i mcs).length)) : M (Int × List Bool)) := by
    have hp : payBits i.cs mcs = mcsBitsDl mcs := by unfold payBits; rw [if_neg h]
    rw [hp] at hm
    rw [hdb _ hm, bind_ok, go _ hm]
    unfold payload64
    rw [if_neg (fun h' => h (.inl h')), hp]
  cases hcs : i.cs with
  | ab => rw [hcs] at hc; cases hc
  | cs1 =>
    dsimp only
    rw [put_payload Q _ 184 hQ' (hlen 184 (by omega)) (by omega), bind_ok, slice_at Q _ _ 132 184 hQ' (hlen 184 (by omega)), bind_ok, crc16_eq]
    have hcl : (crc ((bitsOf i.data).take 184)).length = 16 := by rw [← crc16_eq, crc16_length]
    rw [blit_at (Q ++ (bitsOf i.data).take 184) _ (1164 - 184) (132 + 184) (by rw [List.length_append, hQ', hlen 184 (by omega)]) (by omega), bind_ok, hcl]
    have hp : payload64 i mcs = (bitsOf i.data).take 184 ++ crc ((bitsOf i.data).take 184) := by unfold payload64; rw [if_pos hcs]
    rw [hp, List.length_append, hlen 184 (by omega), hcl]
    simp only [List.append_assoc]
  | cs2 => exact go 271 (by omega) (by unfold payload64 payBits; rw [hcs]; rfl)
  | cs3 => exact go 315 (by omega) (by unfold payload64 payBits; rw [hcs]; rfl)
  | cs4 => exact go 431 (by omega) (by unfold payload64 payBits; rw [hcs]; rfl)
  | hdr1 => exact hx (by rw [hcs]; decide)
  | hdr2 => exact hx (by rw [hcs]; decide)
  | hdr3 => exact hx (by rw [hcs]; decide)

/-- what the code sends as a PCU-DATA-IND for MCS-9 -/
def sentMcs9 (i : PcuData) : List Bool :=
  zeros 16 ++ [true] ++ (bitsOf i.data).take 48 ++ ctlSent 0x04 i.tav i.ulFrameErr ++
  withParity (msb 3 (modeNo i.mode) ++ ones 2 ++ msb 4 i.attenDb) ++ ((bitsOf i.data).drop 48).take 1180 ++ ones 32

theorem bitsOf_append (a b : List Byte) : bitsOf (a ++ b) = bitsOf a ++ bitsOf b := by simp [bitsOf]

theorem bitsOf_drop6 (d : List Byte) (h : d.length = 155) : bitsOf (d.drop 6) = (bitsOf d).drop 48 := by
  have e : d = d.take 6 ++ d.drop 6 := (List.take_append_drop 6 d).symm
  have h6 : (bitsOf (d.take 6)).length = 48 := by rw [bitsOf_length, List.length_take]; omega
  have : bitsOf d = bitsOf (d.take 6) ++ bitsOf (d.drop 6) := by rw [← bitsOf_append, ← e]
  rw [this, List.drop_left' h6]

theorem encMcs9_eq (i : PcuData) (hd : i.data.length = 155) :
    encData64Mcs9 (zeros 64 ++ ones 1232) i = .ok (timing64 i.tav, sentMcs9 i) := by
  unfold encData64Mcs9
  have hbl := bitsOf_length i.data
  have hl48 : ((bitsOf i.data).take 48).length = 48 := by rw [List.length_take]; omega
  rw [dataBits_eq i.data 48 0 (by omega), List.drop_zero,
    dataBits_eq (i.data.drop 6) 1180 0 (by rw [List.length_drop]; omega), List.drop_zero, bitsOf_drop6 _ hd]
  rw [show wr (zeros 64 ++ ones 1232) 16 true = .ok ((zeros 16 ++ [true]) ++ (zeros 47 ++ ones 1232)) from by decide +kernel]
  simp only [bind_ok, mode64_eq, msbBits_eq]
  rw [show zeros 47 ++ ones 1232 = (zeros 47 ++ ones 1) ++ ones 1231 from rfl,
    blit_over (zeros 16 ++ [true]) _ ((bitsOf i.data).take 48) _ 17 rfl (by rw [hl48]; rfl), bind_ok]
  have hl1180 : (((bitsOf i.data).drop 48).take 1180).length = 1180 := by rw [List.length_take, List.length_drop]; omega
  unfold sentMcs9
  generalize (bitsOf i.data).take 48 = D at *
  generalize ((bitsOf i.data).drop 48).take 1180 = D' at *
  rw [putC64 _ (by rw [List.length_append, hl48]; rfl) _ _ (.inl rfl), bind_ok]
  have hc9 := ctlSent_length 0x04 i.tav i.ulFrameErr
  generalize ctlSent 0x04 i.tav i.ulFrameErr = C at *
  have hP : (zeros 16 ++ [true] ++ D ++ C).length = 74 := by
    rw [List.length_append, List.length_append, hc9, hl48]; rfl
  generalize zeros 16 ++ [true] ++ D ++ C = P at *
  rw [show [odd (lsb 5 4 ++ lsb 2 i.tav ++ [true])] ++ ones 1221 = ([odd (lsb 5 4 ++ lsb 2 i.tav ++ [true])] ++ ones 2) ++ ones 1219 from rfl]
  have h3' := msb_length 3 (modeNo i.mode)
  have h4 := msb_length 4 i.attenDb
  generalize msb 3 (modeNo i.mode) = Mo at *
  generalize msb 4 i.attenDb = A at *
  rw [blit_over P _ Mo _ 74 hP (by rw [h3']; rfl), bind_ok]
  rw [show ones 1219 = ones 2 ++ ones 1217 from rfl, ← List.append_assoc (P ++ Mo)]
  rw [blit_at (P ++ Mo ++ ones 2) A 1217 79 (by simp only [List.length_append, hP, h3']; rfl) (by omega), bind_ok, h4]
  have hE : (Mo ++ ones 2 ++ A).length = 9 := by simp only [List.length_append, h3', h4]; rfl
  rw [show P ++ Mo ++ ones 2 ++ A = P ++ (Mo ++ ones 2 ++ A) from by simp only [List.append_assoc]]
  generalize Mo ++ ones 2 ++ A = E at *
  rw [slice_at P E _ 74 9 hP hE, bind_ok, wr_at (P ++ E) _ (1217 - 4) 83 (by simp [hP, hE]) (by omega), bind_ok, calcParity_eq]
  rw [show P ++ E ++ [odd E] = P ++ withParity E from by simp [withParity]]
  have hQ' : (P ++ withParity E).length = 84 := by
    simp only [withParity, List.length_append, hP, hE]; rfl
  rw [blit_at (P ++ withParity E) D' (1217 - 4 - 1) 84 hQ' (by omega), bind_ok, hl1180]

/-! ### the property -/

/-- `F` with C8 and its neighbour, the parity bit, replaced by 1 and the (inverted) frame error -/
def misplaced (F : List Bool) (err : Bool) : List Bool := F.take 72 ++ [true, !err] ++ F.drop 74

theorem misplaced_eq (P R : List Bool) (c p err : Bool) (hP : P.length = 72) : misplaced (P ++ [c, p] ++ R) err = P ++ [true, !err] ++ R := by
  unfold misplaced
  rw [List.append_assoc P, List.take_left' hP]
  have : (P ++ ([c, p] ++ R)).drop 74 = R := by rw [← List.append_assoc, List.drop_left' (by simp [hP])]
  rw [this]

theorem sentData64_eq (i : PcuData) (c : Nat) (p : List Bool) : sentData64 i c p = misplaced (pcuData64 i c p) i.ulFrameErr := by
  have e : pcuData64 i c p = (zeros 64 ++ [true] ++ (lsb 5 0x1A ++ lsb 2 i.tav)) ++ [!i.ulFrameErr, odd (lsb 5 0x1A ++ lsb 2 i.tav ++ [!i.ulFrameErr])] ++
      (ext64 i c ++ ones 21 ++ p ++ ones (1164 - p.length)) := by
    simp only [pcuData64, ctl, withParity, List.append_assoc, List.cons_append, List.nil_append]
  rw [e, misplaced_eq _ _ _ _ _ (by simp only [List.length_append, lsb_length]; rfl)]
  simp only [sentData64, ctlSent, List.append_assoc, List.cons_append, List.nil_append]

theorem sentMcs9_eq (i : PcuData) (hd : i.data.length = 155) : sentMcs9 i = misplaced (pcuData64Mcs9 i) i.ulFrameErr := by
  have hbl := bitsOf_length i.data
  have hl48 : ((bitsOf i.data).take 48).length = 48 := by rw [List.length_take]; omega
  have e : pcuData64Mcs9 i = (zeros 16 ++ [true] ++ (bitsOf i.data).take 48 ++ (lsb 5 0x04 ++ lsb 2 i.tav)) ++
      [!i.ulFrameErr, odd (lsb 5 0x04 ++ lsb 2 i.tav ++ [!i.ulFrameErr])] ++
      (withParity (msb 3 (modeNo i.mode) ++ ones 2 ++ msb 4 i.attenDb) ++ ((bitsOf i.data).drop 48).take 1180 ++ ones 32) := by
    simp only [pcuData64Mcs9, ctl, withParity, List.append_assoc, List.cons_append, List.nil_append]
  rw [e, misplaced_eq _ _ _ _ _ (by simp only [List.length_append, lsb_length, hl48]; rfl)]
  simp only [sentMcs9, ctlSent, List.append_assoc, List.cons_append, List.nil_append]

theorem mcs_bits_dl : ∀ cs ∈ [Cs.hdr1, .hdr2, .hdr3], ∀ cps ∈ List.range 32, ∀ m ∈ (mcsOf cs cps).toList,
    (m < 9 ∨ m = 9) ∧ (m < 9 → mcsBitsDl m = mcsBits (hdrDl cs) m) := by decide +kernel

theorem cpsDl_lt (cs : Cs) (a : List Bool) : num (cpsDl cs a) < 32 := by
  have h := num_lt (cpsDl cs a)
  have hl : (cpsDl cs a).length ≤ 5 := by
    unfold cpsDl fld
    split <;> simp <;> omega
  have : 2 ^ (cpsDl cs a).length ≤ 2 ^ 5 := Nat.pow_le_pow_right (by omega) hl
  omega

theorem encode64_data (b : List Bool) (hb : b.length = 1296) (i : PcuData) (hd : i.data.length = 155)
    (F : List Bool) (hF : pcuFrame64 i = some F) :
    encode64 b (.data i) = .ok (timing64 i.tav, misplaced F i.ulFrameErr) := by
  rw [start64 b hb]
  unfold enc64
  dsimp only
  have gprs (c : Nat) (hc : csDl64 i.cs = some c) (hn : ¬ (i.cs = .hdr1 ∨ i.cs = .hdr2 ∨ i.cs = .hdr3))
      (hFc : F = pcuData64 i c (payload64 i 0)) :
      encD i = .ok (timing64 i.tav, misplaced F i.ulFrameErr) := by
    unfold encD
    rw [if_neg hn, encData64_eq i hd 0 c hc, sentData64_eq, hFc]
  have egprs (h : isHdr i.cs) (m c : Nat) (hm : mcsOf i.cs (num (cpsDl i.cs (bitsOf i.data))) = some m) (hc : csDl64 i.cs = some c)
      (hFm : F = if m = 9 then pcuData64Mcs9 i else pcuData64 i c ((bitsOf i.data).take (mcsBits (hdrDl i.cs) m))) :
      encD i = .ok (timing64 i.tav, misplaced F i.ulFrameErr) := by
    have hlt := cpsDl_lt i.cs (bitsOf i.data)
    have hin : i.cs ∈ [Cs.hdr1, .hdr2, .hdr3] := by rcases h with h | h | h <;> rw [h] <;> simp
    obtain ⟨h9, hbits⟩ := mcs_bits_dl i.cs hin _ (List.mem_range.2 hlt) m (by rw [hm]; simp)
    unfold encD isHdr at *
    rw [if_pos h, cpsDl_eq _ hd _ h, bind_ok]
    dsimp only
    rw [mcs_eq _ h _ hlt, hm]
    dsimp only
    rcases h9 with h9 | h9
    · rw [if_pos h9, encData64_eq i hd m c hc, sentData64_eq, hFm, if_neg (by omega)]
      have : payload64 i m = (bitsOf i.data).take (mcsBits (hdrDl i.cs) m) := by
        unfold payload64 payBits
        rw [if_neg (by rcases h with h | h | h <;> rw [h] <;> decide), if_neg (by rcases h with h | h | h <;> rw [h] <;> decide), hbits h9]
      rw [this]
    · rw [if_neg (by omega), encMcs9_eq i hd, sentMcs9_eq i hd, hFm, if_pos h9]
  unfold pcuFrame64 at hF
  cases hcs : i.cs with
  | ab => rw [hcs] at hF; cases hF
  | cs1 =>
    rw [hcs] at hF
    exact gprs 1 (by rw [hcs]; rfl) (by rw [hcs]; decide) (by rw [← Option.some.inj hF]; unfold payload64; rw [if_pos hcs])
  | cs2 =>
    rw [hcs] at hF
    exact gprs 2 (by rw [hcs]; rfl) (by rw [hcs]; decide) (by rw [← Option.some.inj hF]; unfold payload64 payBits; rw [hcs]; rfl)
  | cs3 =>
    rw [hcs] at hF
    exact gprs 3 (by rw [hcs]; rfl) (by rw [hcs]; decide) (by rw [← Option.some.inj hF]; unfold payload64 payBits; rw [hcs]; rfl)
  | cs4 =>
    rw [hcs] at hF
    exact gprs 4 (by rw [hcs]; rfl) (by rw [hcs]; decide) (by rw [← Option.some.inj hF]; unfold payload64 payBits; rw [hcs]; rfl)
  | hdr1 =>
    rw [hcs] at hF
    dsimp only at hF
    rw [← hcs] at hF
    cases hm : mcsOf i.cs (num (cpsDl i.cs (bitsOf i.data))) with
    | none => rw [hm] at hF; cases hF
    | some m =>
      have hc : csDl64 i.cs = some 5 := by rw [hcs]; rfl
      rw [hm, hc] at hF
      refine egprs (.inl hcs) m 5 hm hc ?_
      dsimp only at hF
      split at hF <;> rename_i h9 <;> rw [← Option.some.inj hF]
      · rw [if_pos h9]
      · rw [if_neg h9]
  | hdr2 =>
    rw [hcs] at hF
    dsimp only at hF
    rw [← hcs] at hF
    cases hm : mcsOf i.cs (num (cpsDl i.cs (bitsOf i.data))) with
    | none => rw [hm] at hF; cases hF
    | some m =>
      have hc : csDl64 i.cs = some 6 := by rw [hcs]; rfl
      rw [hm, hc] at hF
      refine egprs (.inr (.inl hcs)) m 6 hm hc ?_
      dsimp only at hF
      split at hF <;> rename_i h9 <;> rw [← Option.some.inj hF]
      · rw [if_pos h9]
      · rw [if_neg h9]
  | hdr3 =>
    rw [hcs] at hF
    dsimp only at hF
    rw [← hcs] at hF
    cases hm : mcsOf i.cs (num (cpsDl i.cs (bitsOf i.data))) with
    | none => rw [hm] at hF; cases hF
    | some m =>
      have hc : csDl64 i.cs = some 7 := by rw [hcs]; rfl
      rw [hm, hc] at hF
      refine egprs (.inr (.inr hcs)) m 7 hm hc ?_
      dsimp only at hF
      split at hF <;> rename_i h9 <;> rw [← Option.some.inj hF]
      · rw [if_pos h9]
      · rw [if_neg h9]

/-- **C37, encoder, data frames: what is sent, for every frame.**  (a) If there is a frame for the coding scheme, everything but two
bits is as documented: C8 (bit 72) is always 1, and the parity bit (bit 73) carries the up-link frame error. -/
theorem C37_encode_data_partial (b : List Bool) (hb : b.length = 1296) (i : PcuData) (ht : i.tav < 3) (hd : i.data.length = 155)
    (F : List Bool) (hF : pcuFrame64 i = some F) :
    encode64 b (.data i) = .ok (txLen 64 i.tav, misplaced F i.ulFrameErr) := by
  rw [encode64_data b hb i hd F hF, timing64_eq _ ht]

/-- (b) everything else is refused -/
theorem C37_encode_refused (b : List Bool) (hb : b.length = 1296) (i : PcuData) (hd : i.data.length = 155)
    (hF : pcuFrame64 i = none) : ∃ b', b'.length = 1296 ∧ encode64 b (.data i) = .ok (-EINVAL, b') := by
  rw [start64 b hb]
  unfold enc64
  dsimp only
  have egprs (h : isHdr i.cs) (hm : mcsOf i.cs (num (cpsDl i.cs (bitsOf i.data))) = none) : ∃ b', b'.length = 1296 ∧ 
      encD i = .ok (-EINVAL, b') := by
    have hlt := cpsDl_lt i.cs (bitsOf i.data)
    unfold encD isHdr at *
    rw [if_pos h, cpsDl_eq _ hd _ h, bind_ok]
    dsimp only
    rw [mcs_eq _ h _ hlt, hm]
    exact ⟨_, by simp only [List.length_append, ctlSent_length]; rfl, rfl⟩
  have hmcs (h : isHdr i.cs) : mcsOf i.cs (num (cpsDl i.cs (bitsOf i.data))) = none := by
    cases hm : mcsOf i.cs (num (cpsDl i.cs (bitsOf i.data))) with
    | none => rfl
    | some m =>
      unfold pcuFrame64 at hF
      rcases h with h | h | h <;> rw [h] at hm hF <;> simp only [hm, csDl64] at hF <;> split at hF <;> cases hF
  cases hcs : i.cs with
  | ab =>
    unfold encD
    rw [if_neg (by rw [hcs]; decide)]
    unfold encData64
    rw [show zeros 64 ++ ones 1232 = (zeros 64 ++ [true]) ++ ones 1231 from rfl, putC64 _ rfl _ _ (.inr rfl), bind_ok]
    rw [hcs]
    exact ⟨_, by simp only [List.length_append, ctlSent_length]; rfl, rfl⟩
  | cs1 => unfold pcuFrame64 at hF; rw [hcs] at hF; cases hF
  | cs2 => unfold pcuFrame64 at hF; rw [hcs] at hF; cases hF
  | cs3 => unfold pcuFrame64 at hF; rw [hcs] at hF; cases hF
  | cs4 => unfold pcuFrame64 at hF; rw [hcs] at hF; cases hF
  | hdr1 => exact egprs (.inl hcs) (hmcs (.inl hcs))
  | hdr2 => exact egprs (.inr (.inl hcs)) (hmcs (.inr (.inl hcs)))
  | hdr3 => exact egprs (.inr (.inr hcs)) (hmcs (.inr (.inr hcs)))

end Verif.Ericsson
