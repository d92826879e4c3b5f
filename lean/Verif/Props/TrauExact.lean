import Verif.Props.TrauFrame
import Verif.Props.TrauClass
/-!
# Exact extent of the defects of the TRAU frame codec (C24, C26, C28, C63..C65)

For the properties the code violates, these theorems say for which frames they hold and for which they do not.
-/
namespace Verif.Trau
open Verif.Spec Verif.Spec.Trau
open Verif.OldTrau (memcpy getBits)
open Verif.RaaPrime (bind_ok bind_err)
set_option maxRecDepth 10000

/-- **C24** (exact) What an O&M frame becomes on its way through encoder and decoder, for all contents: C6..C15 become
C1..C10; of the D bits each group of 15 loses its first bit and gains the synchronisation bit that follows it. -/
theorem C24_oam_exact_partial (f f0 : Frame) (b : List Bool) (x : Bool) (hf : f.WF) (h0 : f0.WF)
    (ht : f.type = .oam) (hb : 320 ≤ b.length) (hta : TaOk f) :
    ∃ e f', encode b f = .ok (320, e) ∧ decode16k f0 (e.take 320 ++ [x]) f.dir = .ok (0, f') ∧
      f'.type = .oam ∧ f'.dir = f.dir ∧ f'.s = f.s ∧
      f'.c.take 15 = code .oam f.dir ++ f.c.take 10 ∧
      f'.d.take 255 = (List.range 17).flatMap (fun k => (f.d.drop (15 * k + 1)).take 14 ++ [true]) ∧
      (f'.d.drop 255).take 24 = (f.d.drop 257).take 8 ++ f.s ++ [x] ++ (f.d.drop 256).take 9 := by
  obtain ⟨ty, dir, ta, c, d, t, s, m, u, crc, xc, rfl⟩ := exists_SF2 hf
  replace ht : ty = .oam := ht
  subst ht
  obtain ⟨ty0, dir0, ta0, c0, d0, t0, s0, m0, u0, crc0, xc0, rfl⟩ := exists_SF2 h0
  have hbits := emits_oam .oam dir ta c d t s m crc xc u (b.take 320) (by rw [List.length_take]; omega)
  obtain ⟨hl0, n, e, b1, b2, b3, b4, b5, _, b7⟩ := encode_of (SF .oam dir ta c d t s m u crc xc) b 320 _
    (show FT.oam ∈ allTypes by decide) hb hta hb (show frameBits FT.oam ≤ 320 by decide) hbits
  have hrc : (frameBits FT.oam : Int) + n = 320 := (congrArg Prod.fst (Except.ok.inj b7)).symm
  replace b3 : e.take 320 = List.take 320 _ := b3
  have key : (do
      let r ← decode16k (SF ty0 dir0 ta0 c0 d0 t0 s0 m0 u0 crc0 xc0) (List.take 320
        (zeros 16 ++ [true] ++ code .oam dir ++ sub (L 25 c) 0 10 ++ sync 15 17 (L 288 d) ++ [true] ++
        sub (L 288 d) 256 265 ++ L 6 s) ++ [x]) dir
      .ok (r.1, r.2.type, r.2.dir, r.2.s, r.2.c.take 15, r.2.d.take 255, (r.2.d.drop 255).take 24)) =
      (.ok (0, .oam, dir, L 6 s, code .oam dir ++ (L 25 c).take 10,
        (List.range 17).flatMap (fun k => ((L 288 d).drop (15 * k + 1)).take 14 ++ [true]),
        ((L 288 d).drop 257).take 8 ++ L 6 s ++ [x] ++ ((L 288 d).drop 256).take 9) : M _) := by
    cases dir <;> kernel_rfl
  rw [← b3] at key
  cases hd : decode16k (SF ty0 dir0 ta0 c0 d0 t0 s0 m0 u0 crc0 xc0) (e.take 320 ++ [x]) dir with
  | error y => rw [hd] at key; cases key
  | ok r =>
    rw [hd] at key
    simp only [bind_ok] at key
    have key := Except.ok.inj key
    simp only [Prod.mk.injEq] at key
    obtain ⟨a1, a2, a3, a4, a5, a6, a7⟩ := key
    refine ⟨e, r.2, ?_, ?_, a2, a3, a4, a5, a6, a7⟩
    · rw [b1]; exact congrArg (fun z => Except.ok (z, e)) hrc
    · rw [← a1]; exact hd

private theorem flat_eq (g : Nat → Bool) :
    (List.range 17).flatMap (fun k => ((L 288 g).drop (15 * k + 1)).take 14 ++ [true]) =
      L 255 (fun i => if i % 15 = 14 then true else g (i + 1)) := by
  kernel_rfl

private theorem take_L (g : Nat → Bool) : (L 288 g).take 255 = L 255 g := by kernel_rfl

private theorem rep_L : List.replicate 255 true = L 255 (fun _ => true) := by kernel_rfl

private theorem L_inj {α : Type} {n : Nat} {g h : Nat → α} (e : L n g = L n h) : ∀ i < n, g i = h i := by
  intro i hi
  have := congrArg (fun l => l[i]?) e
  simp only [L_getElem? _ _ _ hi] at this
  exact Option.some.inj this

private theorem L_ext {α : Type} {n : Nat} {g h : Nat → α} (e : ∀ i < n, g i = h i) : L n g = L n h := by
  unfold L
  exact List.map_congr_left fun i hi => e i (List.mem_range.mp hi)

/-- **C24** (exact) The first 255 D bits of an O&M frame survive exactly if all of them are '1', the control bits
exactly if C6..C15 repeat C1..C10. -/
theorem C24_survive_iff (f f0 : Frame) (b : List Bool) (x : Bool) (hf : f.WF) (h0 : f0.WF)
    (ht : f.type = .oam) (hb : 320 ≤ b.length) (hta : TaOk f) :
    ∃ e f', encode b f = .ok (320, e) ∧ decode16k f0 (e.take 320 ++ [x]) f.dir = .ok (0, f') ∧
      (f'.d.take 255 = f.d.take 255 ↔ f.d.take 255 = List.replicate 255 true) ∧
      (f'.c.take 15 = f.c.take 15 ↔ f.c.take 15 = code .oam f.dir ++ f.c.take 10) := by
  obtain ⟨e, f', h1, h2, -, -, -, h3, h4, -⟩ := C24_oam_exact_partial f f0 b x hf h0 ht hb hta
  refine ⟨e, f', h1, h2, ?_, ?_⟩
  · rw [h4]
    obtain ⟨g, hg⟩ := exists_L' (show f.d.length = 288 from hf.d)
    rw [hg, flat_eq, take_L, rep_L]
    constructor
    · intro h
      have h := L_inj h
      refine L_ext ?_
      have key : ∀ n i, i % 15 + n = 14 → i < 255 → g i = true := by
        intro n
        induction n with
        | zero =>
          intro i hi hlt
          have := h i hlt
          rw [if_pos (by omega)] at this
          exact this.symm
        | succ n ih =>
          intro i hi hlt
          have := h i hlt
          rw [if_neg (by omega)] at this
          rw [← this]
          exact ih (i + 1) (by omega) (by omega)
      exact fun i hi => key (14 - i % 15) i (by omega) hi
    · intro h
      have h := L_inj h
      refine L_ext ?_
      intro i hi
      by_cases hm : i % 15 = 14
      · rw [if_pos hm, h i hi]
      · rw [if_neg hm, h i hi, h (i + 1) (by omega)]
  · rw [h3]
    exact ⟨fun h => h.symm, fun h => h.symm⟩

/-- **C26** (exact) An 8k AMR 6.7 frame of any content is recognised by the decoder exactly if nine D bits have the
values of the synchronisation bits they replace; all other frames are refused. -/
theorem C26_amr67_exact_partial (f f0 : Frame) (b : List Bool) (hf : f.WF) (h0 : f0.WF) (ht : f.type = .amr67)
    (hb : 319 ≤ b.length) (hta : f.dir = .ul ∨ f.ta = 0) :
    ∃ e rc f', encode b f = .ok (160, e) ∧ decode8k f0 (e.take 168) f.dir = .ok (rc, f') ∧
      ((∀ p ∈ lucky67, f.d.getD p.1 false = p.2) → rc = 0 ∧ f'.type = .amr67) ∧
      (¬ (∀ p ∈ lucky67, f.d.getD p.1 false = p.2) → rc = -EINVAL ∧ f'.type = .none) := by
  by_cases hl : ∀ p ∈ lucky67, f.d.getD p.1 false = p.2
  · obtain ⟨e, f', h1, h2, h3, -⟩ := C26_amr67_partial f f0 b hf h0 ht hl hb hta
    exact ⟨e, 0, f', h1, h2, fun _ => ⟨rfl, h3⟩, fun h => absurd hl h⟩
  obtain ⟨ty, dir, ta, c, d, t, s, m, u, crc, xc, rfl⟩ := exists_SF2 hf
  replace ht : ty = .amr67 := ht
  subst ht
  have hlen : (b.take 168).length = 168 := by rw [List.length_take]; omega
  obtain ⟨bb, hbb⟩ := exists_L' hlen
  have key : (do
      let e ← encode8Amr67Bits (L 168 bb) (SF .amr67 dir ta c d t s m u crc xc)
      .ok (e[2]?, e[16]?, e[24]?, ([32, 40, 48, 64, 80, 96, 112, 128, 144] : List Nat).map (fun p => e[p]?))) =
      (.ok (some false, some true, some true,
        ([17, 24, 31, 46, 61, 76, 91, 106, 121] : List Nat).map (fun i => some (d i))) : M _) := by
    kernel_rfl
  rw [← hbb] at key
  cases he : encode8Amr67Bits (b.take 168) (SF .amr67 dir ta c d t s m u crc xc) with
  | error y => rw [he] at key; cases key
  | ok e0 =>
    rw [he] at key
    simp only [bind_ok] at key
    have key := Except.ok.inj key
    simp only [Prod.mk.injEq] at key
    obtain ⟨k2, k16, k24, km⟩ := key
    obtain ⟨l1, l2⟩ := (local_67 (SF .amr67 dir ta c d t s m u crc xc)).lift (by omega) he
    have hfin : finish (SF .amr67 dir ta c d t s m u crc xc) (e0 ++ b.drop 168) =
        .ok (160, e0 ++ b.drop 168) := by
      rcases hta with h | h
      · replace h : dir = .ul := h
        subst h; rfl
      · replace h : ta = 0 := h
        subst h; cases dir <;> rfl
    have l1' : e0.length = 168 := l1
    have no67 : ¬ Shows e0 sync67 := by
      intro hs
      refine hl ?_
      have e1 : ∀ q ∈ ([(32, true), (40, false), (48, true), (64, true), (80, true), (96, true), (112, true), (128, true),
          (144, true)] : List (Nat × Bool)), e0[q.1]? = some q.2 := fun q hq => hs q (by revert q; decide)
      simp only [List.mem_cons, List.not_mem_nil, or_false, forall_eq_or_imp, forall_eq] at e1
      simp only [List.map_cons, List.map_nil, List.cons.injEq, and_true] at km
      obtain ⟨a1, a2, a3, a4, a5, a6, a7, a8, a9⟩ := km
      obtain ⟨c1, c2, c3, c4, c5, c6, c7, c8, c9⟩ := e1
      have gd : ∀ i < 288, (L 288 d).getD i false = d i := by
        intro i hi
        rw [List.getD_eq_getElem?_getD, L_getElem? _ _ _ hi]; rfl
      simp only [lucky67, List.mem_cons, List.not_mem_nil, or_false, forall_eq_or_imp, forall_eq]
      refine ⟨?_, ?_, ?_, ?_, ?_, ?_, ?_, ?_, ?_⟩ <;>
        (refine (gd _ (by decide)).trans ?_; apply Option.some.inj; simp only [← a1, ← a2, ← a3, ← a4, ← a5, ← a6, ← a7, ← a8, ← a9]; assumption)
    obtain ⟨rc, f', q1, -, -, -, q2⟩ := C69_classify8 f0 e0 dir h0 (by omega) (fun _ => by omega)
    refine ⟨e0 ++ b.drop 168, rc, f', ?_, ?_, fun h => absurd h hl, fun _ => ?_⟩
    · rw [encode_start (SF .amr67 dir ta c d t s m u crc xc) b (show FT.amr67 ∈ allTypes by decide) hb]
      show encode8Amr67Bits b _ >>= _ = _
      rw [l2]
      exact hfin
    · rw [List.take_left' l1]; exact q1
    · rcases q2 with ⟨-, p, hp, hs⟩ | ⟨h1, h2, -⟩
      · exfalso
        have hbad : ∀ r ∈ rows8 dir, r.1 = sync67 ∨ (2, true) ∈ r.1 ∨ (16, false) ∈ r.1 ∨ (24, false) ∈ r.1 := by
          cases dir <;> decide
        rcases hbad _ hp with h | h | h | h
        · exact no67 (h ▸ hs)
        · have := hs _ h; rw [k2] at this; cases this
        · have := hs _ h; rw [k16] at this; cases this
        · have := hs _ h; rw [k24] at this; cases this
      · exact ⟨h1, by rw [h2]⟩

/-- **C28** (exact) The number of bits a down-link 16k frame is encoded to, for every requested time alignment: as
specified up to 312 additional bits, and 39 additional bits for all larger requests. -/
theorem C28_ta16_exact_partial (f : Frame) (b : List Bool) (hf : f.WF) (ht : f.type ∈ taTypes16) (hta : TaOk f)
    (hb : 639 ≤ b.length) (hd : f.dir = .dl) :
    ∃ rc e, encode b f = .ok (rc, e) ∧
      (rc = 320 + max (-4) (min 312 ((f.ta * 4).tdiv 250)) ↔ (f.ta * 4).tdiv 250 ≤ 312) ∧
      ((f.ta * 4).tdiv 250 > 312 → rc = 359) := by
  by_cases h : (f.ta * 4).tdiv 250 ≤ 312
  · obtain ⟨rc, e, h1, h2, -⟩ := C28_ta16_partial f b hf ht hta hb hd h
    exact ⟨rc, e, h1, ⟨fun _ => h, fun _ => h2⟩, fun h' => absurd h (by omega)⟩
  · have h' : 19563 ≤ f.ta := by
      have : (0 : Int) ≤ f.ta * 4 := by
        rcases Int.lt_or_le (f.ta * 4) 0 with h0 | h0
        · exfalso
          apply h
          have h1 : (f.ta * 4).tdiv 250 ≤ 0 := by
            rw [show f.ta * 4 = -(-(f.ta * 4)) by omega, Int.neg_tdiv]
            have := Int.tdiv_nonneg (a := -(f.ta * 4)) (b := 250) (by omega) (by decide)
            omega
          omega
        · exact h0
      rw [Int.tdiv_eq_ediv_of_nonneg this] at h
      omega
    obtain ⟨e, h1, h2⟩ := C28_ta16_violated f b hf ht hta hb hd h'
    refine ⟨359, e, h1, ⟨fun hh => ?_, fun hh => absurd hh h⟩, fun _ => rfl⟩
    rw [h2] at hh; exact absurd hh (by decide)

private theorem bind_inv' {α β : Type} {x : M α} {k : α → M β} {r : β} (h : (x >>= k) = .ok r) :
    ∃ a, x = .ok a ∧ k a = .ok r := by
  cases x with
  | error e => cases h
  | ok a => exact ⟨a, rfl, h⟩

private theorem handleTa8_ge {b : List Bool} {f : Frame} {rc : Int} {e : List Bool}
    (h : handleTa8 b f = .ok (rc, e)) : 158 ≤ rc := by
  unfold handleTa8 at h
  cases hd : f.dir with
  | ul =>
    rw [hd] at h
    have := (Prod.mk.inj (Except.ok.inj h)).1
    omega
  | dl =>
    rw [hd] at h
    obtain ⟨p, -, h⟩ := bind_inv' h
    dsimp only at h
    split at h
    · obtain ⟨q, -, h⟩ := bind_inv' h
      have := (Prod.mk.inj (Except.ok.inj h)).1
      split at this <;> omega
    · split at h
      · have := (Prod.mk.inj (Except.ok.inj h)).1
        split at this <;> omega
      · have := (Prod.mk.inj (Except.ok.inj h)).1
        omega

private theorem rc67 {f : Frame} {b e : List Bool} {rc : Int} (ht : f.type = .amr67) (hb : 319 ≤ b.length)
    (h : encode b f = .ok (rc, e)) : 158 ≤ rc := by
  rw [encode_start f b (by rw [ht]; decide) (by rw [ht]; exact hb)] at h
  obtain ⟨x, -, h⟩ := bind_inv' h
  have hfin : finish f x = handleTa8 x f := by unfold finish; rw [ht]
  rw [hfin] at h
  exact handleTa8_ge h

/-- **C63** (exact) The encoded bits are independent of the former contents of the buffer exactly for the frames other
than 8k O&M and 8k AMR 6.7. -/
theorem C63_deterministic_iff (f : Frame) (hf : f.WF) (ht : f.type ∈ allTypes) (hta : TaOk f) :
    (∀ b1 b2 : List Bool, 639 ≤ b1.length → 639 ≤ b2.length →
      ∃ rc e1 e2, encode b1 f = .ok (rc, e1) ∧ encode b2 f = .ok (rc, e2) ∧
        e1.take rc.toNat = e2.take rc.toNat) ↔ f.type ≠ .amr67 ∧ f.type ≠ .oam8 := by
  constructor
  · intro h
    obtain ⟨rc, e1, e2, h1, h2, h3⟩ := h (List.replicate 639 false) (List.replicate 639 true) (by simp) (by simp)
    constructor
    · intro h67
      obtain ⟨r1, x1, a1, a2⟩ := C63_amr67_violated f (List.replicate 639 false) hf h67 hta (by simp)
      obtain ⟨r2, x2, c1, c2⟩ := C63_amr67_violated f (List.replicate 639 true) hf h67 hta (by simp)
      rw [h1] at a1; rw [h2] at c1
      obtain ⟨rfl, rfl⟩ := Prod.mk.inj (Except.ok.inj a1)
      obtain ⟨-, rfl⟩ := Prod.mk.inj (Except.ok.inj c1)
      have hrc := rc67 h67 (by simp) h1
      have := congrArg (fun l => l[25]?) h3
      simp only [List.getElem?_take] at this
      rw [if_pos (by omega), if_pos (by omega), a2, c2] at this
      simp at this
    · intro h8
      obtain ⟨x1, a1, a2⟩ := C63_oam8_violated f (List.replicate 639 false) hf h8 hta (by simp)
      obtain ⟨x2, c1, c2⟩ := C63_oam8_violated f (List.replicate 639 true) hf h8 hta (by simp)
      rw [h1] at a1; rw [h2] at c1
      obtain ⟨q1, rfl⟩ := Prod.mk.inj (Except.ok.inj a1)
      obtain ⟨-, rfl⟩ := Prod.mk.inj (Except.ok.inj c1)
      subst q1
      have := congrArg (fun l => l[159]?) h3
      simp only [List.getElem?_take] at this
      rw [if_pos (by decide), if_pos (by decide), a2, c2] at this
      simp at this
  · rintro ⟨h1, h2⟩ b1 b2 hb1 hb2
    have hm : ∀ t : FT, minBits t ≤ 639 := by intro t; cases t <;> decide
    exact C63_deterministic_partial f b1 b2 hf ht h1 h2 (Nat.le_trans (hm _) hb1) (Nat.le_trans (hm _) hb2) hta

/-- **C64** (exact) A received 16k frame of 320 bits is decoded without access to anything behind it exactly if it does
not carry the code of an O&M frame. -/
theorem C64_reads16_iff (f : Frame) (b : List Bool) (dir : Dir) (hf : f.WF) (hb : b.length = 320) :
    (∃ res, decode16k f b dir = .ok res) ↔ (b.drop 17).take 5 ∉ [code .oam .ul, code .oam .dl] := by
  constructor
  · rintro ⟨res, h⟩ hm
    rw [C64_oam_violated f b dir hf hb hm] at h
    cases h
  · intro h
    obtain ⟨res, h1, -⟩ := C64_reads16_partial f b [] dir hf hb h
    exact ⟨res, h1⟩

/-- **C64** (exact) A received 8k frame of 160 bits is decoded without access to anything behind it exactly if it does
not show the synchronisation pattern of AMR 6.7 frames. -/
theorem C64_reads8_iff (f : Frame) (b : List Bool) (dir : Dir) (hf : f.WF) (hb : b.length = 160) :
    (∃ res, decode8k f b dir = .ok res) ↔ ¬ Shows b sync67 := by
  constructor
  · rintro ⟨res, h⟩ hm
    rw [C64_amr67_violated f b dir hf hb hm] at h
    cases h
  · intro h
    obtain ⟨res, h1, -⟩ := C64_reads8_partial f b [] dir hf hb h
    exact ⟨res, h1⟩

/-- **C65** (exact) An idle frame carries the code of its direction exactly if it is a down-link frame. -/
theorem C65_idle_direction_iff (f : Frame) (b : List Bool) (ht : f.type = .idle) (hta : TaOk f) (hb : 320 ≤ b.length) :
    (∃ e, encode b f = .ok (320, e) ∧ (e.drop 17).take 5 = code .idle f.dir) ↔ f.dir = .dl := by
  constructor
  · rintro ⟨e, h1, h2⟩
    cases hd : f.dir with
    | dl => rfl
    | ul =>
      obtain ⟨e', h3, h4, h5⟩ := C65_idle_direction_violated f b ht hd hta hb
      rw [h1] at h3
      obtain ⟨-, rfl⟩ := Prod.mk.inj (Except.ok.inj h3)
      exact absurd (h4.symm.trans h2) h5
  · intro hd
    exact C65_idle_direction_partial f b ht hd hta hb

end Verif.Trau
