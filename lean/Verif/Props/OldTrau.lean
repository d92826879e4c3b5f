import Verif.OldTrauFrame
import Verif.Proof.Sym
import Verif.Proof.RaaPrime
import Verif.Spec.Sync
/-!
# C30, C31: the legacy TRAU frame codec
-/
namespace Verif.OldTrau
open Verif.Spec
open Verif.RaaPrime (bind_ok bind_err)
set_option maxRecDepth 10000
set_option linter.unusedSimpArgs false

/-- C1..C5 of the frame types carried in the full-rate speech layout (3GPP TS 48.060, 5.3): FR up, FR
down, idle up, idle down, EFR -/
def speechCodes : List (List Bool) :=
  [[false, false, false, true, false], [true, true, true, false, false],
   [true, false, false, false, false], [false, true, true, true, false],
   [true, true, false, true, false]]

/-- C1..C5 of data frames: up, down -/
def dataCodes : List (List Bool) :=
  [[false, true, false, false, false], [true, false, true, true, false]]

/-- C1..C5 of AMR frames -/
def amrCodes : List (List Bool) := [[false, false, true, true, false]]

private theorem fr_sym (x : List Bool) (hx : x ∈ speechCodes) (c d t s m b c0 d0 t0 s0 m0 : Nat → Bool) :
    (do let (rc, e) ← encode (L 320 b) ⟨x ++ L 20 c, L 288 d, L 4 t, L 6 s, L 2 m⟩
        let (rc', f') ← decode ⟨L 25 c0, L 288 d0, L 4 t0, L 6 s0, L 2 m0⟩ e
        .ok (rc, e.take 17, e.length, rc', f'))
     = (.ok (0, List.replicate 16 false ++ [true], 320, 0,
         ⟨x ++ L 16 c ++ (L 25 c0).drop 21, L 260 d ++ (L 288 d0).drop 260, L 4 t, L 6 s0, L 2 m0⟩) :
        M (Int × List Bool × Nat × Int × Frame)) := by
  simp only [speechCodes, List.mem_cons, List.not_mem_nil, or_false] at hx
  rcases hx with rfl | rfl | rfl | rfl | rfl
  · kernel_rfl
  · kernel_rfl
  · kernel_rfl
  · kernel_rfl
  · kernel_rfl

private theorem data_sym (x : List Bool) (hx : x ∈ dataCodes) (c d t s m b c0 d0 t0 s0 m0 : Nat → Bool) :
    (do let (rc, e) ← encode (L 320 b) ⟨x ++ L 20 c, L 288 d, L 4 t, L 6 s, L 2 m⟩
        let (rc', f') ← decode ⟨L 25 c0, L 288 d0, L 4 t0, L 6 s0, L 2 m0⟩ e
        .ok (rc, e.take 17, e.length, rc', f'))
     = (.ok (0, List.replicate 16 false ++ [true], 320, 0,
         ⟨x ++ L 10 c ++ (L 25 c0).drop 15, L 288 d, L 4 t0, L 6 s0, L 2 m0⟩) :
        M (Int × List Bool × Nat × Int × Frame)) := by
  simp only [dataCodes, List.mem_cons, List.not_mem_nil, or_false] at hx
  rcases hx with rfl | rfl
  · kernel_rfl
  · kernel_rfl

private theorem take_L {α : Type} (n k : Nat) (f : Nat → α) (h : k ≤ n) : (L n f).take k = L k f := by
  simp [L, ← List.map_take, List.take_range, Nat.min_eq_left h]

private theorem split_bind {α β γ : Type} {x : M (α × β)} {k : α × β → M γ} {r : γ}
    (h : (x >>= k) = .ok r) : ∃ y, x = .ok y ∧ k y = .ok r := by
  cases x with
  | error e => simp at h
  | ok y => exact ⟨y, rfl, h⟩

/-- **C30** Speech layout (FR, EFR, idle): whatever was in the output buffer and in the structure decoded
into, encoding succeeds and produces an aligned frame of 320 bits, and decoding it returns 21 C bits, 260 D
bits and 4 T bits as given. -/
theorem C30_speech_roundtrip (f f0 : Frame) (b : List Bool) (hf : f.WF) (h0 : f0.WF)
    (hb : b.length = 320) (hc : f.c.take 5 ∈ speechCodes) :
    ∃ e f', encode b f = .ok (0, e) ∧ IsFrame e ∧ decode f0 e = .ok (0, f') ∧
      f'.c.take 21 = f.c.take 21 ∧ f'.d.take 260 = f.d.take 260 ∧ f'.t = f.t := by
  obtain ⟨c, d, t, s, m⟩ := f
  obtain ⟨c0, d0, t0, s0, m0⟩ := f0
  obtain ⟨g1, g2, g3, g4, g5⟩ := hf
  obtain ⟨k1, k2, k3, k4, k5⟩ := h0
  simp only at g1 g2 g3 g4 g5 k1 k2 k3 k4 k5 hc
  generalize hx : c.take 5 = x at hc
  have hxl : x.length = 5 := by rw [← hx]; simp [g1]
  obtain ⟨c, rfl⟩ := exists_cons_L (n := 20) (by omega) hx
  obtain ⟨d, rfl⟩ := exists_L' g2
  obtain ⟨t, rfl⟩ := exists_L' g3
  obtain ⟨s, rfl⟩ := exists_L' g4
  obtain ⟨m, rfl⟩ := exists_L' g5
  obtain ⟨c0, rfl⟩ := exists_L' k1
  obtain ⟨d0, rfl⟩ := exists_L' k2
  obtain ⟨t0, rfl⟩ := exists_L' k3
  obtain ⟨s0, rfl⟩ := exists_L' k4
  obtain ⟨m0, rfl⟩ := exists_L' k5
  obtain ⟨b, rfl⟩ := exists_L' hb
  have hs := fr_sym x hc c d t s m b c0 d0 t0 s0 m0
  obtain ⟨y, hy, hs⟩ := split_bind hs
  obtain ⟨z, hz, hs⟩ := split_bind hs
  have hs' := Except.ok.inj hs
  simp only [Prod.mk.injEq] at hs'
  obtain ⟨e1, e2, e3, e4, e5⟩ := hs'
  refine ⟨y.2, z.2, by rw [hy, ← e1], ⟨e3, e2⟩, by rw [hz, ← e4], ?_, ?_, ?_⟩
  · rw [e5]
    simp only [List.take_append, hxl, L_length, List.length_append, take_L, Nat.sub_self,
      List.take_zero, List.append_nil, Nat.le_refl, Nat.reduceLeDiff, Nat.reduceSub, Nat.reduceAdd]
  · rw [e5]
    rw [List.take_left' (by simp), take_L _ _ _ (by decide)]
  · rw [e5]

/-- **C30** Data layout: 15 C bits and the 288 bits behind them. -/
theorem C30_data_roundtrip (f f0 : Frame) (b : List Bool) (hf : f.WF) (h0 : f0.WF)
    (hb : b.length = 320) (hc : f.c.take 5 ∈ dataCodes) :
    ∃ e f', encode b f = .ok (0, e) ∧ IsFrame e ∧ decode f0 e = .ok (0, f') ∧
      f'.c.take 15 = f.c.take 15 ∧ f'.d = f.d := by
  obtain ⟨c, d, t, s, m⟩ := f
  obtain ⟨c0, d0, t0, s0, m0⟩ := f0
  obtain ⟨g1, g2, g3, g4, g5⟩ := hf
  obtain ⟨k1, k2, k3, k4, k5⟩ := h0
  simp only at g1 g2 g3 g4 g5 k1 k2 k3 k4 k5 hc
  generalize hx : c.take 5 = x at hc
  have hxl : x.length = 5 := by rw [← hx]; simp [g1]
  obtain ⟨c, rfl⟩ := exists_cons_L (n := 20) (by omega) hx
  obtain ⟨d, rfl⟩ := exists_L' g2
  obtain ⟨t, rfl⟩ := exists_L' g3
  obtain ⟨s, rfl⟩ := exists_L' g4
  obtain ⟨m, rfl⟩ := exists_L' g5
  obtain ⟨c0, rfl⟩ := exists_L' k1
  obtain ⟨d0, rfl⟩ := exists_L' k2
  obtain ⟨t0, rfl⟩ := exists_L' k3
  obtain ⟨s0, rfl⟩ := exists_L' k4
  obtain ⟨m0, rfl⟩ := exists_L' k5
  obtain ⟨b, rfl⟩ := exists_L' hb
  have hs := data_sym x hc c d t s m b c0 d0 t0 s0 m0
  obtain ⟨y, hy, hs⟩ := split_bind hs
  obtain ⟨z, hz, hs⟩ := split_bind hs
  have hs' := Except.ok.inj hs
  simp only [Prod.mk.injEq] at hs'
  obtain ⟨e1, e2, e3, e4, e5⟩ := hs'
  refine ⟨y.2, z.2, by rw [hy, ← e1], ⟨e3, e2⟩, by rw [hz, ← e4], ?_, ?_⟩
  · rw [e5]
    simp only [List.take_append, hxl, L_length, List.length_append, take_L, Nat.sub_self,
      List.take_zero, List.append_nil, Nat.le_refl, Nat.reduceLeDiff, Nat.reduceSub, Nat.reduceAdd]
  · rw [e5]

/-- a concrete frame meeting the hypotheses -/
example : idleFrame.WF ∧ idleFrame.c.take 5 ∈ speechCodes :=
  ⟨⟨rfl, rfl, rfl, rfl, rfl⟩, by decide⟩

private theorem getBits_code (b : List Bool) (off : Nat) (h : off + 5 ≤ b.length) :
    ∃ x0 x1 x2 x3 x4 : Bool, (b.drop off).take 5 = [x0, x1, x2, x3, x4] ∧
      getBits b off 5 0 = .ok (16 * x0.toNat + 8 * x1.toNat + 4 * x2.toNat + 2 * x3.toNat + x4.toNat) := by
  refine ⟨b[off], b[off + 1], b[off + 2], b[off + 3], b[off + 4], ?_, ?_⟩
  · rw [List.drop_eq_getElem_cons (by omega), List.drop_eq_getElem_cons (by omega),
      List.drop_eq_getElem_cons (by omega), List.drop_eq_getElem_cons (by omega),
      List.drop_eq_getElem_cons (by omega)]
    rfl
  · simp only [getBits]
    rw [rd_ok (by omega), rd_ok (i := off + 1) (by omega), rd_ok (i := off + 1 + 1) (by omega),
      rd_ok (i := off + 1 + 1 + 1) (by omega), rd_ok (i := off + 1 + 1 + 1 + 1) (by omega)]
    simp only [bind_ok, Nat.add_assoc, Nat.reduceAdd]
    congr 1
    omega

private theorem isOk_exists {α : Type} {x : M α} (h : x.isOk = true) : ∃ y, x = .ok y := by
  cases x with
  | error e => simp [Except.isOk, Except.toBool] at h
  | ok y => exact ⟨y, rfl⟩

/-- **C30** Decoding any 320 received bits into any structure never accesses anything out of bounds; it
returns 0 exactly for the supported types and leaves the structure alone otherwise. -/
theorem C30_decode_total (f0 : Frame) (b : List Bool) (h0 : f0.WF) (hb : b.length = 320) :
    ∃ rc f', decode f0 b = .ok (rc, f') ∧
      ((b.drop 17).take 5 ∈ speechCodes ++ amrCodes ++ dataCodes → rc = 0) ∧
      ((b.drop 17).take 5 ∉ speechCodes ++ amrCodes ++ dataCodes → rc = -1 ∧ f' = f0) := by
  obtain ⟨c0, d0, t0, s0, m0⟩ := f0
  obtain ⟨k1, k2, k3, k4, k5⟩ := h0
  simp only at k1 k2 k3 k4 k5
  obtain ⟨x0, x1, x2, x3, x4, h1, h2⟩ := getBits_code b 17 (by omega)
  rw [h1]
  obtain ⟨c0, rfl⟩ := exists_L' k1
  obtain ⟨d0, rfl⟩ := exists_L' k2
  obtain ⟨t0, rfl⟩ := exists_L' k3
  obtain ⟨s0, rfl⟩ := exists_L' k4
  obtain ⟨m0, rfl⟩ := exists_L' k5
  rw [decode, h2]
  simp only [bind_ok]
  clear h1 h2
  obtain ⟨b, rfl⟩ := exists_L' hb
  obtain ⟨r1, q1⟩ := isOk_exists (show (decodeFr ⟨L 25 c0, L 288 d0, L 4 t0, L 6 s0, L 2 m0⟩
    (L 320 b)).isOk = true by kernel_rfl)
  obtain ⟨r2, q2⟩ := isOk_exists (show (decodeAmr ⟨L 25 c0, L 288 d0, L 4 t0, L 6 s0, L 2 m0⟩
    (L 320 b)).isOk = true by kernel_rfl)
  obtain ⟨r3, q3⟩ := isOk_exists (show (decodeData ⟨L 25 c0, L 288 d0, L 4 t0, L 6 s0, L 2 m0⟩
    (L 320 b)).isOk = true by kernel_rfl)
  rw [q1, q2, q3]
  simp only [bind_ok]
  cases x0 <;> cases x1 <;> cases x2 <;> cases x3 <;> cases x4 <;>
    simp [FT_FR_UP, FT_FR_DOWN, FT_IDLE_UP, FT_IDLE_DOWN, FT_EFR, FT_AMR, FT_DATA_UP, FT_DATA_DOWN,
      speechCodes, amrCodes, dataCodes]

/-! ### C31 -/

/-- the types an up-link frame is converted to (C1..C5 up-link, C1..C5 down-link): FR, EFR (the same code in
both directions), idle, data -/
def upDown : List (List Bool × List Bool) :=
  [([false, false, false, true, false], [true, true, true, false, false]),
   ([true, true, false, true, false], [true, true, false, true, false]),
   ([true, false, false, false, false], [false, true, true, true, false]),
   ([false, true, false, false, false], [true, false, true, true, false])]

/-- **C31** Supported up-link frames become the corresponding down-link frame: only C bits change, and for
speech frames no time alignment (C6..C11 = 0) is requested and C12..C21 are one. -/
theorem C31_up2down (f : Frame) (hf : f.WF) (u dn : List Bool) (hu : (u, dn) ∈ upDown)
    (hc : f.c.take 5 = u) :
    ∃ f', up2down f = .ok (0, f') ∧ f'.c.take 5 = dn ∧ f'.d = f.d ∧ f'.t = f.t ∧ f'.s = f.s ∧
      f'.m = f.m ∧ f'.c.drop 21 = f.c.drop 21 ∧
      (u ≠ [false, true, false, false, false] →
        (f'.c.drop 5).take 16 = List.replicate 6 false ++ List.replicate 10 true) ∧
      (u = [false, true, false, false, false] → f'.c.drop 5 = f.c.drop 5) := by
  obtain ⟨c, d, t, s, m⟩ := f
  obtain ⟨g1, g2, g3, g4, g5⟩ := hf
  simp only at g1 g2 g3 g4 g5 hc
  obtain ⟨c, rfl⟩ := exists_cons_L (n := 20) (by omega) hc
  simp only [upDown, List.mem_cons, List.not_mem_nil, or_false, Prod.mk.injEq] at hu
  rcases hu with ⟨rfl, rfl⟩ | ⟨rfl, rfl⟩ | ⟨rfl, rfl⟩ | ⟨rfl, rfl⟩
  · exact ⟨⟨[true, true, true, false, false] ++ (List.replicate 6 false ++ List.replicate 10 true) ++ (L 20 c).drop 16, d, t, s, m⟩,
      rfl, rfl, rfl, rfl, rfl, rfl, rfl, fun _ => rfl, by simp⟩
  · exact ⟨⟨[true, true, false, true, false] ++ (List.replicate 6 false ++ List.replicate 10 true) ++ (L 20 c).drop 16, d, t, s, m⟩,
      rfl, rfl, rfl, rfl, rfl, rfl, rfl, fun _ => rfl, by simp⟩
  · exact ⟨⟨[false, true, true, true, false] ++ (List.replicate 6 false ++ List.replicate 10 true) ++ (L 20 c).drop 16, d, t, s, m⟩,
      rfl, rfl, rfl, rfl, rfl, rfl, rfl, fun _ => rfl, by simp⟩
  · exact ⟨⟨[true, false, true, true, false] ++ L 20 c, d, t, s, m⟩,
      rfl, rfl, rfl, rfl, rfl, rfl, rfl, by simp, fun _ => rfl⟩

/-- **C31** Every other type is refused with a negative return code and without any change. -/
theorem C31_up2down_refused (f : Frame) (hf : f.WF) (hc : f.c.take 5 ∉ upDown.map (·.1)) :
    ∃ rc, up2down f = .ok (rc, f) ∧ rc < 0 := by
  obtain ⟨x0, x1, x2, x3, x4, h1, h2⟩ := getBits_code f.c 0 (by have := hf.c; omega)
  rw [List.drop_zero] at h1
  rw [h1] at hc
  rw [up2down, h2]
  simp only [bind_ok]
  clear h1 h2
  revert hc
  cases x0 <;> cases x1 <;> cases x2 <;> cases x3 <;> cases x4 <;>
    simp [upDown, FT_FR_UP, FT_FR_DOWN, FT_IDLE_UP, FT_IDLE_DOWN, FT_EFR, FT_AMR, FT_DATA_UP,
      FT_DATA_DOWN, FT_OM_UP, FT_OM_DOWN, EINVAL]

end Verif.OldTrau
