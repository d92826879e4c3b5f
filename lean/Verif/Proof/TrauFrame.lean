import Verif.TrauFrame
import Verif.Proof.Sym
import Verif.Proof.RaaPrime
/-!
Proof infrastructure for the TRAU frame codec: encoders only touch a fixed prefix of the buffer
(`Local`), so that they can be evaluated symbolically on that prefix.
-/
namespace Verif.Trau
open Verif.OldTrau (memcpy getBits)
open Verif.RaaPrime (bind_ok bind_err)
set_option maxRecDepth 10000

/-- if `g` succeeds on a buffer, it does the same thing to the front of any longer buffer -/
def Local (g : List Bool → M (List Bool)) : Prop :=
  ∀ b r b', g b = .ok b' → b'.length = b.length ∧ g (b ++ r) = .ok (b' ++ r)

theorem Local.blit (off : Nat) (src : List Bool) : Local (fun b => blit b off src) := by
  intro b r b' h
  refine ⟨blit_length h, ?_⟩
  simp only [Verif.blit] at h ⊢
  split at h
  · rename_i hle
    cases h
    rw [if_pos (by simp; omega)]
    congr 1
    rw [List.take_append_of_le_length (by omega), List.drop_append_of_le_length (by omega)]
    simp
  · cases h

theorem Local.wr (i : Nat) (x : Bool) : Local (fun b => wr b i x) := by
  intro b r b' h
  simp only [Verif.wr] at h ⊢
  split at h
  · rename_i hlt
    cases h
    refine ⟨by simp, ?_⟩
    rw [if_pos (by simp; omega), List.set_append_left _ _ hlt]
  · cases h

theorem Local.bind {g h : List Bool → M (List Bool)} (hg : Local g) (hh : Local h) :
    Local (fun b => g b >>= h) := by
  intro b r b' e
  cases hb : g b with
  | error x => simp only [hb, bind_err] at e; cases e
  | ok y =>
    simp only [hb, bind_ok] at e
    obtain ⟨l1, e1⟩ := hg b r y hb
    obtain ⟨l2, e2⟩ := hh y r b' e
    exact ⟨by omega, by simp only [e1, bind_ok, e2]⟩

theorem Local.const {α : Type} {m : M α} {g : α → List Bool → M (List Bool)} (hg : ∀ x, Local (g x)) :
    Local (fun b => m >>= fun x => g x b) := by
  intro b r b' e
  cases m with
  | error x => cases e
  | ok y => exact hg y b r b' e

theorem Local.slice {off n : Nat} {g : List Bool → List Bool → M (List Bool)} (hg : ∀ x, Local (g x)) :
    Local (fun b => slice b off n >>= fun x => g x b) := by
  intro b r b' e
  simp only [Verif.slice] at e ⊢
  split at e
  · rename_i hle
    simp only [bind_ok] at e
    obtain ⟨h1, h2⟩ := hg _ b r b' e
    refine ⟨h1, ?_⟩
    rw [if_pos (by simp; omega)]
    simp only [bind_ok]
    rw [List.drop_append_of_le_length (by omega), List.take_append_of_le_length (by simp; omega)]
    exact h2
  · simp only [bind_err] at e; cases e

theorem Local.memcpy (off : Nat) (src : List Bool) (so n : Nat) :
    Local (fun b => memcpy b off src so n) :=
  Local.const fun x => Local.blit off x

theorem Local.ok : Local (fun b => .ok b) := by
  intro b r b' h
  cases h
  exact ⟨rfl, rfl⟩

theorem Local.setOnes (step : Nat) : ∀ n pos, Local (fun b => setOnes step b pos n)
  | 0, _ => Local.ok
  | n + 1, pos => Local.bind (Local.wr pos true) (Local.setOnes step n (pos + step))

theorem Local.cpOut (w step : Nat) (d : List Bool) :
    ∀ n pos dIdx, Local (fun b => cpOut w step b pos d dIdx n)
  | 0, _, _ => Local.ok
  | n + 1, pos, dIdx =>
    Local.bind (Local.memcpy pos d dIdx w) (Local.cpOut w step d n (pos + step) (dIdx + w))

theorem Local.cpOutS (w step : Nat) (d : List Bool) :
    ∀ n pos dIdx, Local (fun b => cpOutS w step b pos d dIdx n)
  | 0, _, _ => Local.ok
  | n + 1, pos, dIdx =>
    Local.bind (Local.wr pos true)
      (Local.bind (Local.memcpy (pos + 1) d dIdx w) (Local.cpOutS w step d n (pos + step) (dIdx + w)))

theorem Local.sync16 : Local encodeSync16 :=
  Local.bind (Local.blit 0 _) (Local.setOnes 16 19 16)

macro "local_step" : tactic =>
  `(tactic| repeat' first
    | exact Local.sync16
    | exact Local.blit _ _
    | exact Local.wr _ _
    | exact Local.memcpy _ _ _ _
    | exact Local.setOnes _ _ _
    | exact Local.cpOut _ _ _ _ _ _
    | exact Local.cpOutS _ _ _ _ _ _
    | refine Local.bind ?_ ?_
    | refine Local.slice (fun x => ?_)
    | refine Local.const (fun x => ?_))

theorem local_fr (c5 : List Bool) (f : Frame) : Local (fun b => encode16FrBits c5 b f) := by
  unfold encode16FrBits; local_step
theorem local_amr (f : Frame) : Local (fun b => encode16AmrBits b f) := by
  unfold encode16AmrBits; local_step
theorem local_oam (f : Frame) : Local (fun b => encode16OamBits b f) := by
  unfold encode16OamBits; local_step
theorem local_hr (f : Frame) : Local (fun b => encode16HrBits b f) := by
  unfold encode16HrBits; local_step
theorem local_idle : Local (fun b => encode16IdleBits b) := by
  unfold encode16IdleBits; local_step
theorem local_data (f : Frame) : Local (fun b => encode16DataBits b f) := by
  unfold encode16DataBits; local_step
theorem local_d145 (f : Frame) : Local (fun b => encode16D145Bits b f) := by
  unfold encode16D145Bits; local_step
theorem local_edata (f : Frame) : Local (fun b => encode16EdataBits b f) := by
  unfold encode16EdataBits; local_step
theorem local_dataHr (f : Frame) : Local (fun b => encode16DataHrBits b f) := by
  unfold encode16DataHrBits; local_step
theorem local_hr8 (f : Frame) : Local (fun b => encode8HrBits b f) := by
  unfold encode8HrBits
  cases f.dir <;> simp only <;> local_step
theorem local_low8 (f : Frame) : Local (fun b => encode8AmrLowBits b f) := by
  unfold encode8AmrLowBits; local_step
theorem local_67 (f : Frame) : Local (fun b => encode8Amr67Bits b f) := by
  unfold encode8Amr67Bits; local_step
theorem local_74 (f : Frame) : Local (fun b => encode8Amr74Bits b f) := by
  unfold encode8Amr74Bits; local_step
theorem local_data8 (f : Frame) : Local (fun b => encode8DataBits b f) := by
  unfold encode8DataBits; local_step
theorem local_oam8 (f : Frame) : Local (fun b => encode8OamBits b f) := by
  unfold encode8OamBits; local_step

/-- from the prefix to the whole buffer -/
theorem Local.lift {g : List Bool → M (List Bool)} (hg : Local g) {n : Nat} {b : List Bool}
    (hb : n ≤ b.length) {e : List Bool} (he : g (b.take n) = .ok e) :
    e.length = n ∧ g b = .ok (e ++ b.drop n) := by
  have := hg (b.take n) (b.drop n) e he
  rw [List.take_append_drop] at this
  refine ⟨?_, this.2⟩
  rw [this.1, List.length_take]
  omega

/-- a frame structure with symbolic contents -/
def SF (ty : FT) (dir : Dir) (ta : Int) (c d t s m : Nat → Bool) (ufi : Bool) (crc xc : Nat → Bool) :
    Frame :=
  { type := ty, dir := dir, ta := ta, c := L 25 c, d := L 288 d, t := L 4 t, s := L 6 s, m := L 2 m,
    ufi := ufi, crc := L 3 crc, xc := L 6 xc }

theorem exists_SF {f : Frame} (h : f.WF) :
    ∃ c d t s m crc xc, f = SF f.type f.dir f.ta c d t s m f.ufi crc xc := by
  obtain ⟨ty, dir, ta, c, d, t, s, m, ufi, crc, xc⟩ := f
  obtain ⟨h1, h2, h3, h4, h5, h6, h7⟩ := h
  simp only at h1 h2 h3 h4 h5 h6 h7
  obtain ⟨c, rfl⟩ := exists_L' h1
  obtain ⟨d, rfl⟩ := exists_L' h2
  obtain ⟨t, rfl⟩ := exists_L' h3
  obtain ⟨s, rfl⟩ := exists_L' h4
  obtain ⟨m, rfl⟩ := exists_L' h5
  obtain ⟨crc, rfl⟩ := exists_L' h6
  obtain ⟨xc, rfl⟩ := exists_L' h7
  exact ⟨c, d, t, s, m, crc, xc, rfl⟩

theorem mulInt_ok {a k : Int} (h1 : -2147483648 ≤ a * k) (h2 : a * k ≤ 2147483647) :
    mulInt a k = .ok (a * k) := by
  simp [mulInt, h1, h2]

end Verif.Trau

namespace Verif.Trau
open Verif.OldTrau (memcpy getBits)
open Verif.RaaPrime (bind_ok bind_err)
set_option maxRecDepth 10000

/-! ### decoders only read a prefix -/

/-- if `g` succeeds on an input, it returns the same on any longer input -/
def RLocal {α : Type} (g : List Bool → M α) : Prop :=
  ∀ b r x, g b = .ok x → g (b ++ r) = .ok x

theorem RLocal.bind {α β : Type} {g : List Bool → M α} {h : α → List Bool → M β} (hg : RLocal g)
    (hh : ∀ x, RLocal (h x)) : RLocal (fun b => g b >>= fun x => h x b) := by
  intro b r x e
  cases hb : g b with
  | error y => simp only [hb, bind_err] at e; cases e
  | ok y =>
    simp only [hb, bind_ok] at e
    simp only [hg b r y hb, bind_ok]
    exact hh y b r x e

theorem RLocal.const {α : Type} (m : M α) : RLocal (fun _ => m) := fun _ _ _ h => h

theorem RLocal.memcpy (d : List Bool) (o so n : Nat) : RLocal (fun b => memcpy d o b so n) := by
  intro b r x e
  simp only [OldTrau.memcpy, Verif.slice] at e ⊢
  split at e
  · rename_i hle
    rw [if_pos (by simp; omega), List.drop_append_of_le_length (by omega),
      List.take_append_of_le_length (by simp; omega)]
    exact e
  · cases e

theorem RLocal.rd (i : Nat) : RLocal (fun b => rd b i) := by
  intro b r x e
  simp only [Verif.rd] at e ⊢
  cases hb : b[i]? with
  | none => rw [hb] at e; cases e
  | some y =>
    rw [hb] at e
    have hlt : i < b.length := (List.getElem?_eq_some_iff.mp hb).1
    rw [List.getElem?_append_left hlt, hb]
    exact e

theorem RLocal.cpIn (w step : Nat) : ∀ n d dIdx pos, RLocal (fun b => cpIn w step d dIdx b pos n)
  | 0, d, _, _ => RLocal.const (.ok d)
  | n + 1, d, dIdx, pos =>
    RLocal.bind (RLocal.memcpy d dIdx pos w) (fun d => RLocal.cpIn w step n d (dIdx + w) (pos + step))

macro "rlocal_step" : tactic =>
  `(tactic| repeat' first
    | exact RLocal.memcpy _ _ _ _
    | exact RLocal.rd _
    | exact RLocal.cpIn _ _ _ _ _ _
    | exact RLocal.const _
    | refine RLocal.bind ?_ (fun x => ?_))

theorem rlocal_fr (f : Frame) : RLocal (decode16Fr f) := by unfold decode16Fr; rlocal_step
theorem rlocal_amr (f : Frame) : RLocal (decode16Amr f) := by unfold decode16Amr; rlocal_step
theorem rlocal_hr (f : Frame) : RLocal (decode16Hr f) := by unfold decode16Hr; rlocal_step
theorem rlocal_data (f : Frame) : RLocal (decode16Data f) := by unfold decode16Data; rlocal_step
theorem rlocal_dataHr (f : Frame) : RLocal (decode16DataHr f) := by unfold decode16DataHr; rlocal_step
theorem rlocal_edata (f : Frame) : RLocal (decode16Edata f) := by unfold decode16Edata; rlocal_step
theorem rlocal_oam (f : Frame) : RLocal (decode16Oam f) := by unfold decode16Oam; rlocal_step
theorem rlocal_hr8 (f : Frame) : RLocal (decode8Hr f) := by unfold decode8Hr; rlocal_step
theorem rlocal_low8 (f : Frame) : RLocal (decode8AmrLow f) := by unfold decode8AmrLow; rlocal_step
theorem rlocal_67 (f : Frame) : RLocal (decode8Amr67 f) := by unfold decode8Amr67; rlocal_step
theorem rlocal_74 (f : Frame) : RLocal (decode8Amr74 f) := by unfold decode8Amr74; rlocal_step
theorem rlocal_data8 (f : Frame) : RLocal (decode8Data f) := by unfold decode8Data; rlocal_step
theorem rlocal_oam8 (f : Frame) : RLocal (decode8Oam f) := by unfold decode8Oam; rlocal_step

/-! ### the pieces of `encode` -/

/-- the bits of the frame, without time alignment -/
def bitsFor (b : List Bool) (f : Frame) : M (List Bool) :=
  match f.type with
  | .fr => encode16FrBits (byDir f.dir ftFrUp ftFrDown) b f
  | .efr => encode16FrBits ftEfr b f
  | .hr => encode16HrBits b f
  | .amr => encode16AmrBits b f
  | .oam => encode16OamBits b f
  | .idle => encode16IdleBits b
  | .dataHr => encode16DataHrBits b f
  | .data => encode16DataBits b f
  | .d145 => encode16D145Bits b f
  | .edata => encode16EdataBits b f
  | .speech8 => encode8HrBits b f
  | .data8 => encode8DataBits b f
  | .oam8 => encode8OamBits b f
  | .amrLow8 => encode8AmrLowBits b f
  | .amr67 => encode8Amr67Bits b f
  | .amr74 => encode8Amr74Bits b f
  | .none | .other => .ok b

/-- the time alignment behind it -/
def finish (f : Frame) (b : List Bool) : M (Int × List Bool) :=
  match f.type with
  | .fr | .efr | .hr | .amr => handleTa16 b f
  | .speech8 | .amrLow8 | .amr67 | .amr74 => handleTa8 b f
  | .oam | .idle | .dataHr | .data | .d145 | .edata => .ok (320, b)
  | .data8 | .oam8 => .ok (160, b)
  | .none | .other => .ok (-EINVAL, b)

theorem dispatch_eq (b : List Bool) (f : Frame) : encodeDispatch b f = bitsFor b f >>= finish f := by
  unfold encodeDispatch bitsFor finish encode16Fr encode16Hr encode16Amr encode8Hr encode8AmrLow
    encode8Amr67 encode8Amr74 fixedLen
  cases f.type <;> rfl

theorem local_bitsFor (f : Frame) : Local (fun b => bitsFor b f) := by
  unfold bitsFor
  cases f.type <;> simp only
  · exact Local.ok
  · exact local_fr _ f
  · exact local_hr f
  · exact local_fr _ f
  · exact local_amr f
  · exact local_oam f
  · exact local_data f
  · exact local_edata f
  · exact local_d145 f
  · exact local_dataHr f
  · exact local_idle
  · exact local_hr8 f
  · exact local_data8 f
  · exact local_oam8 f
  · exact local_low8 f
  · exact local_67 f
  · exact local_74 f
  · exact Local.ok

theorem checkBits_eq (b : List Bool) : ∀ l : List (Nat × Bool), (∀ p ∈ l, p.1 < b.length) →
    checkBits b l = .ok (l.all fun p => b.getD p.1 false == p.2)
  | [], _ => rfl
  | (i, v) :: l, h => by
    have hi : i < b.length := h (i, v) (by simp)
    rw [checkBits, rd_ok hi]
    simp only [bind_ok, List.all_cons]
    have hg : b.getD i false = b[i] := by simp [List.getD_eq_getElem?_getD, hi]
    rw [hg]
    by_cases hv : b[i] = v
    · rw [if_pos hv, checkBits_eq b l (fun p hp => h p (by simp [hp]))]
      simp [hv]
    · rw [if_neg hv]
      simp [hv]

theorem blit320 {b : List Bool} {k n : Nat} (h : k + n ≤ b.length) (x : List Bool) (hx : x.length = n) :
    ∃ e, blit b k x = .ok e ∧ e.take k = b.take k ∧ (e.drop k).take n = x ∧
      e.drop (k + n) = b.drop (k + n) ∧ e.length = b.length := by
  subst hx
  refine ⟨_, blit_ok h, ?_, ?_, ?_, blit_length (blit_ok h)⟩
  · rw [List.append_assoc, List.take_left' (by rw [List.length_take]; omega)]
  · rw [List.append_assoc, List.drop_left' (by rw [List.length_take]; omega), List.take_left' rfl]
  · rw [List.drop_left' (by rw [List.length_append, List.length_take]; omega)]

/-- what `encode16_handle_ta` does: returned length, bits, untouched parts -/
theorem handleTa16_spec (b : List Bool) (f : Frame) (hb : 639 ≤ b.length)
    (h1 : -536870912 ≤ f.ta) (h2 : f.ta ≤ 536870911) :
    ∃ n e, handleTa16 b f = .ok (320 + n, e) ∧ e.length = b.length ∧ e.take 320 = b.take 320 ∧
      -4 ≤ n ∧ n ≤ 312 ∧
      (f.dir = .ul → n = 0) ∧
      (f.dir = .dl → (f.ta * 4).tdiv 250 ≤ 312 → n = max (-4) ((f.ta * 4).tdiv 250)) ∧
      (f.dir = .dl → 312 < (f.ta * 4).tdiv 250 → n = 39) ∧
      (e.drop 320).take n.toNat = List.replicate n.toNat true ∧
      e.drop (320 + n.toNat) = b.drop (320 + n.toNat) := by
  unfold handleTa16
  cases f.dir with
  | ul => exact ⟨0, b, by simp, rfl, rfl, by omega, by omega, by simp, by simp, by simp, by simp, by simp⟩
  | dl =>
    simp only
    rw [mulInt_ok (by omega) (by omega)]
    simp only [bind_ok]
    generalize (f.ta * 4).tdiv 250 = q
    by_cases hq : q > 0
    · rw [if_pos hq]
      by_cases hq2 : q > 39 * 8
      · rw [if_pos hq2]
        obtain ⟨e, he, a1, a2, a3, a4⟩ := blit320 (b := b) (k := 320) (n := 39) (by omega)
          (List.replicate 39 true) (by simp)
        refine ⟨39, e, ?_, a4, a1, by omega, by omega, by simp, fun _ h => by omega, fun _ _ => rfl, a2, a3⟩
        have : (39 : Int).toNat = 39 := rfl
        rw [this, he]; rfl
      · rw [if_neg hq2]
        obtain ⟨k, rfl⟩ : ∃ k : Nat, q = k := ⟨q.toNat, by omega⟩
        obtain ⟨e, he, a1, a2, a3, a4⟩ := blit320 (b := b) (k := 320) (n := k) (by omega)
          (List.replicate k true) (by simp)
        refine ⟨k, e, ?_, a4, a1, by omega, by omega, by simp, fun _ h => by omega, fun _ h => by omega,
          a2, a3⟩
        rw [Int.toNat_natCast, he]; rfl
    · rw [if_neg hq]
      by_cases hq3 : q < 0
      · rw [if_pos hq3]
        refine ⟨max (-4) q, b, ?_, rfl, rfl, by omega, by omega, by simp, fun _ _ => rfl,
          fun _ h => by omega, ?_, ?_⟩
        · congr 2
          split <;> omega
        · rw [show (max (-4) q).toNat = 0 by omega]; simp
        · rw [show (max (-4) q).toNat = 0 by omega]
      · rw [if_neg hq3]
        refine ⟨0, b, by simp, rfl, rfl, by omega, by omega, by simp, fun _ h => by omega,
          fun _ h => by omega, by simp, by simp⟩

/-- what `encode8_handle_ta` does -/
theorem handleTa8_spec (b : List Bool) (f : Frame) (hb : 319 ≤ b.length)
    (h1 : -1073741824 ≤ f.ta) (h2 : f.ta ≤ 1073741823) :
    ∃ n e, handleTa8 b f = .ok (160 + n, e) ∧ e.length = b.length ∧ e.take 160 = b.take 160 ∧
      -2 ≤ n ∧ n ≤ 158 ∧
      (f.dir = .ul → n = 0) ∧
      (f.dir = .dl → n = max (-2) (min 158 ((f.ta * 2).tdiv 250))) ∧
      (e.drop 160).take n.toNat = List.replicate n.toNat true ∧
      e.drop (160 + n.toNat) = b.drop (160 + n.toNat) := by
  unfold handleTa8
  cases f.dir with
  | ul => exact ⟨0, b, by simp, rfl, rfl, by omega, by omega, by simp, by simp, by simp, by simp⟩
  | dl =>
    simp only
    rw [mulInt_ok (by omega) (by omega)]
    simp only [bind_ok]
    generalize (f.ta * 2).tdiv 250 = q
    by_cases hq : q > 0
    · rw [if_pos hq]
      obtain ⟨k, hk⟩ : ∃ k : Nat, (if q > 20 * 8 - 2 then 20 * 8 - 2 else q) = (k : Int) :=
        ⟨(if q > 20 * 8 - 2 then 20 * 8 - 2 else q).toNat, by split <;> omega⟩
      have hk2 : (k : Int) = min 158 q := by rw [← hk]; split <;> omega
      rw [hk]
      obtain ⟨e, he, a1, a2, a3, a4⟩ := blit320 (b := b) (k := 160) (n := k) (by omega)
        (List.replicate k true) (by simp)
      refine ⟨k, e, ?_, a4, a1, by omega, by omega, by simp, fun _ => by omega, a2, a3⟩
      rw [Int.toNat_natCast, he]; rfl
    · rw [if_neg hq]
      by_cases hq3 : q < 0
      · rw [if_pos hq3]
        refine ⟨max (-2) q, b, ?_, rfl, rfl, by omega, by omega, by simp, fun _ => by omega, ?_, ?_⟩
        · congr 2
          split <;> omega
        · rw [show (max (-2) q).toNat = 0 by omega]; simp
        · rw [show (max (-2) q).toNat = 0 by omega]
      · rw [if_neg hq3]
        exact ⟨0, b, by simp, rfl, rfl, by omega, by omega, by simp, fun _ => by omega, by simp, by simp⟩

end Verif.Trau
