import Verif.Spec.TrauFrame
import Verif.Spec.Sync
import Verif.Proof.TrauFrame
/-!
Symbolic evaluation of the TRAU frame encoders and decoders (16k and 8k)
-/
namespace Verif.Trau
open Verif.Spec Verif.Spec.Trau
open Verif.OldTrau (memcpy getBits)
open Verif.RaaPrime (bind_ok bind_err)
set_option maxRecDepth 10000
set_option linter.unusedSimpArgs false

/-! ### symbolic evaluation of encoder and decoder -/

/-- encoding into any `n` bits and decoding into any structure: the frame header, the return code and the
contents decoded -/
def RT (bits : List Bool → Frame → M (List Bool)) (dec : Frame → List Bool → Dir → M (Int × Frame))
    (n hl : Nat) (hd : List Bool) (k : Nat) (cd : List Bool) (f : Frame) : Prop :=
  ∀ (f0 : Frame) (b : List Bool), f0.WF → b.length = n →
    (do let e ← bits b f
        let r ← dec f0 e f.dir
        .ok (e.take hl, r.1, r.2.type, r.2.dir, r.2.c.take k, payload f.type k r.2))
     = (.ok (hd, 0, f.type, f.dir, cd, payload f.type k f) : M _)

abbrev hd16 : List Bool := List.replicate 16 false ++ [true]

theorem rt_intro {bits : List Bool → Frame → M (List Bool)}
    {dec : Frame → List Bool → Dir → M (Int × Frame)} {n hl k : Nat} {hd cd : List Bool} {f : Frame}
    (h : ∀ ty0 dir0 ta0 c0 d0 t0 s0 m0 u0 crc0 xc0 b,
      (do let e ← bits (L n b) f
          let r ← dec (SF ty0 dir0 ta0 c0 d0 t0 s0 m0 u0 crc0 xc0) e f.dir
          .ok (e.take hl, r.1, r.2.type, r.2.dir, r.2.c.take k, payload f.type k r.2))
       = (.ok (hd, 0, f.type, f.dir, cd, payload f.type k f) : M _)) : RT bits dec n hl hd k cd f := by
  intro f0 b h0 hb
  obtain ⟨c0, d0, t0, s0, m0, crc0, xc0, h0⟩ := exists_SF h0
  obtain ⟨b, rfl⟩ := exists_L' hb
  rw [h0]
  exact h ..

theorem rt_fr (dir : Dir) (ta : Int) (c d t s m crc xc : Nat → Bool) (u : Bool) :
    RT (encode16FrBits (byDir dir ftFrUp ftFrDown)) decode16k 320 17 hd16 5 (code .fr dir)
      (SF .fr dir ta c d t s m u crc xc) := by
  apply rt_intro; intros; cases dir <;> kernel_rfl

theorem rt_efr (dir : Dir) (ta : Int) (c d t s m crc xc : Nat → Bool) (u : Bool) :
    RT (encode16FrBits ftEfr) decode16k 320 17 hd16 5 (code .efr dir)
      (SF .efr dir ta c d t s m u crc xc) := by
  apply rt_intro; intros; cases dir <;> kernel_rfl

theorem rt_hr (dir : Dir) (ta : Int) (c d t s m crc xc : Nat → Bool) (u : Bool) :
    RT encode16HrBits decode16k 320 17 hd16 5 (code .hr dir) (SF .hr dir ta c d t s m u crc xc) := by
  apply rt_intro; intros; cases dir <;> kernel_rfl

theorem rt_amr (dir : Dir) (ta : Int) (c d t s m crc xc : Nat → Bool) (u : Bool) :
    RT encode16AmrBits decode16k 320 17 hd16 5 (code .amr dir) (SF .amr dir ta c d t s m u crc xc) := by
  apply rt_intro; intros; cases dir <;> kernel_rfl

theorem rt_data (dir : Dir) (ta : Int) (c d t s m crc xc : Nat → Bool) (u : Bool) :
    RT encode16DataBits decode16k 320 17 hd16 5 (code .data dir) (SF .data dir ta c d t s m u crc xc) := by
  apply rt_intro; intros; cases dir <;> kernel_rfl

theorem rt_dataHr (dir : Dir) (ta : Int) (c d t s m crc xc : Nat → Bool) (u : Bool) :
    RT encode16DataHrBits decode16k 320 17 hd16 5 (code .dataHr dir)
      (SF .dataHr dir ta c d t s m u crc xc) := by
  apply rt_intro; intros; cases dir <;> kernel_rfl

theorem rt_d145 (dir : Dir) (ta : Int) (c d t s m crc xc : Nat → Bool) (u : Bool) :
    RT encode16D145Bits decode16k 320 17 hd16 5 (code .d145 dir)
      (SF .d145 dir ta c d t s m u crc xc) := by
  apply rt_intro; intros; cases dir <;> kernel_rfl

theorem rt_edata (dir : Dir) (ta : Int) (c d t s m crc xc : Nat → Bool) (u : Bool) :
    RT encode16EdataBits decode16k 320 17 hd16 5 (code .edata dir)
      (SF .edata dir ta c d t s m u crc xc) := by
  apply rt_intro; intros; cases dir <;> kernel_rfl

theorem rt_idle (dir : Dir)
    (f0 : Frame) (b : List Bool) (h0 : f0.WF) (hb : b.length = 320) :
    (do let e ← encode16IdleBits b
        let r ← decode16k f0 e dir
        .ok (e.take 17, r.1, r.2.type, r.2.dir, r.2.c.take 21, r.2.d.take 260, r.2.t))
     = (.ok (hd16, 0, .idle, dir, code .idle .dl ++ List.replicate 6 false ++ List.replicate 10 true,
          List.replicate 260 true, List.replicate 4 true) : M _) := by
  obtain ⟨c0, d0, t0, s0, m0, crc0, xc0, h0⟩ := exists_SF h0
  obtain ⟨b, rfl⟩ := exists_L' hb
  rw [h0]
  generalize f0.type = ty0, f0.dir = dir0, f0.ta = ta0, f0.ufi = u0
  clear h0 hb
  cases dir <;> kernel_rfl

/-! 8k -/

abbrev hd8 : List Bool := List.replicate 8 false ++ [true]

/-- `c` with its first values given by `p` -/
def updP (p : List Bool) (c : Nat → Bool) (j : Nat) : Bool := (p[j]?).getD (c j)

theorem eq_updP {p : List Bool} {c : Nat → Bool} {n : Nat} (h : (L n c).take p.length = p) :
    c = updP p c := by
  funext j
  unfold updP
  by_cases hj : j < p.length
  · have := congrArg (·[j]?) h
    simp only [List.getElem?_take, hj, if_true] at this
    rw [← this]
    simp only [L]
    rw [List.getElem?_map]
    cases hr : (List.range n)[j]? with
    | none => rfl
    | some x => have := List.getElem?_eq_some_iff.mp hr; simp at this; simp [this.2]
  · rw [List.getElem?_eq_none (by omega)]; rfl

theorem rt_hr8 (dir : Dir) (ta : Int) (c d t s m crc xc : Nat → Bool) (u : Bool) :
    RT encode8HrBits decode8k 160 9 hd8 5 (speech8Code dir (c 3)) (SF .speech8 dir ta c d t s m u crc xc) := by
  have hc : c = updP [c 0, c 1, c 2, c 3] c := eq_updP (n := 25) rfl
  apply rt_intro; intros
  cases dir
  · kernel_rfl
  · rw [hc]
    cases c 3
    · kernel_rfl
    · kernel_rfl

theorem rt_low8 (dir : Dir) (ta : Int) (c d t s m crc xc : Nat → Bool) (u : Bool) :
    RT encode8AmrLowBits decode8k 160 9 hd8 0 [] (SF .amrLow8 dir ta c d t s m u crc xc) := by
  apply rt_intro; intros; cases dir <;> kernel_rfl

theorem rt_74 (dir : Dir) (ta : Int) (c d t s m crc xc : Nat → Bool) (u : Bool) :
    RT encode8Amr74Bits decode8k 160 3 [false, false, true] 0 [] (SF .amr74 dir ta c d t s m u crc xc) := by
  apply rt_intro; intros; cases dir <;> kernel_rfl

theorem rt_data8_ul (ta : Int) (c d t s m crc xc : Nat → Bool) (u : Bool)
    (hc : (L 25 c).take 5 = [false, false, true, true, true]) :
    RT encode8DataBits decode8k 160 9 hd8 0 [] (SF .data8 .ul ta c d t s m u crc xc) := by
  have hc := eq_updP (p := [false, false, true, true, true]) hc
  rw [hc]
  apply rt_intro; intros; kernel_rfl

theorem rt_data8_dl (ta : Int) (c d t s m crc xc : Nat → Bool) (u : Bool)
    (hc : (L 25 c).take 3 = [false, false, true]) :
    RT encode8DataBits decode8k 160 9 hd8 0 [] (SF .data8 .dl ta c d t s m u crc xc) := by
  have hc : c = updP [false, false, true, c 3, c 4] c := by
    apply eq_updP (n := 25)
    have := congrArg (· ++ [c 3, c 4]) hc
    exact this
  rw [hc]
  apply rt_intro; intros
  cases c 3 <;> cases c 4 <;> kernel_rfl

theorem rt_oam8_ul (ta : Int) (c d t s m crc xc : Nat → Bool) (u : Bool)
    (hc : (L 25 c).take 5 = [false, true, false, true, true]) :
    RT encode8OamBits decode8k 160 9 hd8 0 [] (SF .oam8 .ul ta c d t s m u crc xc) := by
  have hc := eq_updP (p := [false, true, false, true, true]) hc
  rw [hc]
  apply rt_intro; intros; kernel_rfl

theorem rt_oam8_dl (ta : Int) (c d t s m crc xc : Nat → Bool) (u : Bool)
    (hc : (L 25 c).take 3 = [false, true, false]) :
    RT encode8OamBits decode8k 160 9 hd8 0 [] (SF .oam8 .dl ta c d t s m u crc xc) := by
  have hc : c = updP [false, true, false, c 3, c 4] c := by
    apply eq_updP (n := 25)
    have := congrArg (· ++ [c 3, c 4]) hc
    exact this
  rw [hc]
  apply rt_intro; intros
  cases c 3 <;> cases c 4 <;> kernel_rfl

/-! ### encoders: the exact output, whatever the buffer contained before -/

/-- encoding into `n` bits succeeds with result `e`, whatever was there before -/
def Emits (bits : List Bool → Frame → M (List Bool)) (n : Nat) (f : Frame) (e : List Bool) : Prop :=
  ∀ b : List Bool, b.length = n → bits b f = .ok e

theorem emits_intro {bits : List Bool → Frame → M (List Bool)} {n : Nat} {f : Frame} {e : List Bool}
    (h : ∀ b, bits (L n b) f = .ok e) : Emits bits n f e := by
  intro b hb
  obtain ⟨b, rfl⟩ := exists_L' hb
  exact h b

theorem emits_fr (c5 : List Bool) (h5 : c5.length = 5) (ty : FT) (dir : Dir) (ta : Int)
    (c d t s m crc xc : Nat → Bool) (u : Bool) :
    Emits (encode16FrBits c5) 320 (SF ty dir ta c d t s m u crc xc)
      (layoutFr c5 (SF ty dir ta c d t s m u crc xc)) := by
  obtain ⟨c5, rfl⟩ := exists_L' h5
  exact emits_intro (fun b => by kernel_rfl)

theorem emits_amr (ty : FT) (dir : Dir) (ta : Int) (c d t s m crc xc : Nat → Bool) (u : Bool) :
    Emits encode16AmrBits 320 (SF ty dir ta c d t s m u crc xc)
      (layoutAmr (code .amr dir) (SF ty dir ta c d t s m u crc xc)) := by
  cases dir <;> exact emits_intro (fun b => by kernel_rfl)

theorem emits_hr (ty : FT) (dir : Dir) (ta : Int) (c d t s m crc xc : Nat → Bool) (u : Bool) :
    Emits encode16HrBits 320 (SF ty dir ta c d t s m u crc xc)
      (layoutHr (code .hr dir) (SF ty dir ta c d t s m u crc xc)) := by
  cases dir <;> exact emits_intro (fun b => by kernel_rfl)

theorem emits_oam (ty : FT) (dir : Dir) (ta : Int) (c d t s m crc xc : Nat → Bool) (u : Bool) :
    Emits encode16OamBits 320 (SF ty dir ta c d t s m u crc xc)
      (zeros 16 ++ [true] ++ code .oam dir ++ sub (L 25 c) 0 10 ++ sync 15 17 (L 288 d) ++ [true] ++
        sub (L 288 d) 256 265 ++ L 6 s) := by
  cases dir <;> exact emits_intro (fun b => by kernel_rfl)

theorem emits_idle (f : Frame) :
    Emits (fun b _ => encode16IdleBits b) 320 f (layoutFr (code .idle .dl) idleFrame) :=
  emits_intro (fun b => by kernel_rfl)

theorem emits_data (ty : FT) (dir : Dir) (ta : Int) (c d t s m crc xc : Nat → Bool) (u : Bool) :
    Emits encode16DataBits 320 (SF ty dir ta c d t s m u crc xc)
      (layoutData (code .data dir) (SF ty dir ta c d t s m u crc xc)) := by
  cases dir <;> exact emits_intro (fun b => by kernel_rfl)

theorem emits_dataHr (ty : FT) (dir : Dir) (ta : Int) (c d t s m crc xc : Nat → Bool) (u : Bool) :
    Emits encode16DataHrBits 320 (SF ty dir ta c d t s m u crc xc)
      (layoutDataHr (code .dataHr dir) (SF ty dir ta c d t s m u crc xc)) := by
  cases dir <;> exact emits_intro (fun b => by kernel_rfl)

theorem emits_d145 (ty : FT) (dir : Dir) (ta : Int) (c d t s m crc xc : Nat → Bool) (u : Bool) :
    Emits encode16D145Bits 320 (SF ty dir ta c d t s m u crc xc)
      (layoutD145 (code .d145 dir) (SF ty dir ta c d t s m u crc xc)) := by
  cases dir <;> exact emits_intro (fun b => by kernel_rfl)

theorem emits_edata (dir : Dir) (ta : Int) (c d t s m crc xc : Nat → Bool) (u : Bool) :
    Emits encode16EdataBits 320 (SF .edata dir ta c d t s m u crc xc)
      (layoutEdata (code .edata dir) (SF .edata dir ta c d t s m u crc xc)) := by
  cases dir <;> exact emits_intro (fun b => by kernel_rfl)

theorem emits_hr8 (ty : FT) (dir : Dir) (ta : Int) (c d t s m crc xc : Nat → Bool) (u : Bool) :
    Emits encode8HrBits 160 (SF ty dir ta c d t s m u crc xc)
      (layoutHr8 (speech8Code dir (c 3)) (SF ty dir ta c d t s m u crc xc)) := by
  have hc : c = updP [c 0, c 1, c 2, c 3] c := eq_updP (n := 25) rfl
  cases dir
  · exact emits_intro (fun b => by kernel_rfl)
  · rw [hc]
    cases c 3
    · exact emits_intro (fun b => by kernel_rfl)
    · exact emits_intro (fun b => by kernel_rfl)

theorem emits_low8 (ty : FT) (dir : Dir) (ta : Int) (c d t s m crc xc : Nat → Bool) (u : Bool) :
    Emits encode8AmrLowBits 160 (SF ty dir ta c d t s m u crc xc)
      (layoutLow8 (SF ty dir ta c d t s m u crc xc)) :=
  emits_intro (fun b => by kernel_rfl)

theorem emits_74 (ty : FT) (dir : Dir) (ta : Int) (c d t s m crc xc : Nat → Bool) (u : Bool) :
    Emits encode8Amr74Bits 160 (SF ty dir ta c d t s m u crc xc)
      (layout74 (SF ty dir ta c d t s m u crc xc)) :=
  emits_intro (fun b => by kernel_rfl)

theorem emits_data8 (ty : FT) (dir : Dir) (ta : Int) (c d t s m crc xc : Nat → Bool) (u : Bool) :
    Emits encode8DataBits 160 (SF ty dir ta c d t s m u crc xc)
      (layoutData8 (SF ty dir ta c d t s m u crc xc)) :=
  emits_intro (fun b => by kernel_rfl)

/-- the last bit of an 8k O&M frame is left as it was -/
theorem emits_oam8 (ty : FT) (dir : Dir) (ta : Int) (c d t s m crc xc b : Nat → Bool) (u : Bool) :
    encode8OamBits (L 160 b) (SF ty dir ta c d t s m u crc xc)
      = .ok (layoutOam8 (SF ty dir ta c d t s m u crc xc) ++ [b 159]) := by kernel_rfl

/-- encoding into `n` bits succeeds -/
def Safe (bits : List Bool → Frame → M (List Bool)) (n : Nat) (f : Frame) : Prop :=
  ∀ b : List Bool, b.length = n → ∃ e, bits b f = .ok e

theorem Emits.safe {bits : List Bool → Frame → M (List Bool)} {n : Nat} {f : Frame} {e : List Bool}
    (h : Emits bits n f e) : Safe bits n f := fun b hb => ⟨_, h b hb⟩

theorem isOk_exists {α : Type} {x : M α} (h : x.isOk = true) : ∃ y, x = .ok y := by
  cases x with
  | error e => simp [Except.isOk, Except.toBool] at h
  | ok y => exact ⟨y, rfl⟩

theorem safe_intro {bits : List Bool → Frame → M (List Bool)} {n : Nat} {f : Frame}
    (h : ∀ b, (bits (L n b) f).isOk = true) : Safe bits n f := by
  intro b hb
  obtain ⟨b, rfl⟩ := exists_L' hb
  exact isOk_exists (h b)

theorem safe_oam8 (ty : FT) (dir : Dir) (ta : Int) (c d t s m crc xc : Nat → Bool) (u : Bool) :
    Safe encode8OamBits 160 (SF ty dir ta c d t s m u crc xc) :=
  safe_intro (fun b => by kernel_rfl)

theorem safe_67 (ty : FT) (dir : Dir) (ta : Int) (c d t s m crc xc : Nat → Bool) (u : Bool) :
    Safe encode8Amr67Bits 168 (SF ty dir ta c d t s m u crc xc) :=
  safe_intro (fun b => by kernel_rfl)

/-! ### decoders: no fault -/

/-- decoding `n` bits into any structure succeeds, keeps the header fields, and keeps the array sizes -/
def DecSafe (dec : Frame → List Bool → M Frame) (n : Nat) : Prop :=
  ∀ (f : Frame) (b : List Bool), f.WF → b.length = n →
    ∃ f', dec f b = .ok f' ∧ f'.type = f.type ∧ f'.dir = f.dir ∧ f'.ta = f.ta ∧ f'.WF

/-- header fields and array sizes -/
def shape (f : Frame) : FT × Dir × Int × List Nat :=
  (f.type, f.dir, f.ta, [f.c.length, f.d.length, f.t.length, f.s.length, f.m.length, f.crc.length,
    f.xc.length])

theorem decSafe_intro {dec : Frame → List Bool → M Frame} {n : Nat}
    (h : ∀ ty dir ta c d t s m u crc xc b,
      (do let r ← dec (SF ty dir ta c d t s m u crc xc) (L n b); .ok (shape r))
        = (.ok (ty, dir, ta, [25, 288, 4, 6, 2, 3, 6]) : M _)) : DecSafe dec n := by
  intro f b hf hb
  obtain ⟨c, d, t, s, m, crc, xc, h0⟩ := exists_SF hf
  obtain ⟨b, rfl⟩ := exists_L' hb
  have := h f.type f.dir f.ta c d t s m f.ufi crc xc b
  rw [← h0] at this
  cases hd : dec f (L n b) with
  | error e => rw [hd] at this; cases this
  | ok r =>
    rw [hd] at this
    have := Except.ok.inj this
    simp only [shape, Prod.mk.injEq, List.cons.injEq, and_true] at this
    obtain ⟨h1, h2, h3, h4, h5, h6, h7, h8, h9, h10⟩ := this
    exact ⟨r, rfl, h1, h2, h3, ⟨h4, h5, h6, h7, h8, h9, h10⟩⟩

theorem dsafe_fr : DecSafe decode16Fr 320 := decSafe_intro (by intros; kernel_rfl)
theorem dsafe_amr : DecSafe decode16Amr 320 := decSafe_intro (by intros; kernel_rfl)
theorem dsafe_hr : DecSafe decode16Hr 320 := decSafe_intro (by intros; kernel_rfl)
theorem dsafe_data : DecSafe decode16Data 320 := decSafe_intro (by intros; kernel_rfl)
theorem dsafe_dataHr : DecSafe decode16DataHr 320 := decSafe_intro (by intros; kernel_rfl)
theorem dsafe_edata : DecSafe decode16Edata 320 := decSafe_intro (by intros; kernel_rfl)
theorem dsafe_oam : DecSafe decode16Oam 321 := decSafe_intro (by intros; kernel_rfl)
theorem dsafe_hr8 : DecSafe decode8Hr 160 := decSafe_intro (by intros; kernel_rfl)
theorem dsafe_low8 : DecSafe decode8AmrLow 160 := decSafe_intro (by intros; kernel_rfl)
theorem dsafe_67 : DecSafe decode8Amr67 168 := decSafe_intro (by intros; kernel_rfl)
theorem dsafe_74 : DecSafe decode8Amr74 160 := decSafe_intro (by intros; kernel_rfl)
theorem dsafe_data8 : DecSafe decode8Data 160 := decSafe_intro (by intros; kernel_rfl)
theorem dsafe_oam8 : DecSafe decode8Oam 160 := decSafe_intro (by intros; kernel_rfl)

/-- one bit short: the O&M decoder reads behind its input -/
theorem oam_oob (ty : FT) (dir : Dir) (ta : Int) (c d t s m crc xc b : Nat → Bool) (u : Bool) :
    decode16Oam (SF ty dir ta c d t s m u crc xc) (L 320 b) = .error .oob := by kernel_rfl

/-- the AMR 6.7 decoder reads behind 160 bits -/
theorem a67_oob (ty : FT) (dir : Dir) (ta : Int) (c d t s m crc xc b : Nat → Bool) (u : Bool) :
    decode8Amr67 (SF ty dir ta c d t s m u crc xc) (L 160 b) = .error .oob := by kernel_rfl

end Verif.Trau
