import Verif.Props.RtpHr
import Verif.Props.RtpData
import Verif.Proof.Safe
/-!
# C71: the RTP conversion functions stay inside their buffers for every input
-/
namespace Verif.RtpConv
open Verif Verif.Trau Verif.Spec.Rtp
open Verif.OldTrau (memcpy)
set_option maxRecDepth 10000

abbrev Len {α : Type} (n : Nat) : List α → Prop := fun l => l.length = n

theorem orByte_safe {out : List Byte} {i n : Nat} {v : Byte} (h : out.length = n) (hi : i < n) : Safe (Len n) (orByte out i v) :=
  (Safe.rd (by omega)).bind fun _ _ => Safe.wr h hi
theorem andByte_safe {out : List Byte} {i n : Nat} {v : Byte} (h : out.length = n) (hi : i < n) : Safe (Len n) (andByte out i v) :=
  (Safe.rd (by omega)).bind fun _ _ => Safe.wr h hi
theorem orBits_safe {o n : Nat} {d : List Bool} : ∀ {ps : List (Nat × Nat)} {out : List Byte}, out.length = n →
    (∀ q ∈ ps, o + q.1 / 8 < n ∧ q.2 < d.length) → Safe (Len n) (orBits out o d ps)
  | [], _, h, _ => Safe.ok h
  | (j, i) :: ps, out, h, hq => by
    have hq0 := hq (j, i) (by simp)
    refine (Safe.rd hq0.2).bind fun b _ => ?_
    refine Safe.bind (P := Len n) ((Safe.rd (by omega)).bind fun _ _ => Safe.wr h hq0.1) fun out' h' => ?_
    exact orBits_safe h' (fun q hq' => hq q (by simp [hq']))
theorem getPbits_safe {n : Nat} {data : List Byte} : ∀ {ps : List (Nat × Nat)} {d : List Bool}, d.length = n →
    (∀ q ∈ ps, q.1 / 8 < data.length ∧ q.2 < n) → Safe (Len n) (getPbits data d ps)
  | [], _, h, _ => Safe.ok h
  | (j, i) :: ps, d, h, hq => by
    have hq0 := hq (j, i) (by simp)
    refine Safe.bind (P := fun _ => True) ((Safe.rd hq0.1).bind fun _ _ => Safe.ok trivial) fun b _ => ?_
    refine (Safe.wr h hq0.2).bind fun d' h' => ?_
    exact getPbits_safe h' (fun q hq' => hq q (by simp [hq']))
theorem span_mem {i j n : Nat} {q : Nat × Nat} (h : q ∈ span i j n) : q.1 < j + n ∧ q.2 < i + n := by
  unfold span at h
  simp only [List.mem_map, List.mem_range] at h
  obtain ⟨k, hk, rfl⟩ := h
  exact ⟨by dsimp only; omega, by dsimp only; omega⟩
theorem frPairs_safe : Safe (fun ps : List (Nat × Nat) => ∀ q ∈ ps, q.1 < 264 ∧ q.2 < 260) frPairs := by
  have h : ∃ ps, frPairs = .ok ps ∧ (ps.all fun q => decide (q.1 < 264 ∧ q.2 < 260)) = true := by
    cases hps : frPairs with
    | error e => exact absurd hps (by intro h; have : (frPairs.toOption.isSome) = true := by decide +kernel
                                      rw [h] at this; cases this)
    | ok ps =>
      have : (match frPairs with | .ok ps => ps.all fun q => decide (q.1 < 264 ∧ q.2 < 260) | .error _ => false) = true := by
        decide +kernel
      rw [hps] at this
      exact ⟨ps, rfl, this⟩
  obtain ⟨ps, h1, h2⟩ := h
  exact ⟨ps, h1, fun q hq => of_decide_eq_true (List.all_eq_true.1 h2 q hq)⟩
theorem makeFr_safe {n : Nat} : ∀ {k s : Nat} {out : List Byte}, out.length = n → s + 7 * k ≤ n → Safe (Len n) (makeFrBfiNonsid out s k)
  | 0, _, _, h, _ => Safe.ok h
  | k + 1, s, out, h, hs => by
    refine (orByte_safe h (by omega)).bind fun _ h => ?_
    refine (orByte_safe h (by omega)).bind fun _ h => ?_
    exact makeFr_safe h (by omega)
theorem twts001Hdr_safe {tf : Frame} (h : tf.WF) : Safe (fun _ => True) (twts001Hdr tf) := by
  have hc := h.c
  refine (Safe.rd (by omega)).bind fun _ _ => ?_
  refine (Safe.rd (by omega)).bind fun _ _ => ?_
  refine (Safe.rd (by omega)).bind fun _ _ => ?_
  exact Safe.ok trivial

/-- what is said about the result of TRAU → RTP: the buffer has its size and the returned length fits -/
def OutOk (n : Nat) (r : Int × List Byte) : Prop := r.2.length = n ∧ r.1 ≤ n

theorem trau2rtpFr_safe (K : Codec) {tf : Frame} (h : tf.WF) (out : List Byte) (tw : Bool) :
    Safe (OutOk out.length) (trau2rtpFr K out tf tw) := by
  have hc := h.c
  have hd := h.d
  generalize hn : out.length = n
  unfold trau2rtpFr
  dsimp only
  refine Safe.ite (fun _ => Safe.ok ⟨hn, by simp [EINVAL]⟩) fun _ => ?_
  refine Safe.ite (fun _ => Safe.ok ⟨hn, by simp [ENOSPC]⟩) fun hlen => ?_
  rw [hn] at hlen
  have hreq : (if tw then 1 else 0) + 33 ≤ n ∧ (if tw then FR_BYTES + 1 else FR_BYTES) ≤ n := by
    cases tw <;> simp [FR_BYTES] at hlen ⊢ <;> omega
  generalize (if tw = true then FR_BYTES + 1 else FR_BYTES) = req at *
  generalize (if tw = true then 1 else 0) = o at *
  have body : ∀ out : List Byte, out.length = n → Safe (OutOk n) (do
      let bfi ← rd tf.c 11
      if bfi ∧ ¬ tw then .ok (0, out)
      else do
        let out ← wr out o 0xd0
        let out ← blit out (o + 1) (List.replicate (FR_BYTES - 1) 0)
        let ps ← frPairs
        let out ← orBits out o tf.d ps
        let c12 ← rd tf.c 12
        let c13 ← rd tf.c 13
        let pl ← slice out o FR_BYTES
        if bfi ∧ ¬ c12 ∧ ¬ c13 ∧ K.frIsAnySid pl then do
          let out ← makeFrBfiNonsid out (o + 5) 4
          .ok ((req : Int), out)
        else .ok ((req : Int), out)) := by
    intro out hn
    refine (Safe.rd (by omega)).bind fun bfi _ => ?_
    refine Safe.ite (fun _ => Safe.ok ⟨hn, by simp⟩) fun _ => ?_
    refine (Safe.wr hn (by omega)).bind fun out hn => ?_
    refine (Safe.blit hn (by simp [FR_BYTES]; omega)).bind fun out hn => ?_
    refine frPairs_safe.bind fun ps hps => ?_
    refine (orBits_safe hn (fun q hq => by have := hps q hq; omega)).bind fun out hn => ?_
    refine (Safe.rd (by omega)).bind fun _ _ => ?_
    refine (Safe.rd (by omega)).bind fun _ _ => ?_
    refine (Safe.slice (by simp only [FR_BYTES]; omega)).bind fun _ _ => ?_
    refine Safe.ite (fun _ => ?_) (fun _ => Safe.ok ⟨hn, by omega⟩)
    exact (makeFr_safe hn (by omega)).bind fun _ h => Safe.ok ⟨h, by omega⟩
  cases tw
  · exact body out hn
  · refine (twts001Hdr_safe h).bind fun _ _ => ?_
    exact (Safe.wr hn (by omega)).bind fun out hn => body out hn

theorem parity_safe {d : List Bool} (h : d.length = 288) : Safe (fun _ => True) (parity1 d) ∧ Safe (fun _ => True) (parity2 d) ∧
    Safe (fun _ => True) (parity3 d) ∧ Safe (fun _ => True) (parity4 d) ∧ Safe (fun _ => True) (parity5 d) := by
  refine ⟨?_, ?_, ?_, ?_, ?_⟩
  all_goals
    repeat refine (Safe.slice (by omega)).bind fun _ _ => ?_
    exact Safe.ok trivial

theorem efrBlockOut_safe {out : List Byte} {o n c : Nat} {d : List Bool} {ps : List (Nat × Nat)} {par : M (List Bool)}
    (hn : out.length = n) (hps : ∀ q ∈ ps, o + q.1 / 8 < n ∧ q.2 < d.length) (hp : Safe (fun _ => True) par)
    (hc : c + 3 ≤ d.length) : Safe (fun r => r.1.length = n) (efrBlockOut out o d ps par c) := by
  refine (orBits_safe hn hps).bind fun out hn => ?_
  refine hp.bind fun _ _ => ?_
  exact (Safe.slice hc).bind fun _ _ => Safe.ok hn

theorem efrOut_safe {out : List Byte} {o n : Nat} {d : List Bool} (hn : out.length = n) (ho : o + 31 ≤ n) (hd : d.length = 288) :
    Safe (fun r => r.1.length = n) (efrOut out o d) := by
  obtain ⟨h1, h2, h3, h4, h5⟩ := parity_safe hd
  have sp : ∀ {i j m : Nat}, i + m ≤ 288 → j + m ≤ 248 → ∀ q ∈ span i j m, o + q.1 / 8 < n ∧ q.2 < d.length := by
    intro i j m hi hj q hq
    have := span_mem hq
    omega
  unfold efrOut
  refine (efrBlockOut_safe hn (sp (by decide) (by decide)) h1 (by omega)).bind fun r hn => ?_
  obtain ⟨out, ok⟩ := r
  refine Safe.ite (fun _ => Safe.ok hn) fun _ => ?_
  refine (efrBlockOut_safe hn (sp (by decide) (by decide)) h2 (by omega)).bind fun r hn => ?_
  obtain ⟨out, ok⟩ := r
  refine Safe.ite (fun _ => Safe.ok hn) fun _ => ?_
  refine (efrBlockOut_safe hn (sp (by decide) (by decide)) h3 (by omega)).bind fun r hn => ?_
  obtain ⟨out, ok⟩ := r
  refine Safe.ite (fun _ => Safe.ok hn) fun _ => ?_
  refine (efrBlockOut_safe hn (sp (by decide) (by decide)) h4 (by omega)).bind fun r hn => ?_
  obtain ⟨out, ok⟩ := r
  refine Safe.ite (fun _ => Safe.ok hn) fun _ => ?_
  exact efrBlockOut_safe hn (sp (by decide) (by decide)) h5 (by omega)

theorem makeEfr_safe {out : List Byte} {o n : Nat} (h : out.length = n) (ho : o + 31 ≤ n) : Safe (Len n) (makeEfrBfiNonsid out o) := by
  unfold makeEfrBfiNonsid
  refine (andByte_safe h (by omega)).bind fun _ h => ?_
  refine (andByte_safe h (by omega)).bind fun _ h => ?_
  refine (andByte_safe h (by omega)).bind fun _ h => ?_
  refine (andByte_safe h (by omega)).bind fun _ h => ?_
  exact andByte_safe h (by omega)

theorem trau2rtpEfr_safe (K : Codec) {tf : Frame} (h : tf.WF) (out : List Byte) (tw : Bool) :
    Safe (OutOk out.length) (trau2rtpEfr K out tf tw) := by
  have hc := h.c
  have hd := h.d
  generalize hn : out.length = n
  unfold trau2rtpEfr
  dsimp only
  refine Safe.ite (fun _ => Safe.ok ⟨hn, by simp [ENOSPC]⟩) fun hlen => ?_
  refine Safe.ite (fun _ => Safe.ok ⟨hn, by simp [EINVAL]⟩) fun _ => ?_
  rw [hn] at hlen
  have hreq : (if tw then 1 else 0) + 31 ≤ n ∧ (if tw then EFR_BYTES + 1 else EFR_BYTES) ≤ n := by
    cases tw <;> simp [EFR_BYTES] at hlen ⊢ <;> omega
  generalize (if tw = true then EFR_BYTES + 1 else EFR_BYTES) = req at *
  generalize (if tw = true then 1 else 0) = o at *
  have body : ∀ out : List Byte, out.length = n → Safe (OutOk n) (do
      let bfi ← rd tf.c 11
      if bfi ∧ ¬ tw then .ok (0, out)
      else do
        let out ← wr out o 0xc0
        let out ← blit out (o + 1) (List.replicate (EFR_BYTES - 1) 0)
        let (out, ok) ← efrOut out o tf.d
        if ok then do
          let c12 ← rd tf.c 12
          let c13 ← rd tf.c 13
          let pl ← slice out o EFR_BYTES
          if bfi ∧ ¬ c12 ∧ ¬ c13 ∧ K.efrIsAnySid pl then do
            let out ← makeEfrBfiNonsid out o
            .ok ((req : Int), out)
          else .ok ((req : Int), out)
        else if tw then do
          let out ← orByte out 0 0x06
          .ok (1, out)
        else .ok (0, out)) := by
    intro out hn
    refine (Safe.rd (by omega)).bind fun bfi _ => ?_
    refine Safe.ite (fun _ => Safe.ok ⟨hn, by simp⟩) fun _ => ?_
    refine (Safe.wr hn (by omega)).bind fun out hn => ?_
    refine (Safe.blit hn (by simp [EFR_BYTES]; omega)).bind fun out hn => ?_
    refine (efrOut_safe hn (by omega) hd).bind fun r hn => ?_
    obtain ⟨out, ok⟩ := r
    refine Safe.ite (fun _ => ?_) (fun _ => ?_)
    · refine (Safe.rd (by omega)).bind fun _ _ => ?_
      refine (Safe.rd (by omega)).bind fun _ _ => ?_
      refine (Safe.slice (by simp only [EFR_BYTES]; dsimp only at hn; omega)).bind fun _ _ => ?_
      refine Safe.ite (fun _ => ?_) (fun _ => Safe.ok ⟨hn, by omega⟩)
      exact (makeEfr_safe hn (by omega)).bind fun _ h => Safe.ok ⟨h, by omega⟩
    · refine Safe.ite (fun _ => ?_) (fun _ => Safe.ok ⟨hn, by simp⟩)
      exact (orByte_safe hn (by omega)).bind fun _ h => Safe.ok ⟨h, by dsimp only; omega⟩
  cases tw
  · exact body out hn
  · refine (twts001Hdr_safe h).bind fun _ _ => ?_
    exact (Safe.wr hn (by omega)).bind fun out hn => body out hn


theorem hr16Flags_safe {tf : Frame} (h : tf.WF) {out : List Byte} {n : Nat} (hn : out.length = n) (h0 : 0 < n) :
    Safe (Len n) (hr16Flags out tf) := by
  have hc := h.c
  have l : ∀ (b : Bool) (v : Byte) {out : List Byte}, out.length = n → Safe (Len n) (if b then orByte out 0 v else .ok out) :=
    fun b v out hn => Safe.ite (fun _ => orByte_safe hn h0) fun _ => Safe.ok hn
  unfold hr16Flags
  refine (Safe.rd (by omega)).bind fun b _ => ?_
  have e : ∀ {out : List Byte}, out.length = n → Safe (Len n) (do
      let out ← if tf.ufi then orByte out 0 0x02 else .ok out
      let taf ← rd tf.c 14
      if taf then orByte out 0 0x01 else .ok out) := by
    intro out hn
    have e : ∀ {out : List Byte}, out.length = n → Safe (Len n) (do
        let taf ← rd tf.c 14
        if taf then orByte out 0 0x01 else .ok out) :=
      fun hn => (Safe.rd (by omega)).bind fun _ _ => l _ _ hn
    exact Safe.ite (fun _ => (orByte_safe hn h0).bind fun _ h => e h) fun _ => e hn
  exact Safe.ite (fun _ => (orByte_safe hn h0).bind fun _ h => e h) fun _ => e hn

theorem hr8Flags_safe {tf : Frame} (h : tf.WF) {out : List Byte} {n : Nat} (hn : out.length = n) (h0 : 0 < n) :
    Safe (Len n) (hr8Flags out tf) := by
  have hc := h.c
  have hx := h.xc
  unfold hr8Flags
  refine (Safe.rd (by omega)).bind fun b _ => ?_
  have e : ∀ {out : List Byte}, out.length = n → Safe (Len n) (do
      let taf ← rd tf.xc 4
      if taf then orByte out 0 0x02 else .ok out) :=
    fun hn => (Safe.rd (by omega)).bind fun _ _ => Safe.ite (fun _ => orByte_safe hn h0) fun _ => Safe.ok hn
  exact Safe.ite (fun _ => (orByte_safe hn h0).bind fun _ h => e h) fun _ => e hn

theorem hr16Bad_safe {tf : Frame} (h : tf.WF) {out : List Byte} {n : Nat} (hn : out.length = n) (h0 : 0 < n) (tw : Bool) :
    Safe (OutOk n) (hr16Bad out tf tw) := by
  unfold hr16Bad
  refine Safe.ite (fun _ => ?_) fun _ => Safe.ok ⟨hn, by simp⟩
  refine (Safe.wr hn (by omega)).bind fun _ hn => ?_
  exact (hr16Flags_safe h hn h0).bind fun _ hn => Safe.ok ⟨hn, by dsimp only; omega⟩
theorem hr8Bad_safe {tf : Frame} (h : tf.WF) {out : List Byte} {n : Nat} (hn : out.length = n) (h0 : 0 < n) (tw : Bool) :
    Safe (OutOk n) (hr8Bad out tf tw) := by
  unfold hr8Bad
  refine Safe.ite (fun _ => ?_) fun _ => Safe.ok ⟨hn, by simp⟩
  refine (Safe.wr hn (by omega)).bind fun _ hn => ?_
  exact (hr8Flags_safe h hn h0).bind fun _ hn => Safe.ok ⟨hn, by dsimp only; omega⟩

theorem trau2rtpHr16_safe (K : Codec) (hK : K.Sane) {tf : Frame} (h : tf.WF) (out : List Byte) (tw : Bool) :
    Safe (OutOk out.length) (trau2rtpHr16 K out tf tw) := by
  have hc := h.c
  have hd := h.d
  generalize hn : out.length = n
  unfold trau2rtpHr16
  refine Safe.ite (fun _ => Safe.ok ⟨hn, by simp [EINVAL]⟩) fun _ => ?_
  refine Safe.ite (fun _ => Safe.ok ⟨hn, by simp [ENOSPC]⟩) fun hlen => ?_
  have h15 : 15 ≤ n := by simp only [HR_RFC5993] at hlen; omega
  refine (Safe.slice (by omega)).bind fun _ _ => ?_
  refine Safe.ite (fun _ => hr16Bad_safe h hn (by omega) _) fun _ => ?_
  refine (Safe.rd (by omega)).bind fun c12 _ => ?_
  refine (Safe.rd (by omega)).bind fun c13 _ => ?_
  refine (Safe.rd (by omega)).bind fun bfi _ => ?_
  dsimp only
  refine Safe.ite (fun _ => hr16Bad_safe h hn (by omega) _) fun _ => ?_
  refine Safe.ite (fun _ => hr16Bad_safe h hn (by omega) _) fun _ => ?_
  generalize (if bfi = true ∧ 2 * c12.toNat + c13.toNat = 2 then 1 else 2 * c12.toNat + c13.toNat) = sidc
  refine (Safe.wr hn (by omega)).bind fun out hn => ?_
  have tail : ∀ out : List Byte, out.length = n → Safe (OutOk n) (if tw ∧ sidc = 1 then .ok (1, out)
        else do
          let dd ← slice tf.d 0 112
          let out ← blit out 1 (ubit2pbit HR_BYTES dd)
          let out ← if !tw ∧ sidc = 2 then do
              let pl ← slice out 1 HR_BYTES
              blit out 1 (K.hrSidReset pl)
            else .ok out
          .ok ((HR_RFC5993 : Int), out)) := by
    intro out hn
    refine Safe.ite (fun _ => Safe.ok ⟨hn, by dsimp only; omega⟩) fun _ => ?_
    refine (Safe.slice (by omega)).bind fun _ _ => ?_
    refine (Safe.blit hn (by simp [HR_BYTES]; omega)).bind fun out hn => ?_
    dsimp only
    refine Safe.ite (fun _ => ?_) fun _ => Safe.ok ⟨hn, by simp only [HR_RFC5993]; omega⟩
    refine (Safe.slice (by simp only [HR_BYTES]; omega)).bind fun pl hpl => ?_
    refine (Safe.blit hn (by rw [hK, hpl]; simp only [HR_BYTES]; omega)).bind fun out hn => ?_
    exact Safe.ok ⟨hn, by simp only [HR_RFC5993]; omega⟩
  refine Safe.ite (fun _ => ?_) fun _ => tail out hn
  refine Safe.ite (fun _ => ?_) fun _ => ?_
  · refine (Safe.wr hn (by omega)).bind fun out hn => ?_
    exact (hr16Flags_safe h hn (by omega)).bind fun out hn => tail out hn
  · exact (hr16Flags_safe h hn (by omega)).bind fun out hn => tail out hn

theorem trau2rtpHr8_safe (K : Codec) (hK : K.Sane) {tf : Frame} (h : tf.WF) (out : List Byte) (tw : Bool) :
    Safe (OutOk out.length) (trau2rtpHr8 K out tf tw) := by
  have hc := h.c
  have hd := h.d
  have hx := h.xc
  generalize hn : out.length = n
  unfold trau2rtpHr8
  refine Safe.ite (fun _ => Safe.ok ⟨hn, by simp [EINVAL]⟩) fun _ => ?_
  refine Safe.ite (fun _ => Safe.ok ⟨hn, by simp [ENOSPC]⟩) fun hlen => ?_
  have h15 : 15 ≤ n := by simp only [HR_RFC5993] at hlen; omega
  have hr : (HR_RFC5993 : Int) ≤ n := by simp only [HR_RFC5993]; omega
  refine (Safe.slice (by omega)).bind fun x _ => ?_
  refine (Safe.slice (by omega)).bind fun _ _ => ?_
  refine Safe.ite (fun _ => hr8Bad_safe h hn (by omega) _) fun _ => ?_
  refine (Safe.rd (by omega)).bind fun xc4 _ => ?_
  refine (Safe.slice (by omega)).bind fun dd _ => ?_
  split
  · refine (Safe.wr hn (by omega)).bind fun out hn => ?_
    have tail : ∀ out : List Byte, out.length = n → Safe (OutOk n) (do
        let out ← blit out 1 (ubit2pbit HR_BYTES dd)
        .ok ((HR_RFC5993 : Int), out)) := fun out hn =>
      (Safe.blit hn (by simp [HR_BYTES]; omega)).bind fun out hn => Safe.ok ⟨hn, hr⟩
    exact Safe.ite (fun _ => (hr8Flags_safe h hn (by omega)).bind fun out hn => tail out hn) fun _ => tail out hn
  · refine (Safe.wr hn (by omega)).bind fun out hn => ?_
    have tail : ∀ out : List Byte, out.length = n → Safe (OutOk n) (do
        let out ← blit out 1 (ubit2pbit HR_BYTES dd)
        let out ← if !tw then do
            let pl ← slice out 1 HR_BYTES
            blit out 1 (K.hrSidReset pl)
          else .ok out
        .ok ((HR_RFC5993 : Int), out)) := by
      intro out hn
      refine (Safe.blit hn (by simp [HR_BYTES]; omega)).bind fun out hn => ?_
      dsimp only
      refine Safe.ite (fun _ => ?_) fun _ => Safe.ok ⟨hn, hr⟩
      refine (Safe.slice (by simp only [HR_BYTES]; omega)).bind fun pl hpl => ?_
      exact (Safe.blit hn (by rw [hK, hpl]; simp only [HR_BYTES]; omega)).bind fun out hn => Safe.ok ⟨hn, hr⟩
    exact Safe.ite (fun _ => (hr8Flags_safe h hn (by omega)).bind fun out hn => tail out hn) fun _ => tail out hn
  · refine Safe.ite (fun _ => Safe.ok ⟨hn, by simp⟩) fun _ => ?_
    refine (Safe.wr hn (by omega)).bind fun out hn => ?_
    refine (hr8Flags_safe h hn (by omega)).bind fun out hn => ?_
    exact Safe.ite (fun _ => (orByte_safe hn (by omega)).bind fun out hn => Safe.ok ⟨hn, by dsimp only; omega⟩)
      fun _ => Safe.ok ⟨hn, by dsimp only; omega⟩
  · refine Safe.ite (fun _ => Safe.ok ⟨hn, by simp⟩) fun _ => ?_
    refine (Safe.wr hn (by omega)).bind fun out hn => ?_
    refine (hr8Flags_safe h hn (by omega)).bind fun out hn => ?_
    have tail : ∀ out : List Byte, out.length = n → Safe (OutOk n) (do
        let out ← blit out 1 (ubit2pbit HR_BYTES dd)
        .ok ((HR_RFC5993 : Int), out)) := fun out hn =>
      (Safe.blit hn (by simp [HR_BYTES]; omega)).bind fun out hn => Safe.ok ⟨hn, hr⟩
    exact Safe.ite (fun _ => (orByte_safe hn (by omega)).bind fun out hn => tail out hn) fun _ => tail out hn
  · exact hr8Bad_safe h hn (by omega) _

/-- an exact result gives safety -/
theorem safe_of_eq {n : Nat} {x : M (Int × List Byte)} {r : Int} {o : List Byte} (h : x = .ok (r, o)) (ho : o.length = n) (hr : r ≤ n) :
    Safe (OutOk n) x := ⟨_, h, ho, hr⟩

theorem trau2rtp_data_safe (K : Codec) (st : State) {tf : Frame} (h : tf.WF)
    (ht : tf.type = .data ∨ tf.type = .dataHr ∨ tf.type = .data8 ∨ tf.type = .edata) (out : List Byte) :
    Safe (OutOk out.length) (trau2rtp K st out tf) := by
  by_cases ho : 160 ≤ out.length
  · have fin : ∀ {pl : List Byte}, pl.length = 160 → trau2rtp K st out tf = .ok (160, pl ++ out.drop 160) →
        Safe (OutOk out.length) (trau2rtp K st out tf) := fun hp h1 => safe_of_eq h1 (by simp [hp]; omega) (by omega)
    rcases ht with ht | ht | ht | ht
    · obtain ⟨c6, hc6⟩ := get_some (l := tf.c) (i := 5) (by rw [h.c]; decide)
      cases c6
      · obtain ⟨pl, h1, h2⟩ := C35_trau2rtp_data8 K st h ht hc6 ho
        exact fin h1.len h2
      · obtain ⟨pl, h1, h2⟩ := C35_trau2rtp_data16 K st h ht hc6 ho
        exact fin h1.len h2
    · obtain ⟨pl, h1, h2⟩ := C35_trau2rtp_hr K st h (.inl ht) ho
      exact fin h1.len h2
    · obtain ⟨pl, h1, h2⟩ := C35_trau2rtp_hr K st h (.inr ht) ho
      exact fin h1.len h2
    · obtain ⟨pl, tf', h1, h2, _⟩ := C35_edata_roundtrip K st ⟨.edata, false, false, false⟩ rfl h h ht ho
      exact fin h1 h2
  · refine safe_of_eq (r := -ENOSPC) (o := out) ?_ rfl (by simp [ENOSPC])
    have ho : out.length < PLEN := by simp only [PLEN]; omega
    unfold trau2rtp
    rcases ht with ht | ht | ht | ht <;> rw [ht] <;> dsimp only
    · unfold trau2rtpDataFr; rw [if_neg (by rw [ht]; simp), if_pos ho]
    · unfold trau2rtpDataHr; rw [if_neg (by rw [ht]; simp), if_pos ho]
    · unfold trau2rtpDataHr; rw [if_neg (by rw [ht]; simp), if_pos ho]
    · unfold trau2rtpEdata; rw [if_neg (by rw [ht]; simp), if_pos ho]

/-- **C71 (TRAU → RTP)** For every frame, every output buffer of whatever size and every configuration the conversion returns
without an access outside the buffer or the frame, and the length it returns fits into the buffer. -/
theorem C71_trau2rtp_safe (K : Codec) (hK : K.Sane) (st : State) {tf : Frame} (h : tf.WF) (out : List Byte) :
    ∃ rc out', trau2rtp K st out tf = .ok (rc, out') ∧ out'.length = out.length ∧ rc ≤ out.length := by
  have key : Safe (OutOk out.length) (trau2rtp K st out tf) := by
    by_cases hd : tf.type = .data ∨ tf.type = .dataHr ∨ tf.type = .data8 ∨ tf.type = .edata
    · exact trau2rtp_data_safe K st h hd out
    · unfold trau2rtp
      split
      · exact trau2rtpFr_safe K h out _
      · exact trau2rtpEfr_safe K h out _
      · exact trau2rtpHr16_safe K hK h out _
      · rename_i e; exact absurd (.inl e) hd
      · rename_i e; exact absurd (.inr (.inl e)) hd
      · rename_i e; exact absurd (.inr (.inr (.inr e))) hd
      · exact trau2rtpHr8_safe K hK h out _
      · rename_i e; exact absurd (.inr (.inr (.inl e))) hd
      · exact Safe.ok ⟨rfl, by simp [EINVAL]⟩
  obtain ⟨⟨rc, out'⟩, h1, h2, h3⟩ := key
  exact ⟨rc, out', h1, h2, h3⟩


/-- what is said about the result of RTP → TRAU -/
def FrOk (tf : Frame) (r : Int × Frame) : Prop :=
  r.2.WF ∧ r.2.dir = tf.dir ∧ (r.1 = 0 ∨ r.1 < 0 ∧ r.2 = tf)

theorem frOk_err {tf : Frame} (h : tf.WF) {rc : Int} (hr : rc < 0) : Safe (FrOk tf) (.ok (rc, tf)) :=
  Safe.ok ⟨h, rfl, .inr ⟨hr, rfl⟩⟩

theorem rtp2trauFr_safe (K : Codec) {tf : Frame} (h : tf.WF) (data : List Byte) : Safe (FrOk tf) (rtp2trauFr K tf data) := by
  unfold rtp2trauFr
  obtain ⟨dtxd, bfi, taf, data⟩ := stripTwts001 data
  dsimp only
  have tail : ∀ x : Byte, Safe (FrOk tf) (if data.length ≠ FR_BYTES ∧ data.length ≠ 0 then .ok (-EINVAL, tf)
      else if x &&& 0xF0 ≠ 0xD0 then .ok (-EINVAL, tf)
      else do
        let nodata := data.length = 0
        let bfi := bfi || nodata
        let c ← setC5 tf.c (match tf.dir with
          | .ul => [false, false, false, true, false]
          | .dl => if nodata then [false, true, true, true, false] else [true, true, true, false, false])
        let c ← blit c 5 (List.replicate 6 false)
        let c ← match tf.dir with
          | .ul => do
            let c ← wr c 11 bfi
            let sidc := if nodata then 0 else K.frSidClassify data
            let c ← wr c 12 (sidc / 2 % 2 == 1)
            let c ← wr c 13 (sidc % 2 == 1)
            let c ← wr c 14 taf
            let c ← wr c 15 true
            wr c 16 dtxd
          | .dl => do
            let c ← blit c 11 (List.replicate 4 true)
            let c ← wr c 15 (!(!nodata && K.frCheckSid data))
            wr c 16 true
        let c ← blit c 17 (List.replicate 4 true)
        let t ← blit tf.t 0 (List.replicate 4 true)
        if nodata then do
          let d ← blit tf.d 0 (List.replicate 260 true)
          .ok (0, { tf with type := .fr, c := c, t := t, d := d })
        else do
          let ps ← frPairs
          let d ← getPbits data tf.d ps
          .ok (0, { tf with type := .fr, c := c, t := t, d := d })) := by
    intro x
    refine Safe.ite (fun _ => frOk_err h (by simp [EINVAL])) fun hl => ?_
    refine Safe.ite (fun _ => frOk_err h (by simp [EINVAL])) fun _ => ?_
    dsimp only
    have fin : ∀ {c t d : List Bool}, c.length = 25 → t.length = 4 → d.length = 288 →
        Safe (FrOk tf) (.ok (0, { tf with type := .fr, c := c, t := t, d := d })) :=
      fun hc ht hd => Safe.ok ⟨⟨hc, hd, ht, h.s, h.m, h.crc, h.xc⟩, rfl, .inl rfl⟩
    have tail2 : ∀ c : List Bool, c.length = 25 → Safe (FrOk tf) (do
        let c ← blit c 17 (List.replicate 4 true)
        let t ← blit tf.t 0 (List.replicate 4 true)
        if data.length = 0 then do
          let d ← blit tf.d 0 (List.replicate 260 true)
          .ok (0, { tf with type := .fr, c := c, t := t, d := d })
        else do
          let ps ← frPairs
          let d ← getPbits data tf.d ps
          .ok (0, { tf with type := .fr, c := c, t := t, d := d })) := by
      intro c hc
      refine (Safe.blit hc (by simp)).bind fun c hc => ?_
      refine (Safe.blit h.t (by simp)).bind fun t ht => ?_
      refine Safe.ite (fun _ => ?_) fun h0 => ?_
      · exact (Safe.blit h.d (by simp)).bind fun d hd => fin hc ht hd
      · have hl : data.length = 33 := by
          apply Decidable.byContradiction
          intro hne
          exact hl ⟨hne, h0⟩
        refine frPairs_safe.bind fun ps hps => ?_
        exact (getPbits_safe h.d (fun q hq => by have := hps q hq; omega)).bind fun d hd => fin hc ht hd
    unfold setC5
    refine Safe.bind (P := Len 25) ?_ fun c hc => ?_
    · refine Safe.blit h.c ?_
      split
      · simp
      · split <;> simp
    refine (Safe.blit hc (by simp)).bind fun c hc => ?_
    generalize hdir : tf.dir = dir at *
    cases dir <;> dsimp only
    · refine (Safe.wr hc (by decide)).bind fun c hc => ?_
      refine (Safe.wr hc (by decide)).bind fun c hc => ?_
      refine (Safe.wr hc (by decide)).bind fun c hc => ?_
      refine (Safe.wr hc (by decide)).bind fun c hc => ?_
      refine (Safe.wr hc (by decide)).bind fun c hc => ?_
      refine (Safe.wr hc (by decide)).bind fun c hc => ?_
      exact tail2 c hc
    · refine (Safe.blit hc (by simp)).bind fun c hc => ?_
      refine (Safe.wr hc (by decide)).bind fun c hc => ?_
      refine (Safe.wr hc (by decide)).bind fun c hc => ?_
      exact tail2 c hc
  refine Safe.ite (fun hl => ?_) fun _ => tail _
  exact (Safe.rd (by rw [hl]; decide)).bind fun x _ => tail x

theorem efrBlockIn_safe {data : List Byte} {d : List Bool} {ps : List (Nat × Nat)} {par : List Bool → M (List Bool)} {c : Nat}
    (hd : d.length = 288) (hps : ∀ q ∈ ps, q.1 / 8 < data.length ∧ q.2 < 288)
    (hp : ∀ d : List Bool, d.length = 288 → Safe (fun _ => True) (par d)) (hc : c + 3 ≤ 288) :
    Safe (Len 288) (efrBlockIn data d ps par c) := by
  refine (getPbits_safe hd hps).bind fun d hd => ?_
  refine (hp d hd).bind fun l _ => ?_
  exact Safe.blit hd (by simpa [crc3] using hc)

theorem efrIn_safe {data : List Byte} {d : List Bool} (hl : data.length = 31) (hd : d.length = 288) :
    Safe (Len 288) (efrIn data d) := by
  have sp : ∀ {i j m : Nat}, i + m ≤ 288 → j + m ≤ 248 → ∀ q ∈ span i j m, q.1 / 8 < data.length ∧ q.2 < 288 := by
    intro i j m hi hj q hq
    have := span_mem hq
    omega
  unfold efrIn
  refine (Safe.wr hd (by decide)).bind fun d hd => ?_
  refine (efrBlockIn_safe hd (sp (by decide) (by decide)) (fun d hd => (parity_safe hd).1) (by decide)).bind fun d hd => ?_
  refine (efrBlockIn_safe hd (sp (by decide) (by decide)) (fun d hd => (parity_safe hd).2.1) (by decide)).bind fun d hd => ?_
  refine (efrBlockIn_safe hd (sp (by decide) (by decide)) (fun d hd => (parity_safe hd).2.2.1) (by decide)).bind fun d hd => ?_
  refine (efrBlockIn_safe hd (sp (by decide) (by decide)) (fun d hd => (parity_safe hd).2.2.2.1) (by decide)).bind fun d hd => ?_
  exact efrBlockIn_safe hd (sp (by decide) (by decide)) (fun d hd => (parity_safe hd).2.2.2.2) (by decide)

theorem rtp2trauEfr_safe (K : Codec) {tf : Frame} (h : tf.WF) (data : List Byte) : Safe (FrOk tf) (rtp2trauEfr K tf data) := by
  unfold rtp2trauEfr
  obtain ⟨dtxd, bfi, taf, data⟩ := stripTwts001 data
  dsimp only
  have tail : ∀ x : Byte, Safe (FrOk tf) (if data.length ≠ EFR_BYTES ∧ data.length ≠ 0 then .ok (-EINVAL, tf)
      else if x &&& 0xF0 ≠ 0xC0 then .ok (-EINVAL, tf)
      else do
        let nodata := data.length = 0
        let bfi := bfi || nodata
        let c ← setC5 tf.c (if nodata ∧ tf.dir = .dl then [false, true, true, true, false]
          else [true, true, false, true, false])
        let c ← blit c 5 (List.replicate 6 false)
        let c ← match tf.dir with
          | .ul => do
            let c ← wr c 11 bfi
            let sidc := if nodata then 0 else K.efrSidClassify data
            let c ← wr c 12 (sidc / 2 % 2 == 1)
            let c ← wr c 13 (sidc % 2 == 1)
            let c ← wr c 14 taf
            let c ← wr c 15 true
            wr c 16 dtxd
          | .dl => do
            let c ← wr c 11 true
            let c ← blit c 12 (List.replicate 3 true)
            let c ← wr c 15 (!(!nodata && K.efrCheckSid data))
            wr c 16 true
        let c ← blit c 17 (List.replicate 4 true)
        let t ← blit tf.t 0 (List.replicate 4 true)
        if nodata then do
          let d ← blit tf.d 0 (List.replicate 260 true)
          .ok (0, { tf with type := .efr, c := c, t := t, d := d })
        else do
          let d ← efrIn data tf.d
          .ok (0, { tf with type := .efr, c := c, t := t, d := d })) := by
    intro x
    refine Safe.ite (fun _ => frOk_err h (by simp [EINVAL])) fun hl => ?_
    refine Safe.ite (fun _ => frOk_err h (by simp [EINVAL])) fun _ => ?_
    dsimp only
    have fin : ∀ {c t d : List Bool}, c.length = 25 → t.length = 4 → d.length = 288 →
        Safe (FrOk tf) (.ok (0, { tf with type := .efr, c := c, t := t, d := d })) :=
      fun hc ht hd => Safe.ok ⟨⟨hc, hd, ht, h.s, h.m, h.crc, h.xc⟩, rfl, .inl rfl⟩
    have tail2 : ∀ c : List Bool, c.length = 25 → Safe (FrOk tf) (do
        let c ← blit c 17 (List.replicate 4 true)
        let t ← blit tf.t 0 (List.replicate 4 true)
        if data.length = 0 then do
          let d ← blit tf.d 0 (List.replicate 260 true)
          .ok (0, { tf with type := .efr, c := c, t := t, d := d })
        else do
          let d ← efrIn data tf.d
          .ok (0, { tf with type := .efr, c := c, t := t, d := d })) := by
      intro c hc
      refine (Safe.blit hc (by simp)).bind fun c hc => ?_
      refine (Safe.blit h.t (by simp)).bind fun t ht => ?_
      refine Safe.ite (fun _ => ?_) fun h0 => ?_
      · exact (Safe.blit h.d (by simp)).bind fun d hd => fin hc ht hd
      · have hl : data.length = 31 := by
          apply Decidable.byContradiction
          intro hne
          exact hl ⟨hne, h0⟩
        exact (efrIn_safe hl h.d).bind fun d hd => fin hc ht hd
    unfold setC5
    refine Safe.bind (P := Len 25) ?_ fun c hc => ?_
    · refine Safe.blit h.c ?_
      split <;> simp
    refine (Safe.blit hc (by simp)).bind fun c hc => ?_
    generalize hdir : tf.dir = dir at *
    cases dir <;> dsimp only
    · refine (Safe.wr hc (by decide)).bind fun c hc => ?_
      refine (Safe.wr hc (by decide)).bind fun c hc => ?_
      refine (Safe.wr hc (by decide)).bind fun c hc => ?_
      refine (Safe.wr hc (by decide)).bind fun c hc => ?_
      refine (Safe.wr hc (by decide)).bind fun c hc => ?_
      refine (Safe.wr hc (by decide)).bind fun c hc => ?_
      exact tail2 c hc
    · refine (Safe.wr hc (by decide)).bind fun c hc => ?_
      refine (Safe.blit hc (by simp)).bind fun c hc => ?_
      refine (Safe.wr hc (by decide)).bind fun c hc => ?_
      refine (Safe.wr hc (by decide)).bind fun c hc => ?_
      exact tail2 c hc
  refine Safe.ite (fun hl => ?_) fun _ => tail _
  exact (Safe.rd (by rw [hl]; decide)).bind fun x _ => tail x

theorem hrPayload_len {data pl : List Byte} (h : hrPayload data = some pl) : pl.length = 14 ∨ pl.length = 0 := by
  unfold hrPayload at h
  split at h
  · rename_i e; cases h; exact .inl e
  · split at h
    · rename_i e; cases h; left; rw [List.length_drop, e]; rfl
    · split at h
      · cases h; exact .inr rfl
      · cases h

theorem hrD_safe {d : List Bool} {data : List Byte} (hd : d.length = 288) (hl : data.length = 14 ∨ data.length = 0) :
    Safe (Len 288) (hrD d data) := by
  unfold hrD
  refine Safe.ite (fun h0 => ?_) fun _ => Safe.blit hd (by simp [HR_BYTES])
  refine (Safe.slice (by simp only [HR_BYTES]; omega)).bind fun x hx => ?_
  exact Safe.blit hd (by rw [pbit2ubit_length, hx]; decide)

theorem rtp2trauHr16_safe (K : Codec) {tf : Frame} (h : tf.WF) (data : List Byte) : Safe (FrOk tf) (rtp2trauHr16 K tf data) := by
  unfold rtp2trauHr16
  split
  · exact frOk_err h (by simp [EINVAL])
  rename_i data' pl e
  have hl := hrPayload_len e
  have tail2 : ∀ c : List Bool, c.length = 25 → Safe (FrOk tf) (do
      let c ← blit c 17 (List.replicate 4 true)
      let t ← blit tf.t 0 (List.replicate 4 true)
      let d ← hrD tf.d pl
      let p ← slice d 0 44
      let crc ← blit tf.crc 0 (crc3 p)
      .ok (0, { tf with type := .hr, c := c, t := t, d := d, crc := crc, ufi := (tf.dir == .dl) })) := by
    intro c hc
    refine (Safe.blit hc (by simp)).bind fun c hc => ?_
    refine (Safe.blit h.t (by simp)).bind fun t ht => ?_
    refine (hrD_safe h.d hl).bind fun d hd => ?_
    refine (Safe.slice (by rw [hd]; decide)).bind fun p _ => ?_
    refine (Safe.blit h.crc (by simp [crc3])).bind fun crc hcrc => ?_
    exact Safe.ok ⟨⟨hc, hd, ht, h.s, h.m, hcrc, h.xc⟩, rfl, .inl rfl⟩
  unfold setC5
  refine Safe.bind (P := Len 25) ?_ fun c hc => ?_
  · refine Safe.blit h.c ?_
    split <;> simp
  refine (Safe.blit hc (by simp)).bind fun c hc => ?_
  generalize hdir : tf.dir = dir at *
  cases dir <;> dsimp only
  · refine (Safe.wr hc (by decide)).bind fun c hc => ?_
    refine (Safe.wr hc (by decide)).bind fun c hc => ?_
    refine (Safe.wr hc (by decide)).bind fun c hc => ?_
    refine (Safe.wr hc (by decide)).bind fun c hc => ?_
    refine (Safe.wr hc (by decide)).bind fun c hc => ?_
    exact tail2 c hc
  · refine (Safe.blit hc (by simp)).bind fun c hc => ?_
    refine (Safe.wr hc (by decide)).bind fun c hc => ?_
    refine (Safe.wr hc (by decide)).bind fun c hc => ?_
    exact tail2 c hc

theorem rtp2trauHr8_safe (K : Codec) {tf : Frame} (h : tf.WF) (data : List Byte) : Safe (FrOk tf) (rtp2trauHr8 K tf data) := by
  unfold rtp2trauHr8
  split
  · exact frOk_err h (by simp [EINVAL])
  rename_i data' pl e
  have hl := hrPayload_len e
  refine Safe.ite (fun _ => frOk_err h (by simp [ENOTSUP])) fun _ => ?_
  refine (Safe.blit h.c (by simp)).bind fun c hc => ?_
  refine (Safe.blit hc (by simp)).bind fun c hc => ?_
  refine Safe.bind (P := Len 6) (Safe.blit h.xc (by split <;> simp)) fun xc hxc => ?_
  refine (Safe.blit h.t (by simp)).bind fun t ht => ?_
  refine (hrD_safe h.d hl).bind fun d hd => ?_
  refine (Safe.slice (by rw [hd]; decide)).bind fun p _ => ?_
  refine (Safe.blit h.crc (by simp [crc3])).bind fun crc hcrc => ?_
  exact Safe.ok ⟨⟨hc, hd, ht, h.s, h.m, hcrc, hxc⟩, rfl, .inl rfl⟩

theorem rtp2trauEdata_safe {tf : Frame} (h : tf.WF) (data : List Byte) : Safe (FrOk tf) (rtp2trauEdata tf data) := by
  unfold rtp2trauEdata
  refine (Safe.blit h.c (by simp)).bind fun c hc => ?_
  refine (Safe.wr hc (by decide)).bind fun c hc => ?_
  refine Safe.bind (P := fun r : Option RaaPrime.Csd144 => ∀ a, r = some a → a.d.length = 288 ∧ a.m.length = 2) ?_ fun r hr => ?_
  · refine Safe.ite (fun hl => ?_) fun _ => Safe.ok (by intro a ha; cases ha)
    rcases Raa.C05_atrau_ra2_decode_safe data hl with e | ⟨r, e, h1, h2⟩
    · rw [e]; exact Safe.ok (by intro a ha; cases ha)
    · rw [e]; exact Safe.ok (by intro a ha; cases ha; exact ⟨h1, h2⟩)
  cases r with
  | none =>
    refine (Safe.blit h.m (by simp)).bind fun m hm => ?_
    refine (Safe.blit h.d (by simp)).bind fun d hd => ?_
    refine (Safe.wr hc (by decide)).bind fun c hc => ?_
    exact Safe.ok ⟨⟨hc, hd, h.t, h.s, hm, h.crc, h.xc⟩, rfl, .inl rfl⟩
  | some a =>
    obtain ⟨h1, h2⟩ := hr a rfl
    refine (Safe.wr hc (by decide)).bind fun c hc => ?_
    refine (Safe.blit h.m (by rw [h2]; decide)).bind fun m hm => ?_
    refine (Safe.blit h.d (by rw [h1]; decide)).bind fun d hd => ?_
    exact Safe.ok ⟨⟨hc, hd, h.t, h.s, hm, h.crc, h.xc⟩, rfl, .inl rfl⟩

/-- **C71 (RTP → TRAU)** For every payload of whatever length and contents, every state of the frame and every configuration the
conversion returns without an access outside its arguments; the frame keeps its direction, and if the payload is refused (negative
return value) the frame is unchanged. -/
theorem C71_rtp2trau_safe (K : Codec) (st : State) {tf : Frame} (h : tf.WF) (data : List Byte) :
    ∃ rc tf', rtp2trau K st tf data = .ok (rc, tf') ∧ tf'.WF ∧ tf'.dir = tf.dir ∧ (rc = 0 ∨ rc < 0 ∧ tf' = tf) := by
  have ex : ∀ {tf' : Frame}, rtp2trau K st tf data = .ok (0, tf') → tf'.WF → tf'.dir = tf.dir →
      Safe (FrOk tf) (rtp2trau K st tf data) := fun h1 h2 h3 => ⟨_, h1, h2, h3, .inl rfl⟩
  have key : Safe (FrOk tf) (rtp2trau K st tf data) := by
    by_cases h1 : st.type = .data
    · cases h2 : st.interm16k
      · obtain ⟨tf', e, hw, _, hd, _⟩ := C35_rtp2trau_data8 K st h1 h2 h data
        exact ex e hw hd
      · obtain ⟨tf', e, hw, _, hd, _⟩ := C35_rtp2trau_data16 K st h1 h2 h data
        exact ex e hw hd
    by_cases h1' : st.type = .dataHr ∨ st.type = .data8
    · obtain ⟨tf', e, hw, _, hd, _⟩ := C35_rtp2trau_hr K st h1' h data
      exact ex e hw hd
    unfold rtp2trau
    split
    · exact rtp2trauFr_safe K h data
    · exact rtp2trauEfr_safe K h data
    · exact rtp2trauHr16_safe K h data
    · rename_i e; exact absurd e h1
    · rename_i e; exact absurd (.inl e) h1'
    · exact rtp2trauEdata_safe h data
    · exact rtp2trauHr8_safe K h data
    · rename_i e; exact absurd (.inr e) h1'
    · exact frOk_err h (by simp [EINVAL])
  obtain ⟨⟨rc, tf'⟩, h1, h2, h3, h4⟩ := key
  exact ⟨rc, tf', h1, h2, h3, h4⟩

end Verif.RtpConv
