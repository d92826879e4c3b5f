import Verif.Spec.Gateway
import Verif.Props.TrauClass
import Verif.Props.TrauFrame
import Verif.Props.RtpSafe
import Verif.Props.RtpE2e
import Verif.Props.RtpFr
import Verif.Props.RtpEfr
/-!
# Proofs about the TRAU/RTP gateway
-/
namespace Verif.Gw
open Verif Verif.Trau Verif.RtpConv Verif.Spec.Trau Verif.Spec.Rtp Verif.Gw.Spec
open Verif.OldTrau (getBits)
open Verif.RaaPrime (bind_ok bind_err)
set_option maxRecDepth 10000

/-! ### full rate and enhanced full rate frames -/

theorem fr_sym (ty : FT) (dir : Dir) (ta : Int) (c d t s m crc xc b : Nat → Bool) (u : Bool) :
    (do let r ← decode16Fr (SF ty dir ta c d t s m u crc xc) (L 320 b)
        .ok (r.d.take 260, r.c.take 21, r.t)) =
      (.ok (dBits (L 320 b), cBits (L 320 b), tBits (L 320 b)) : M _) := by kernel_rfl

theorem dBits_take {w : List Bool} {n : Nat} (h : 310 ≤ n) : dBits (w.take n) = dBits w := by
  have e : ∀ a b, a + b ≤ 310 → ((w.take n).drop a).take b = (w.drop a).take b := by
    intro a b hab
    apply List.ext_getElem?
    intro i
    simp only [List.getElem?_take, List.getElem?_drop]
    by_cases hi : i < b
    · rw [if_pos hi, if_pos hi, if_pos (by omega)]
    · rw [if_neg hi, if_neg hi]
  unfold dBits
  rw [e _ _ (by omega)]
  congr 1
  rw [List.flatMap_def, List.flatMap_def]
  congr 1
  apply List.map_congr_left
  intro k hk
  have := List.mem_range.1 hk
  exact e _ _ (by omega)

theorem sub_take {w : List Bool} {n a b : Nat} (h : a + b ≤ n) : ((w.take n).drop a).take b = (w.drop a).take b := by
  apply List.ext_getElem?
  intro i
  simp only [List.getElem?_take, List.getElem?_drop]
  by_cases hi : i < b
  · rw [if_pos hi, if_pos hi, if_pos (by omega)]
  · rw [if_neg hi, if_neg hi]

/-- the control and data bits of a full rate frame, whatever was in the structure before -/
theorem fr_decode {f : Frame} {w : List Bool} (hf : f.WF) (hw : 320 ≤ w.length) :
    ∃ f', decode16Fr f w = .ok f' ∧ f'.type = f.type ∧ f'.dir = f.dir ∧ f'.ta = f.ta ∧ f'.WF ∧ f'.d.take 260 = dBits w ∧
      f'.c.take 21 = cBits w ∧ f'.t = tBits w := by
  obtain ⟨f', h1, h2, h3, h4, h5⟩ := dsafe_fr f (w.take 320) hf (by simp; omega)
  have hl := rlocal_fr f _ (w.drop 320) _ h1
  rw [List.take_append_drop] at hl
  refine ⟨f', hl, h2, h3, h4, h5, ?_⟩
  obtain ⟨b, hb⟩ := exists_L' (l := w.take 320) (n := 320) (by simp; omega)
  obtain ⟨c, d, t, s, m, crc, xc, h0⟩ := exists_SF hf
  have := fr_sym f.type f.dir f.ta c d t s m crc xc b f.ufi
  rw [← h0, ← hb, h1, bind_ok] at this
  have := Except.ok.inj this
  simp only [Prod.mk.injEq] at this
  obtain ⟨a1, a2, a3⟩ := this
  rw [dBits_take (by omega)] at a1
  rw [cBits, sub_take (by omega), sub_take (by omega)] at a2
  rw [tBits, sub_take (by omega)] at a3
  exact ⟨a1, a2, a3⟩

theorem getBits_of_code {w : List Bool} {x0 x1 x2 x3 x4 : Bool} (h : cCode w = [x0, x1, x2, x3, x4]) :
    getBits w 17 5 0 = .ok (16 * x0.toNat + 8 * x1.toNat + 4 * x2.toNat + 2 * x3.toNat + x4.toNat) := by
  have g : ∀ i x, i < 5 → ([x0, x1, x2, x3, x4] : List Bool)[i]? = some x → w[17 + i]? = some x := by
    intro i x hi hx
    have := congrArg (·[i]?) h
    simp only [cCode, List.getElem?_take, List.getElem?_drop, if_pos hi] at this
    rw [this, hx]
  have r : ∀ i x, i < 5 → ([x0, x1, x2, x3, x4] : List Bool)[i]? = some x → rd w (17 + i) = .ok x := by
    intro i x hi hx
    simp only [rd, g i x hi hx]
  have e0 := r 0 x0 (by omega) rfl
  have e1 := r 1 x1 (by omega) rfl
  have e2 := r 2 x2 (by omega) rfl
  have e3 := r 3 x3 (by omega) rfl
  have e4 := r 4 x4 (by omega) rfl
  simp only [Nat.add_zero, Nat.reduceAdd] at e0 e1 e2 e3 e4
  simp only [getBits, e0, e1, e2, e3, e4, bind_ok, Nat.reduceAdd]
  congr 1
  omega

theorem decode_fr {f : Frame} {w : List Bool} {dir d : Dir} (h : cCode w = code .fr d) :
    decode16k f w dir = ret0 (decode16Fr (f.start dir .fr) w) := by
  cases d
  · rw [decode16k, getBits_of_code h, bind_ok]; rfl
  · rw [decode16k, getBits_of_code h, bind_ok]; rfl

theorem decode_efr {f : Frame} {w : List Bool} {dir : Dir} (h : cCode w = code .efr .ul) :
    decode16k f w dir = ret0 (decode16Fr (f.start dir .efr) w) := by
  rw [decode16k, getBits_of_code h, bind_ok]; rfl

theorem c12 {f : Frame} {w : List Bool} (h : f.c.take 21 = cBits w) (hw : 320 ≤ w.length) :
    f.c[11]? = w[28]? := by
  have := congrArg (·[11]?) h
  simp only [cBits, List.getElem?_take, if_pos (show 11 < 21 by omega)] at this
  rw [List.getElem?_append_left (by simp; omega), List.getElem?_take, List.getElem?_drop, if_pos (by omega)] at this
  exact this

/-- what the decoder makes of the buffer of the synchroniser -/
theorem decode_cases {f0 : Frame} {w : List Bool} (h0 : f0.WF) (hw : 321 ≤ w.length) :
    ∃ rc f, decode16k f0 w .ul = .ok (rc, f) ∧ f.WF ∧ f.ta = 0 ∧ f.dir = .ul ∧
      (rc = 0 → f.type ∈ types16) ∧
      ((rc = 0 ∧ f.type = .fr) ↔ ∃ d, cCode w = code .fr d) ∧ ((rc = 0 ∧ f.type = .efr) ↔ cCode w = code .efr .ul) ∧
      (rc = 0 → f.type = .fr ∨ f.type = .efr → f.d.take 260 = dBits w ∧ f.c.take 21 = cBits w ∧
        f.t = tBits w) := by
  obtain ⟨rc, f, h1, h2, h3, h4, h5⟩ := C29_classify f0 w .ul h0 (by omega) (fun _ => hw)
  have hfr : (∃ d, cCode w = code .fr d) → rc = 0 ∧ f.type = .fr := by
    rintro ⟨d, h⟩
    rcases h5 with ⟨e1, e2, d', e3⟩ | ⟨-, -, e⟩
    · exact ⟨e1, code_unique _ e2 _ (by decide) d' d (e3.trans h)⟩
    · exact absurd h.symm (e _ (by decide) d)
  have hefr : cCode w = code .efr .ul → rc = 0 ∧ f.type = .efr := by
    intro h
    rcases h5 with ⟨e1, e2, d', e3⟩ | ⟨-, -, e⟩
    · exact ⟨e1, code_unique _ e2 _ (by decide) d' .ul (e3.trans h)⟩
    · exact absurd h.symm (e _ (by decide) .ul)
  have hfr' : rc = 0 ∧ f.type = .fr → ∃ d, cCode w = code .fr d := by
    rintro ⟨e1, e2⟩
    rcases h5 with ⟨-, -, d', e3⟩ | ⟨e, -, -⟩
    · rw [e2] at e3; exact ⟨d', e3.symm⟩
    · rw [e1] at e; cases e
  have hefr' : rc = 0 ∧ f.type = .efr → cCode w = code .efr .ul := by
    rintro ⟨e1, e2⟩
    rcases h5 with ⟨-, -, d', e3⟩ | ⟨e, -, -⟩
    · rw [e2] at e3; exact e3.symm
    · rw [e1] at e; cases e
  refine ⟨rc, f, h1, h4, h3, h2, ?_, ⟨hfr', hfr⟩, ⟨hefr', hefr⟩, ?_⟩
  · intro e
    rcases h5 with ⟨-, e2, -⟩ | ⟨e', -, -⟩
    · exact e2
    · rw [e] at e'; cases e'
  · rintro e (ht | ht)
    · obtain ⟨d, hc⟩ := hfr' ⟨e, ht⟩
      rw [decode_fr hc] at h1
      obtain ⟨f', a1, -, -, -, -, a⟩ := fr_decode (WF.start h0 .ul .fr) (w := w) (by omega)
      rw [a1] at h1
      cases h1
      exact a
    · have hc := hefr' ⟨e, ht⟩
      rw [decode_efr hc] at h1
      obtain ⟨f', a1, -, -, -, -, a⟩ := fr_decode (WF.start h0 .ul .efr) (w := w) (by omega)
      rw [a1] at h1
      cases h1
      exact a

/-! ### conversion to RTP -/

theorem dBits_length {w : List Bool} (h : 310 ≤ w.length) : (dBits w).length = 260 := by
  have hr : ∀ k ∈ List.range 17, ((w.drop (33 + 16 * k)).take 15).length = 15 := by
    intro k hk
    have := List.mem_range.1 hk
    simp; omega
  unfold dBits
  rw [List.length_append, List.length_flatMap, List.map_congr_left hr, show ((List.range 17).map (fun _ => 15)).sum = 255 by decide, List.length_take, List.length_drop]
  omega

theorem checks_d {f : Frame} {w : List Bool} (hw : 310 ≤ w.length) (h : f.d.take 260 = dBits w) : EfrChecksOk f.d ↔ EfrChecksOk (dBits w) := by
  have e : f.d.take 260 = (dBits w).take 260 := by
    rw [List.take_of_length_le (l := dBits w) (by rw [dBits_length hw]; omega)]; exact h
  exact ⟨efrChecks_take _ _ e, efrChecks_take _ _ e.symm⟩

theorem speech_d {f : Frame} {w : List Bool} (hw : 310 ≤ w.length) (h : f.d.take 260 = dBits w) : efrSpeechBits f.d = efrSpeechBits (dBits w) := by
  apply efrSpeech_take
  rw [List.take_of_length_le (l := dBits w) (by rw [dBits_length hw]; omega)]; exact h

/-- the state line 135 sets up -/
def rtpState (ty : FT) : State := { type := ty, twts001 := false, twts002 := false, interm16k := false }

/-- the conversion of a decoded frame: what is to be sent, or nothing -/
theorem toRtp_cases (K : Codec) {f0 f : Frame} {w : List Bool} (h0 : f0.WF) (hw : 321 ≤ w.length)
    (hd : decode16k f0 w .ul = .ok (0, f)) (ht : f.type = .fr ∨ f.type = .efr) :
    (∃ pl : List Byte, Sends w pl ∧ (pl.length = 33 ∨ pl.length = 31) ∧
      trau2rtp K (rtpState f.type) (List.replicate 35 0) f = .ok (pl.length, pl ++ (List.replicate 35 0).drop pl.length)) ∨
    ((∀ pl, ¬ Sends w pl) ∧ ∃ out, trau2rtp K (rtpState f.type) (List.replicate 35 0) f = .ok (0, out)) := by
  obtain ⟨rc, f', g1, g2, g3, g4, g5, g6, g7, g8⟩ := decode_cases h0 hw
  rw [hd] at g1
  cases g1
  obtain ⟨d1, d2, -⟩ := g8 rfl ht
  have hc := c12 d2 (by omega)
  have hlen : w[28]? = some w[28] := List.getElem?_eq_getElem (by omega)
  rw [hlen] at hc
  have nfr : f.type ≠ .fr → ∀ d, cCode w ≠ code .fr d := fun h d e => h (g6.2 ⟨d, e⟩).2
  have nefr : f.type ≠ .efr → cCode w ≠ code .efr .ul := fun h e => h (g7.2 e).2
  cases hb : w[28] with
  | true =>
    rw [hb] at hc hlen
    refine .inr ⟨?_, ?_⟩
    · intro pl hs
      cases hs with
      | fr d a b c => rw [hlen] at b; cases b
      | efr a b c => rw [hlen] at b; cases b
    · rcases ht with ht | ht
      · exact ⟨_, C32_bad_frame K _ rfl ht hc (by decide)⟩
      · exact ⟨_, C33_bad_frame K _ rfl ht hc (by decide)⟩
  | false =>
    rw [hb] at hc hlen
    rcases ht with ht | ht
    · obtain ⟨pl, p1, p2⟩ := C32_trau2rtp K (rtpState f.type) rfl g2 ht hc (out := List.replicate 35 0) (by decide)
      obtain ⟨d, hcode⟩ := g6.1 ⟨rfl, ht⟩
      rw [d1] at p1
      refine .inl ⟨pl, .fr d hcode hlen p1, .inl p1.len, ?_⟩
      rw [p2, p1.len]
      rfl
    · obtain ⟨p1, p2⟩ := C33_trau2rtp K (rtpState f.type) rfl g2 ht hc (out := List.replicate 35 0) (by decide)
      have hcode := g7.1 ⟨rfl, ht⟩
      rw [checks_d (by omega) d1, speech_d (by omega) d1] at p1
      rw [checks_d (by omega) d1] at p2
      by_cases hk : EfrChecksOk (dBits w)
      · obtain ⟨pl, q1, q2⟩ := p1 hk
        refine .inl ⟨pl, .efr hcode hlen hk q1, .inr q1.len, ?_⟩
        rw [q2, q1.len]
        rfl
      · obtain ⟨mid, -, q⟩ := p2 hk
        refine .inr ⟨?_, _, q⟩
        intro pl hs
        cases hs with
        | fr d a b c => exact nfr (by rw [ht]; decide) d a
        | efr a b c => exact hk c

/-- a frame that is not converted at all -/
theorem no_sends {f0 f : Frame} {w : List Bool} {rc : Int} (h0 : f0.WF) (hw : 321 ≤ w.length)
    (hd : decode16k f0 w .ul = .ok (rc, f)) (ht : rc ≠ 0 ∨ f.type ≠ .fr ∧ f.type ≠ .efr) : ∀ pl, ¬ Sends w pl := by
  obtain ⟨rc, f', g1, g2, g3, g4, g5, g6, g7, g8⟩ := decode_cases h0 hw
  rw [hd] at g1
  cases g1
  intro pl hs
  cases hs with
  | fr d a b c => 
    obtain ⟨e1, e2⟩ := g6.2 ⟨d, a⟩
    rcases ht with h | h
    · exact h e1
    · exact h.1 e2
  | efr a b c =>
    obtain ⟨e1, e2⟩ := g7.2 a
    rcases ht with h | h
    · exact h e1
    · exact h.2 e2

/-! ### the state -/

/-- an action of an RTP socket that sends a packet -/
def isSend : Ortp.Act → Bool
  | .send _ _ _ => true
  | _ => false

theorem sentOf_append (n : Nat) : ∀ a b : List Act, sentOf n (a ++ b) = sentOf n a ++ sentOf n b
  | [], b => rfl
  | .enq m x :: a, b => by
    have e1 : sentOf n ((Act.enq m x :: a) ++ b) = sentOf n (a ++ b) := rfl
    have e2 : sentOf n (Act.enq m x :: a) = sentOf n a := rfl
    rw [e1, e2, sentOf_append n a b]
  | .rtp m (.send ts mk pl) :: a, b => by
    simp only [List.cons_append, sentOf]
    rw [sentOf_append n a b]
    split <;> rfl
  | .rtp m (.query ts) :: a, b => by
    have e1 : sentOf n ((Act.rtp m (.query ts) :: a) ++ b) = sentOf n (a ++ b) := rfl
    have e2 : sentOf n (Act.rtp m (.query ts) :: a) = sentOf n a := rfl
    rw [e1, e2, sentOf_append n a b]
  | .rtp m (.rx p q r s) :: a, b => by
    have e1 : sentOf n ((Act.rtp m (.rx p q r s) :: a) ++ b) = sentOf n (a ++ b) := rfl
    have e2 : sentOf n (Act.rtp m (.rx p q r s) :: a) = sentOf n a := rfl
    rw [e1, e2, sentOf_append n a b]
  | .rtp m .closed :: a, b => by
    have e1 : sentOf n ((Act.rtp m .closed :: a) ++ b) = sentOf n (a ++ b) := rfl
    have e2 : sentOf n (Act.rtp m .closed :: a) = sentOf n a := rfl
    rw [e1, e2, sentOf_append n a b]

theorem enqOf_append (n : Nat) : ∀ a b : List Act, enqOf n (a ++ b) = enqOf n a ++ enqOf n b
  | [], b => rfl
  | .rtp m x :: a, b => by
    have e1 : enqOf n ((Act.rtp m x :: a) ++ b) = enqOf n (a ++ b) := rfl
    have e2 : enqOf n (Act.rtp m x :: a) = enqOf n a := rfl
    rw [e1, e2, enqOf_append n a b]
  | .enq m x :: a, b => by
    simp only [List.cons_append, enqOf]
    rw [enqOf_append n a b]
    split <;> rfl

theorem sub_set (g : G) (n m : Nat) (s : Sub) (hn : n = 1 ∨ n = 2) (hm : m = 1 ∨ m = 2) : (g.set n s).sub m = if m = n then s else g.sub m := by
  rcases hn with rfl | rfl <;> rcases hm with rfl | rfl <;> rfl

theorem set_loop (g : G) (n : Nat) (s : Sub) : (g.set n s).loop = g.loop := by
  unfold G.set; split <;> rfl

/-- both sockets are enabled and have the callback -/
def Good (g : G) : Prop := ∀ n, n = 1 ∨ n = 2 → (g.sub n).rs.disabled = false ∧ (g.sub n).rs.hasCb = true

theorem Good.set {g : G} (h : Good g) {n : Nat} (hn : n = 1 ∨ n = 2) {s : Sub} (h1 : s.rs.disabled = false) (h2 : s.rs.hasCb = true) : Good (g.set n s) := by
  intro m hm
  rw [sub_set g n m s hn hm]
  split
  · exact ⟨h1, h2⟩
  · exact h m hm

theorem init_good (loop : Bool) (r1 r2 : BitVec 32) : ∃ g, init loop r1 r2 true true = .ok g ∧ Good g ∧ g.loop = loop ∧
    (g.sub 1).rs.txTs = r1 ∧ (g.sub 2).rs.txTs = r2 := by
  refine ⟨_, rfl, ?_, rfl, rfl, rfl⟩
  rintro n (rfl | rfl) <;> exact ⟨rfl, rfl⟩

/-! ### encoding -/

theorem encode_msg {f : Frame} {buf : List Bool} (hf : f.WF) (hb : buf.length = 640) (hta : f.ta = 0) (ht : f.type ∈ types16) :
    ∃ e, encode buf f = .ok (320, e) ∧ encodeMsg buf f = .ok (e.take 320) ∧ (e.take 320).length = 320 := by
  have hok : TaOk f := by unfold TaOk; omega
  have hall : f.type ∈ allTypes := by
    revert ht; cases f.type <;> simp [types16, allTypes]
  have hmin : minBits f.type ≤ buf.length := by
    rw [hb]; revert ht; cases f.type <;> simp [types16, minBits]
  obtain ⟨rc, e, h1, h2, -, -, h5⟩ := C27_encode_buffer f buf hf hok
  have key : rc = 320 := by
    by_cases h4 : f.type ∈ taTypes16
    · have hm : minBits f.type = 639 := by revert h4; cases f.type <;> simp [taTypes16, minBits]
      cases hd : f.dir with
      | ul =>
        obtain ⟨e', q, -⟩ := C28_ta16_uplink f buf hf h4 hok (by omega) hd
        rw [h1] at q; cases q; rfl
      | dl =>
        obtain ⟨rc', e', q, q2, -⟩ := C28_ta16_partial f buf hf h4 hok (by omega) hd (by rw [hta]; decide)
        rw [h1] at q; cases q
        rw [q2, hta]; decide
    · rw [encode] at h1
      have hsp : encodeSpace buf.length f.type = .none := by
        rw [hb]
        revert ht h4; cases f.type <;> simp [types16, taTypes16, encodeSpace]
      rw [hsp] at h1
      have fl : ∀ {r : M (List Bool)}, fixedLen (40 * 8) r = .ok (rc, e) → rc = 320 := by
        intro r hr
        cases r with
        | error x => cases hr
        | ok b => cases hr; rfl
      simp only [encodeDispatch] at h1
      revert ht h4 h1
      cases f.type <;> simp only [types16, taTypes16, List.mem_cons, List.not_mem_nil, reduceCtorEq, or_false, or_true, true_or, or_self, not_true_eq_false,
        not_false_eq_true, false_implies, true_implies, implies_true] <;> exact fl
  subst key
  refine ⟨e, h1, ?_, by rw [List.length_take]; omega⟩
  rw [encodeMsg, h1, bind_ok]
  rfl

/-! ### the callbacks -/

theorem skipped_eq {s : Ortp.Rs} (h : s.disabled = false) : Ortp.skipped s 160 = { s with txTs := s.txTs + 160 } := by
  unfold Ortp.skipped
  exact if_neg (by rw [h]; decide)

theorem sendFrame_eq {s : Ortp.Rs} (h : s.disabled = false) (pl : List Byte) :
    Ortp.sendFrame s pl 160 false true 0 = ({ s with txTs := s.txTs + 160 }, [.send s.txTs false pl], 0) := by
  unfold Ortp.sendFrame
  exact (if_neg (by rw [h]; decide)).trans (if_neg (by decide))

theorem skipFrame_eq {g : G} (hg : Good g) {n : Nat} (hn : n = 1 ∨ n = 2) (hl : g.loop = false) :
    skipFrame g n = .ok (g.set n { g.sub n with rs := { (g.sub n).rs with txTs := (g.sub n).rs.txTs + 160 } }, []) := by
  rw [skipFrame, hl, if_neg (by decide), skipped_eq (hg n hn).1]

theorem set_self (g : G) (n : Nat) : g.set n { g.sub n with rs := (g.sub n).rs } = g := by
  unfold G.set G.sub; split <;> rfl

theorem sendFrame_none {s : Ortp.Rs} (h : s.disabled = false) (pl : List Byte) :
    Ortp.sendFrame s pl 160 false false 0 = (s, [], -12) := by
  unfold Ortp.sendFrame
  exact (if_neg (by rw [h]; decide)).trans (if_pos (by decide))

/-- the time stamp of a sub-channel advances -/
def adv (g : G) (n : Nat) : G := g.set n { g.sub n with rs := { (g.sub n).rs with txTs := (g.sub n).rs.txTs + 160 } }

/-- a frame received, in gateway mode -/
theorem frame_gw (K : Codec) {g : G} (hg : Good g) (hl : g.loop = false) {n : Nat} (hn : n = 1 ∨ n = 2) (w : Option (List Bool))
    (hw : ∀ b, w = some b → 321 ≤ b.length) {f0 : Frame} (h0 : f0.WF) (buf : List Bool) (alloc : Bool) :
    (∃ b pl, w = some b ∧ Sends b pl ∧ frameOut K g n w f0 buf alloc =
      .ok (if alloc then adv g n else g, if alloc then [.rtp n (.send (g.sub n).rs.txTs false pl)] else [])) ∨
    ((∀ b, w = some b → ∀ pl, ¬ Sends b pl) ∧ frameOut K g n w f0 buf alloc = .ok (adv g n, [])) := by
  cases w with
  | none => exact .inr ⟨fun b h => (nomatch h), skipFrame_eq hg hn hl⟩
  | some b =>
    have hb := hw b rfl
    obtain ⟨rc, f, g1, g2, -⟩ := decode_cases h0 hb
    simp only [frameOut, g1, bind_ok]
    by_cases hrc : rc ≠ 0
    · rw [if_pos hrc]
      refine .inr ⟨fun b' e => ?_, skipFrame_eq hg hn hl⟩
      cases e
      exact no_sends h0 hb g1 (.inl hrc)
    · rw [if_neg hrc, hl, if_neg (by decide)]
      have hrc : rc = 0 := by omega
      subst hrc
      by_cases ht : f.type ≠ .fr ∧ f.type ≠ .efr
      · rw [toRtp, if_pos ht]
        refine .inr ⟨fun b' e => ?_, skipFrame_eq hg hn hl⟩
        cases e
        exact no_sends h0 hb g1 (.inr ht)
      · rw [toRtp, if_neg ht]
        have ht : f.type = .fr ∨ f.type = .efr := by
          by_cases h : f.type = .fr
          · exact .inl h
          · by_cases h' : f.type = .efr
            · exact .inr h'
            · exact absurd ⟨h, h'⟩ ht
        rcases toRtp_cases K h0 hb g1 ht with ⟨pl, p1, p2, p3⟩ | ⟨p1, out, p2⟩
        · have hpos : 0 < pl.length := by omega
          have e : trau2rtp K { type := f.type, twts001 := false, twts002 := false, interm16k := false } (List.replicate 35 0) f =
              .ok ((pl.length : Int), pl ++ (List.replicate 35 0).drop pl.length) := p3
          have hs : slice (pl ++ (List.replicate 35 (0 : Byte)).drop pl.length) 0 ((pl.length : Int)).toNat = .ok pl := by
            rw [slice_ok (by simp)]
            simp
          refine .inl ⟨b, pl, rfl, p1, ?_⟩
          rw [e, bind_ok]
          simp only []
          rw [if_neg (by omega), if_pos (by omega), hs, bind_ok]
          cases alloc with
          | true => simp only [sendFrame_eq (hg n hn).1]; rfl
          | false => simp only [sendFrame_none (hg n hn).1]; rw [set_self]; rfl
        · have e : trau2rtp K { type := f.type, twts001 := false, twts002 := false, interm16k := false } (List.replicate 35 0) f = .ok (0, out) := p2
          refine .inr ⟨fun b' e => ?_, ?_⟩
          · cases e
            exact p1
          · rw [e, bind_ok]
            simp only []
            rw [if_neg (by omega), if_neg (by omega), skipped_eq (hg n hn).1]
            rfl

theorem zeroFrame_WF (ty : FT) : (zeroFrame ty).WF := ⟨rfl, rfl, rfl, rfl, rfl, rfl, rfl⟩

/-- the bits of an encoded full rate or enhanced full rate frame -/
theorem enc_fields {f : Frame} {buf : List Bool} (hf : f.WF) (hb : buf.length = 640) (hta : f.ta = 0) (ht : f.type = .fr ∨ f.type = .efr) :
    ∃ m, encodeMsg buf f = .ok m ∧ m.length = 320 ∧ Verif.Spec.IsFrame m ∧ dBits m = f.d.take 260 ∧ cBits m = code f.type f.dir ++ (f.c.take 21).drop 5 ∧ tBits m = f.t := by
  have ht16 : f.type ∈ roundTrip16 := by rcases ht with h | h <;> rw [h] <;> decide
  obtain ⟨e, h1, h2, h3⟩ := encode_msg hf hb hta (by rcases ht with h | h <;> rw [h] <;> decide)
  have hok : TaOk f := by unfold TaOk; omega
  obtain ⟨rc, e', f', q1, -, q3, q4, q5, q6, q7, q8⟩ := C23_roundtrip f (zeroFrame .none) buf hf (zeroFrame_WF _) ht16
    (by rcases ht with h | h <;> rw [h, hb] <;> decide) hok
  rw [h1] at q1
  cases q1
  have hex : ∃ d, code f.type d = cCode (e.take 320) := by
    obtain ⟨rc, f'', r1, -, -, -, r⟩ := C29_classify (zeroFrame .none) (e.take 320) f.dir (zeroFrame_WF _) (by omega) (by
      intro ho
      have := C64_oam_violated (zeroFrame .none) (e.take 320) f.dir (zeroFrame_WF _) h3 ho
      rw [q4] at this; cases this)
    rw [q4] at r1
    cases r1
    rcases r with ⟨-, -, d, r⟩ | ⟨r, -⟩
    · rw [q5] at r; exact ⟨d, r⟩
    · cases r
  have hfd : f'.d.take 260 = dBits (e.take 320) ∧ f'.c.take 21 = cBits (e.take 320) ∧ f'.t = tBits (e.take 320) := by
    obtain ⟨d, hd⟩ := hex
    rcases ht with h | h
    · rw [h] at hd
      rw [decode_fr hd.symm] at q4
      obtain ⟨f2, a1, -, -, -, -, a⟩ := fr_decode (WF.start (zeroFrame_WF .none) f.dir .fr) (w := e.take 320) (by omega)
      rw [a1] at q4
      cases q4
      exact a
    · rw [h] at hd
      rw [decode_efr hd.symm] at q4
      obtain ⟨f2, a1, -, -, -, -, a⟩ := fr_decode (WF.start (zeroFrame_WF .none) f.dir .efr) (w := e.take 320) (by omega)
      rw [a1] at q4
      cases q4
      exact a
  obtain ⟨d1, d2, d3⟩ := hfd
  have hC : nC f.type = 21 := by rcases ht with h | h <;> rw [h] <;> rfl
  have hD : nD f.type = 260 := by rcases ht with h | h <;> rw [h] <;> rfl
  have hT : nT f.type = 4 := by rcases ht with h | h <;> rw [h] <;> rfl
  simp only [payload, Prod.mk.injEq, hC, hD, hT] at q8
  obtain ⟨p1, p2, p3, -⟩ := q8
  refine ⟨e.take 320, h2, h3, q3, by rw [← d1, p2], ?_, ?_⟩
  · rw [← d2, ← q7, ← p1]
    have : f'.c.take 5 = (f'.c.take 21).take 5 := by rw [List.take_take]; rfl
    rw [this, List.take_append_drop]
  · rw [← d3]
    have l1 : f'.t.length = 4 := by rw [d3, tBits, List.length_take, List.length_drop, h3]; rfl
    rw [List.take_of_length_le (by omega), List.take_of_length_le (by rw [hf.t]; omega)] at p3
    exact p3

theorem strip_cases (data : List Byte) : ∃ a b c pl, stripTwts001 data = (a, b, c, pl) ∧
    (data = pl ∧ (∀ x ∈ data.head?, x >>> 4 ≠ 0xE) ∨ ∃ x : Byte, x >>> 4 = 0xE ∧ data = x :: pl) := by
  have nib : ∀ x : Byte, (x &&& 0xF0 = 0xE0 ↔ x >>> 4 = 0xE) := by decide +kernel
  match data with
  | [] => exact ⟨_, _, _, [], rfl, .inl ⟨rfl, by simp⟩⟩
  | x :: r =>
    by_cases hx : x &&& 0xF0 = 0xE0
    · refine ⟨_, _, _, r, by rw [stripTwts001, if_pos hx], .inr ⟨x, (nib x).1 hx, rfl⟩⟩
    · refine ⟨_, _, _, x :: r, by rw [stripTwts001, if_neg hx], .inl ⟨rfl, ?_⟩⟩
      intro y hy
      simp only [List.head?_cons, Option.mem_some_iff] at hy
      subst hy
      exact fun h => hx ((nib x).2 h)

theorem content_pl {data pl : List Byte} {o : Option (List Bool)} (h : data = pl ∧ (∀ x ∈ data.head?, x >>> 4 ≠ 0xE) ∨ ∃ x : Byte, x >>> 4 = 0xE ∧ data = x :: pl) :
    Content data o → (o = none ∧ pl = []) ∨ ∃ s, o = some s ∧ IsEfr pl s := by
  have nibC : ∀ x : Byte, x.getLsbD 5 = false → x >>> 4 ≠ 0xE := by decide +kernel
  have hd : ∀ {pl : List Byte} {s : List Bool}, IsEfr pl s → ∀ x ∈ pl.head?, x >>> 4 ≠ 0xE := by
    intro pl s hp x hx
    match pl, hp with
    | y :: r, hp =>
      simp only [List.head?_cons, Option.mem_some_iff] at hx
      subst hx
      apply nibC
      have := hp.bits
      simp only [bitsOf, List.cons_append, List.cons.injEq, List.nil_append] at this
      exact this.2.2.1
    | [], hp => cases hx
  intro hc
  cases hc with
  | @speech pl' s h' hp =>
    refine .inr ⟨s, rfl, ?_⟩
    have : pl' = pl := by
      rcases h with ⟨e, hx⟩ | ⟨x, hx, e⟩ <;> rcases h' with e' | ⟨y, hy, e'⟩
      · rw [← e', e]
      · subst e'
        exact absurd hy (hx y rfl)
      · rw [← e', e] at hp
        exact absurd hx (hd hp x rfl)
      · rw [e] at e'; exact (List.cons.inj e').2.symm
    rw [← this]; exact hp
  | nodata h' =>
    refine .inl ⟨rfl, ?_⟩
    rcases h with ⟨e, hx⟩ | ⟨x, hx, e⟩ <;> rcases h' with e' | ⟨y, hy, e'⟩
    · rw [← e, e']
    · subst e'
      exact absurd hy (hx y rfl)
    · rw [e] at e'; cases e'
    · rw [e] at e'; exact (List.cons.inj e').2

theorem bad_pl (K : Codec) (tf : Frame) {data pl : List Byte} {a b c : Bool} (hs : stripTwts001 data = (a, b, c, pl))
    (hne : pl ≠ []) (hbad : ¬ ∃ s, IsEfr pl s) : rtp2trauEfr K tf data = .ok (-EINVAL, tf) := by
  have nib : ∀ x : Byte, x &&& 0xF0 = 0xC0 →
    x.getLsbD 7 = true ∧ x.getLsbD 6 = true ∧ x.getLsbD 5 = false ∧ x.getLsbD 4 = false := by decide +kernel
  unfold rtp2trauEfr
  rw [hs]
  have h0 : pl.length ≠ 0 := by simpa using hne
  by_cases hl : pl.length = EFR_BYTES
  · match pl, hl, hbad with
    | x :: r, hl, hbad =>
      have hx : x &&& 0xF0 ≠ 0xC0 := by
        intro hx
        apply hbad
        have hb := nib x hx
        refine ⟨(bitsOf (x :: r)).drop 4, hl, ?_, ?_⟩
        · rw [bitsOf_eq, List.length_drop, pbit2ubit_length, hl]; rfl
        · rw [bitsOf, hb.1, hb.2.1, hb.2.2.1, hb.2.2.2]; rfl
      dsimp only
      rw [if_pos hl, show rd (x :: r) 0 = .ok x from rfl, bind_ok]
      rw [if_neg (fun h => h.1 hl), if_pos hx]
  · dsimp only
    rw [if_neg hl, bind_ok, if_pos ⟨hl, h0⟩]

/-- an RTP packet received -/
theorem rx_step (K : Codec) (g : G) (n : Nat) (pl : List Byte) {buf : List Bool} (hb : buf.length = 640) :
    ∃ a, rtpRx K g n pl buf = .ok (g.set n { g.sub n with t2r := { (g.sub n).t2r with type := .efr } }, a) ∧
      ((∃ c m, Content pl c ∧ IsDl c m ∧ m.length = 320 ∧ a = [.enq n m]) ∨ (a = [] ∧ ∀ c, ¬ Content pl c)) := by
  obtain ⟨x, y, z, data, hs, hd⟩ := strip_cases pl
  have e : rtp2trau K { (g.sub n).t2r with type := .efr } (zeroFrame .none) pl = rtp2trauEfr K (zeroFrame .none) pl := by rw [rtp2trau]
  simp only [rtpRx, ftype]
  by_cases h0 : data = []
  · subst h0
    have q := rtp2trauEfr_nodata K (zeroFrame_WF .none) hs
    have hwf : ({ zeroFrame .none with
        type := .efr
        c := efrNoC .dl x z ++ (zeroFrame .none).c.drop 21
        t := List.replicate 4 true
        d := List.replicate 260 true ++ (zeroFrame .none).d.drop 260 } : Frame).WF := by constructor <;> rfl
    obtain ⟨m, m1, m2, m3, m4, m5, m6⟩ := enc_fields hwf hb rfl (.inr rfl)
    rw [e, q, bind_ok]
    simp only []
    rw [if_neg (by decide)]
    have m1' : encodeMsg buf ({ zeroFrame .none with
        type := .efr
        c := efrNoC (zeroFrame .none).dir x z ++ (zeroFrame .none).c.drop 21
        t := List.replicate 4 true
        d := List.replicate 260 true ++ (zeroFrame .none).d.drop 260 } : Frame) = .ok m := m1
    rw [m1', bind_ok]
    refine ⟨_, rfl, .inl ⟨none, m, .nodata ?_, ⟨m3, ⟨true, ?_⟩, m6, (fun s h => nomatch h), fun _ => ?_⟩, m2, rfl⟩⟩
    · rcases hd with ⟨h, -⟩ | ⟨v, hv, h⟩
      · exact .inl h
      · exact .inr ⟨v, hv, h⟩
    · rw [m5]; rfl
    · rw [m4]; rfl
  · by_cases h1 : ∃ s, IsEfr data s
    · obtain ⟨s, hp⟩ := h1
      obtain ⟨f, q1, q2, q3, q4, -, q6, q7, q8⟩ := rtp2trauEfr_all K { (g.sub n).t2r with type := .efr } rfl (zeroFrame_WF .none) hp hs
      have hta := rtp2trau_ta K { (g.sub n).t2r with type := .efr } (zeroFrame .none) pl _ q1
      obtain ⟨m, m1, m2, m3, m4, m5, m6⟩ := enc_fields q2 hb hta (.inr q3)
      have hT : f.t = List.replicate 4 true := by
        obtain ⟨x1, x2, x3, x4, x5, -, -, -, -, -, -, -, he⟩ := rtp2trauEfr_eq K (zeroFrame_WF .none) hs hp
        rw [e, he] at q1
        cases q1
        rfl
      rw [q1, bind_ok]
      simp only []
      rw [if_neg (by decide), m1, bind_ok]
      refine ⟨_, rfl, .inl ⟨some s, m, .speech ?_ hp, ⟨m3, ⟨!K.efrCheckSid data, ?_⟩, m6.trans hT, ?_, (fun h => nomatch h)⟩, m2, rfl⟩⟩
      · rcases hd with ⟨h, -⟩ | ⟨v, hv, h⟩
        · exact .inl h
        · exact .inr ⟨v, hv, h⟩
      · rw [m5, q3, q4, q8]; rfl
      · intro s' hs'
        cases hs'
        rw [m4]
        have e2 : (f.d.take 260).take 260 = f.d.take 260 := by rw [List.take_take]; rfl
        refine ⟨efrChecks_take _ _ ?_ q6, ?_⟩
        · exact e2.symm
        · rw [← q7]; exact efrSpeech_take _ _ e2
    · rw [e, bad_pl K _ hs h0 h1, bind_ok]
      simp only []
      rw [if_pos (by decide)]
      refine ⟨[], rfl, .inr ⟨rfl, fun c hc => ?_⟩⟩
      rcases content_pl hd hc with ⟨-, h⟩ | ⟨s, -, h⟩
      · exact h0 h
      · exact h1 ⟨s, h⟩

/-! ### the loop, polling and filling -/

theorem mirror_sym (ty : FT) (dir : Dir) (ta : Int) (c d t s m crc xc : Nat → Bool) (u : Bool) :
    mirror (SF ty dir ta c d t s m u crc xc) = (.ok { SF ty dir ta c d t s m u crc xc with
      c := (L 25 c).take 5 ++ List.replicate 6 false ++ List.replicate 5 true ++ (L 25 c).drop 16, dir := .dl } : M _) := by kernel_rfl

theorem mirror_eq {f : Frame} (hf : f.WF) :
    mirror f = .ok { f with c := f.c.take 5 ++ List.replicate 6 false ++ List.replicate 5 true ++ f.c.drop 16, dir := .dl } := by
  obtain ⟨c, d, t, s, m, crc, xc, h0⟩ := exists_SF hf
  have := mirror_sym f.type f.dir f.ta c d t s m crc xc f.ufi
  have hc : f.c = L 25 c := congrArg Frame.c h0
  rw [← h0, ← hc] at this
  exact this

theorem mirror_WF {f : Frame} (hf : f.WF) :
    ({ f with c := f.c.take 5 ++ List.replicate 6 false ++ List.replicate 5 true ++ f.c.drop 16, dir := .dl } : Frame).WF :=
  ⟨by simp [hf.c], hf.d, hf.t, hf.s, hf.m, hf.crc, hf.xc⟩

/-- a frame received, in loop mode -/
theorem frame_loop (K : Codec) {g : G} (hl : g.loop = true) {n : Nat} (hn : n = 1 ∨ n = 2) (w : Option (List Bool))
    (hw : ∀ b, w = some b → 321 ≤ b.length) {f0 : Frame} (h0 : f0.WF) {buf : List Bool} (hb : buf.length = 640) (alloc : Bool) :
    (∃ b m, w = some b ∧ (IsMirror b m ∨ ∃ ty dir, (ty ∈ types16 ∧ ty ≠ .fr ∧ ty ≠ .efr) ∧ cCode b = code ty dir ∧ m.length = 320) ∧
      frameOut K g n w f0 buf alloc = .ok (g, [.enq (3 - n) m])) ∨
    ((∀ b, w = some b → ∀ ty ∈ types16, ∀ d, cCode b ≠ code ty d) ∧ frameOut K g n w f0 buf alloc = .ok (g, [])) := by
  have hskip : skipFrame g n = .ok (g, []) := by rw [skipFrame, hl, if_pos rfl]
  cases w with
  | none => exact .inr ⟨fun b h => (nomatch h), hskip⟩
  | some b =>
    have hlen := hw b rfl
    obtain ⟨rc, f, g1, g2, g3, g4, g5, g6, g7, g8⟩ := decode_cases h0 hlen
    obtain ⟨rc', f', c1, -, -, -, c5⟩ := C29_classify f0 b .ul h0 (by omega) (fun _ => hlen)
    rw [g1] at c1
    cases c1
    simp only [frameOut, g1, bind_ok]
    rcases c5 with ⟨e1, e2, d, e3⟩ | ⟨e1, -, e3⟩
    · subst e1
      have hop : opposite n = .ok (3 - n) := by rcases hn with rfl | rfl <;> rfl
      rw [if_neg (by decide), if_pos hl, hop, bind_ok, mirror_eq g2, bind_ok]
      refine .inl ?_
      by_cases ht : f.type = .fr ∨ f.type = .efr
      · obtain ⟨d1, d2, d3⟩ := g8 rfl ht
        obtain ⟨m, m1, m2, m3, m4, m5, m6⟩ := enc_fields (mirror_WF g2) hb g3 ht
        refine ⟨b, m, rfl, .inl ⟨f.type, ht, d, e3.symm, m3, ?_, m4.trans d1, m6.trans d3⟩, by rw [m1, bind_ok]⟩
        rw [m5, ← d2]
        have l5 : (f.c.take 5).length = 5 := by rw [List.length_take, g2.c]; rfl
        have : (f.c.take 5 ++ List.replicate 6 false ++ List.replicate 5 true ++ f.c.drop 16).take 21 =
            f.c.take 5 ++ (List.replicate 6 false ++ List.replicate 5 true ++ (f.c.take 21).drop 16) := by
          obtain ⟨c, hc⟩ := exists_L' (l := f.c) g2.c
          rw [hc]
          kernel_rfl
        rw [this, List.drop_left' l5]
        simp only [List.append_assoc]
      · obtain ⟨e, -, q2, q3⟩ := encode_msg (mirror_WF g2) hb g3 e2
        refine ⟨b, _, rfl, .inr ⟨f.type, d, ⟨e2, fun h => ht (.inl h), fun h => ht (.inr h)⟩, e3.symm, q3⟩, by rw [q2, bind_ok]⟩
    · refine .inr ⟨?_, ?_⟩
      · intro b' hb' ty hty d
        cases hb'
        exact fun h => e3 ty hty d h.symm
      · rw [if_pos (by rw [e1]; decide)]
        exact hskip

/-- nothing to send -/
theorem fill_eq (K : Codec) (g : G) (n : Nat) {buf : List Bool} (hb : buf.length = 640) :
    ∃ m, queueEmpty g n buf = .ok (g, [.enq n m]) ∧ IsFill m ∧ m.length = 320 := by
  have hwf : ({ zeroFrame .efr with c := ((List.replicate 25 false).set 11 true).set 15 true } : Frame).WF := by constructor <;> rfl
  obtain ⟨m, m1, m2, m3, m4, m5, m6⟩ := enc_fields hwf hb rfl (.inr rfl)
  refine ⟨m, ?_, ⟨m3, m5.trans rfl, m4.trans rfl, m6.trans rfl⟩, m2⟩
  have : queueEmpty g n buf = (encodeMsg buf ({ zeroFrame .efr with c := ((List.replicate 25 false).set 11 true).set 15 true } : Frame) >>= fun m =>
      .ok (g, [.enq n m])) := rfl
  rw [this, m1, bind_ok]

end Verif.Gw
