import Verif.Demux
import Verif.Spec.Sync
import Verif.Spec.Demux
import Verif.Proof.RaaPrimeSafe
/-! Proof infrastructure for the demultiplexer (no property statements here). -/
namespace Verif.Demux
open Verif.Spec
open Verif.RaaPrime (bind_ok bind_err runEnd runEnd_append runEnd_take_ge)
set_option linter.unusedSimpArgs false
set_option maxRecDepth 4000

structure Sch.WF (s : Sch) : Prop where
  len : s.outBitbuf.length = 320
  idx : s.outIdx < 320

/-- the header stored on resync -/
def hdr17 : List Byte := List.replicate 16 0 ++ [1]

/-- pure version of `append_bit_resync_out` -/
def stepS (s : Sch) (b : Bool) : Sch × Option (List Byte) :=
  let buf := s.outBitbuf.set s.outIdx (ub b)
  if b = true ∧ 16 ≤ s.consecutiveZeros then
    ({ outBitbuf := hdr17 ++ buf.drop 17, outIdx := 17, consecutiveZeros := 0, inSync := true }, none)
  else
    let z := if b then 0 else (s.consecutiveZeros + 1) % 2 ^ 32
    if 319 ≤ s.outIdx then
      ({ outBitbuf := buf, outIdx := 0, consecutiveZeros := z, inSync := false },
       if s.inSync then some buf else none)
    else
      ({ outBitbuf := buf, outIdx := s.outIdx + 1, consecutiveZeros := z, inSync := s.inSync }, none)

theorem wr_ok {α : Type} {a : List α} {i : Nat} {x : α} (h : i < a.length) :
    wr a i x = .ok (a.set i x) := by simp [wr, h]

theorem resync_buf (buf : List Byte) (h : buf.length = 320) :
    (blit buf 0 (List.replicate SYNC_HDR_BITS 0) >>= fun buf => wr buf SYNC_HDR_BITS (1 : Byte))
      = .ok (hdr17 ++ buf.drop 17) := by
  rw [blit_ok (by simp [SYNC_HDR_BITS, h])]
  simp only [bind_ok, SYNC_HDR_BITS, List.take_zero, List.nil_append, Nat.zero_add,
    List.length_replicate]
  rw [wr_ok (by simp [h])]
  congr 1
  rw [List.set_append_right _ _ (by simp)]
  simp only [List.length_replicate, Nat.sub_self]
  rw [List.drop_eq_getElem_cons (by omega : 16 < buf.length), List.set_cons_zero]
  rfl

theorem appendBitResyncOut_eq (s : Sch) (b : Bool) (h : s.WF) :
    appendBitResyncOut s b = .ok (stepS s b) := by
  obtain ⟨buf, idx, z, sy⟩ := s
  obtain ⟨hl, hi⟩ := h
  simp only at hl hi
  rw [appendBitResyncOut, appendBit, wr_ok (by simpa [hl] using hi)]
  simp only [bind_ok]
  have hl' : (buf.set idx (ub b)).length = 320 := by simp [hl]
  cases b with
  | false =>
    simp only [syncHdrComplete, stepS, Bool.not_false, if_true, Bool.false_eq_true, if_false,
      false_and, bind_ok, TRAU_FRAME_BITS]
    by_cases h319 : 319 ≤ idx
    · have : idx = 319 := by omega
      subst this
      cases sy <;> simp [slice, hl, List.take_of_length_le]
    · rw [if_neg (by omega), if_neg h319]
  | true =>
    by_cases hz : 16 ≤ z
    · have := resync_buf (buf.set idx (ub true)) hl'
      simp only [syncHdrComplete, stepS, Bool.not_true, if_true, Bool.false_eq_true, if_false,
        true_and, bind_ok, TRAU_FRAME_BITS, hz, resyncToHere, SYNC_HDR_BITS, ge_iff_le] at this ⊢
      cases hb : blit (buf.set idx (ub true)) 0 (List.replicate 16 0) with
      | error e => rw [hb] at this; simp at this
      | ok x =>
        rw [hb] at this
        simp only [bind_ok] at this ⊢
        rw [this]
        simp
    · simp only [syncHdrComplete, stepS, Bool.not_true, if_true, Bool.false_eq_true, if_false,
        true_and, bind_ok, TRAU_FRAME_BITS, hz, SYNC_HDR_BITS, ge_iff_le]
      by_cases h319 : 319 ≤ idx
      · have : idx = 319 := by omega
        subst this
        cases sy <;> simp [slice, hl, List.take_of_length_le]
      · rw [if_neg (by omega), if_neg h319]

theorem stepS_wf (s : Sch) (b : Bool) (h : s.WF) : (stepS s b).1.WF := by
  obtain ⟨hl, hi⟩ := h
  unfold stepS
  simp only
  split
  · exact ⟨by simp [hdr17, hl], by simp⟩
  · split
    · exact ⟨by simp [hl], by simp⟩
    · exact ⟨by simp [hl], by simp; omega⟩

/-- run over a bit list -/
def runS (s : Sch) : List Bool → Sch × List (List Byte)
  | [] => (s, [])
  | b :: bs => ((runS (stepS s b).1 bs).1, (stepS s b).2.toList ++ (runS (stepS s b).1 bs).2)

theorem runS_append (s : Sch) : ∀ (a b : List Bool),
    runS s (a ++ b) = ((runS (runS s a).1 b).1, (runS s a).2 ++ (runS (runS s a).1 b).2) := by
  intro a
  induction a generalizing s with
  | nil => intro b; simp [runS]
  | cons x a ih => intro b; simp [runS, ih, List.append_assoc]

theorem runS_wf (s : Sch) (h : s.WF) : ∀ bs, (runS s bs).1.WF := by
  intro bs
  induction bs generalizing s with
  | nil => exact h
  | cons b bs ih => exact ih _ (stepS_wf s b h)

theorem inbits_eq (b : Byte) (c : Nat) (hc : c < 4) :
    inbits b c = (b.getLsbD (2 * c), b.getLsbD (2 * c + 1)) := by
  have : ∀ (b : Byte) (c : Fin 4), inbits b c = (b.getLsbD (2 * c), b.getLsbD (2 * c + 1)) := by
    decide +kernel
  exact this b ⟨c, hc⟩

theorem evOf_append (c : Nat) (a b : List Ev) : evOf c (a ++ b) = evOf c a ++ evOf c b := by
  simp [evOf]

theorem feed_eq (d : Dmx) (c : Nat) (bit : Bool) (h : (d.subch c).WF) :
    feed d c bit = .ok (setSub d c (stepS (d.subch c) bit).1,
      (stepS (d.subch c) bit).2.toList.map fun f => (c, f)) := by
  rw [feed, appendBitResyncOut_eq _ _ h]; rfl

/-- what processing one sub-channel does -/
def subRes (d : Dmx) (inbyte : Byte) (c : Nat) : Dmx × List Ev :=
  if active d.chanActiv c then
    (setSub d c (runS (d.subch c) (chanBits c [inbyte])).1,
     (runS (d.subch c) (chanBits c [inbyte])).2.map fun f => (c, f))
  else (d, [])

theorem demuxSub_eq (d : Dmx) (inbyte : Byte) (c : Nat) (hc : c < 4) (h : (d.subch c).WF) :
    demuxSub d inbyte c = .ok (subRes d inbyte c) := by
  rw [demuxSub, subRes]
  cases ha : active d.chanActiv c with
  | false => simp
  | true =>
    simp only [Bool.not_true, Bool.false_eq_true, if_false, inbits_eq _ _ hc, if_true,
      feed_eq d c _ h, bind_ok]
    rw [feed_eq _ c _ (by simpa [setSub] using stepS_wf _ _ h)]
    simp [bind_ok, setSub, chanBits, runS]
    funext i
    by_cases hi : i = c <;> simp [hi]

theorem evOf_map_self (c : Nat) (l : List (List Byte)) : evOf c (l.map fun f => (c, f)) = l := by
  induction l with
  | nil => rfl
  | cons a l ih =>
    simp only [evOf, List.map_cons, List.filter_cons, BEq.rfl, if_true] at *
    rw [ih]

theorem evOf_map_ne {c c' : Nat} (h : c' ≠ c) (l : List (List Byte)) :
    evOf c (l.map fun f => (c', f)) = [] := by
  induction l with
  | nil => rfl
  | cons a l ih =>
    simp only [evOf, List.map_cons, List.filter_cons, beq_iff_eq, h, if_false] at *
    exact ih

/-- effect on sub-channel `c` -/
structure Eff (d : Dmx) (r : Dmx × List Ev) (c : Nat) (bits : List Bool) : Prop where
  sub : r.1.subch c = if active d.chanActiv c then (runS (d.subch c) bits).1 else d.subch c
  ev : evOf c r.2 = if active d.chanActiv c then (runS (d.subch c) bits).2 else []

theorem demuxSubs_eq : ∀ (cs : List Nat) (d : Dmx) (inbyte : Byte), (∀ c ∈ cs, c < 4) → cs.Nodup →
    (∀ c < 4, (d.subch c).WF) →
    ∃ r, demuxSubs d inbyte cs = .ok r ∧ r.1.chanActiv = d.chanActiv ∧
      (∀ c ∈ cs, Eff d r c (chanBits c [inbyte])) ∧
      (∀ c, c ∉ cs → r.1.subch c = d.subch c ∧ evOf c r.2 = []) ∧
      (∀ e ∈ r.2, e.1 ∈ cs ∧ active d.chanActiv e.1 = true) := by
  intro cs
  induction cs with
  | nil => intro d b _ _ _; exact ⟨(d, []), rfl, rfl, by simp, by simp [evOf], by simp⟩
  | cons c cs ih =>
    intro d inbyte h4 hnd hwf
    have hc4 : c < 4 := h4 c (by simp)
    have hn : c ∉ cs := (List.nodup_cons.1 hnd).1
    have hact : (subRes d inbyte c).1.chanActiv = d.chanActiv := by
      unfold subRes; split <;> simp [setSub]
    have hsub : (subRes d inbyte c).1.subch c =
        if active d.chanActiv c then (runS (d.subch c) (chanBits c [inbyte])).1 else d.subch c := by
      unfold subRes; split <;> simp [setSub]
    have hsub' : ∀ c', c' ≠ c → (subRes d inbyte c).1.subch c' = d.subch c' := by
      intro c' hne; unfold subRes; split <;> simp [setSub, hne]
    have hev : evOf c (subRes d inbyte c).2 =
        if active d.chanActiv c then (runS (d.subch c) (chanBits c [inbyte])).2 else [] := by
      unfold subRes; split
      · simp only [evOf_map_self]
      · simp [evOf]
    have hev' : ∀ c', c' ≠ c → evOf c' (subRes d inbyte c).2 = [] := by
      intro c' hne; unfold subRes; split
      · exact evOf_map_ne (Ne.symm hne) _
      · simp [evOf]
    have hwf1 : ∀ c' < 4, ((subRes d inbyte c).1.subch c').WF := by
      intro c' h'
      by_cases he : c' = c
      · subst he
        rw [hsub]
        split
        · exact runS_wf _ (hwf _ h') _
        · exact hwf _ h'
      · rw [hsub' c' he]; exact hwf c' h'
    obtain ⟨r, h1, h2, h3, h5, h6⟩ := ih (subRes d inbyte c).1 inbyte
      (fun c' h => h4 c' (by simp [h])) (List.nodup_cons.1 hnd).2 hwf1
    refine ⟨(r.1, (subRes d inbyte c).2 ++ r.2), ?_, ?_, ?_, ?_, ?_⟩
    · rw [demuxSubs, demuxSub_eq d inbyte c hc4 (hwf c hc4)]
      simp only [bind_ok, h1]
    · simp only [h2, hact]
    · intro c' hc'
      rcases List.mem_cons.1 hc' with rfl | hc'
      · obtain ⟨a1, a2⟩ := h5 c' hn
        exact ⟨by simp only [a1, hsub], by simp only [evOf_append, hev, a2, List.append_nil]⟩
      · have hne : c' ≠ c := fun h => hn (h ▸ hc')
        obtain ⟨a1, a2⟩ := h3 c' hc'
        rw [hact, hsub' c' hne] at a1 a2
        exact ⟨a1, by simp only [evOf_append, hev' c' hne, List.nil_append, a2]⟩
    · intro c' hc'
      simp only [List.mem_cons, not_or] at hc'
      obtain ⟨a1, a2⟩ := h5 c' hc'.2
      exact ⟨by simp only [a1, hsub' c' hc'.1],
        by simp only [evOf_append, hev' c' hc'.1, List.nil_append, a2]⟩
    · intro e he
      rcases List.mem_append.1 he with he | he
      · unfold subRes at he
        split at he
        · rename_i ha
          obtain ⟨f, _, rfl⟩ := List.mem_map.1 he
          exact ⟨by simp, ha⟩
        · simp at he
      · obtain ⟨a1, a2⟩ := h6 e he
        rw [hact] at a2
        exact ⟨by simp [a1], a2⟩

theorem demuxIn_eq : ∀ (bytes : List Byte) (d : Dmx), (∀ c < 4, (d.subch c).WF) →
    ∃ r, demuxIn d bytes = .ok r ∧ r.1.chanActiv = d.chanActiv ∧
      (∀ c < 4, Eff d r c (chanBits c bytes)) ∧
      (∀ c, 4 ≤ c → r.1.subch c = d.subch c) ∧
      (∀ e ∈ r.2, e.1 < 4 ∧ active d.chanActiv e.1 = true) := by
  intro bytes
  induction bytes with
  | nil =>
    intro d _
    refine ⟨(d, []), rfl, rfl, ?_, by simp, by simp⟩
    intro c _
    exact ⟨by simp [chanBits, runS], by simp [chanBits, runS, evOf]⟩
  | cons b bs ih =>
    intro d hwf
    obtain ⟨r, h1, h2, h3, h5, h6⟩ := demuxSubs_eq (List.range NR_SUBCH) d b
      (by simp [NR_SUBCH]) List.nodup_range hwf
    have hmem : ∀ c, c ∈ List.range NR_SUBCH ↔ c < 4 := by simp [NR_SUBCH]
    have hwf1 : ∀ c < 4, (r.1.subch c).WF := by
      intro c hc
      rw [(h3 c ((hmem c).2 hc)).sub]
      split
      · exact runS_wf _ (hwf c hc) _
      · exact hwf c hc
    obtain ⟨r', g1, g2, g3, g5, g6⟩ := ih r.1 hwf1
    refine ⟨(r'.1, r.2 ++ r'.2), ?_, by simp only [g2, h2], ?_, ?_, ?_⟩
    · rw [demuxIn, h1]; simp only [bind_ok, g1]
    · intro c hc
      obtain ⟨a1, a2⟩ := h3 c ((hmem c).2 hc)
      obtain ⟨b1, b2⟩ := g3 c hc
      have hcb : chanBits c (b :: bs) = chanBits c [b] ++ chanBits c bs := by simp [chanBits]
      rw [h2] at b1 b2
      constructor
      · rw [hcb, runS_append]
        rw [b1, a1]
        split <;> rfl
      · rw [hcb, runS_append, evOf_append, a2, b2, a1]
        split <;> rfl
    · intro c hc
      rw [g5 c hc, (h5 c (by simp [NR_SUBCH]; omega)).1]
    · intro e he
      rcases List.mem_append.1 he with he | he
      · obtain ⟨a1, a2⟩ := h6 e he
        exact ⟨(hmem _).1 a1, a2⟩
      · obtain ⟨a1, a2⟩ := g6 e he
        rw [h2] at a2
        exact ⟨a1, a2⟩

/-! ### frames delivered -/

structure Sch.Inv (s : Sch) : Prop extends s.WF where
  sync : s.inSync = true → 17 ≤ s.outIdx ∧ s.outBitbuf.take 17 = hdr17 ∧
    ∀ i < s.outIdx, s.outBitbuf[i]? = some 0 ∨ s.outBitbuf[i]? = some 1

theorem ub_cases (b : Bool) : ub b = 0 ∨ ub b = 1 := by cases b <;> simp [ub]

theorem stepS_inv (s : Sch) (b : Bool) (h : s.Inv) : (stepS s b).1.Inv ∧
    ∀ f, (stepS s b).2 = some f → f.length = 320 ∧ f.take 17 = hdr17 ∧ ∀ x ∈ f, x = 0 ∨ x = 1 := by
  have hwf := stepS_wf s b h.toWF
  have hbits : s.inSync = true → ∀ i < s.outIdx + 1,
      (s.outBitbuf.set s.outIdx (ub b))[i]? = some 0 ∨
      (s.outBitbuf.set s.outIdx (ub b))[i]? = some 1 := by
    intro hs i hi
    by_cases he : i = s.outIdx
    · subst he
      rw [List.getElem?_set_self (by have := h.len; have := h.idx; omega)]
      rcases ub_cases b with h | h <;> simp [h]
    · rw [List.getElem?_set_ne (by omega)]
      exact (h.sync hs).2.2 i (by omega)
  have htake : s.inSync = true → (s.outBitbuf.set s.outIdx (ub b)).take 17 = hdr17 := by
    intro hs
    rw [List.take_set_of_le (h.sync hs).1]
    exact (h.sync hs).2.1
  refine ⟨⟨hwf, ?_⟩, ?_⟩
  · unfold stepS
    simp only
    split
    · intro _
      refine ⟨by simp, by simp [hdr17], ?_⟩
      intro i hi
      simp only at hi
      rw [List.getElem?_append_left (by simpa [hdr17] using hi)]
      have : ∀ i : Fin 17, hdr17[i.1]? = some 0 ∨ hdr17[i.1]? = some 1 := by decide
      exact this ⟨i, hi⟩
    · split
      · simp
      · intro hs
        refine ⟨by have := (h.sync hs).1; simp only; omega, htake hs, ?_⟩
        intro i hi
        exact hbits hs i hi
  · unfold stepS
    simp only
    split
    · simp
    · split
      · intro f hf
        by_cases hs : s.inSync = true
        · rw [if_pos hs] at hf
          have hf' := Option.some.inj hf
          subst hf'
          refine ⟨by simp [h.len], htake hs, ?_⟩
          intro x hx
          obtain ⟨i, hi, rfl⟩ := List.getElem_of_mem hx
          have hl := h.len
          rcases hbits hs i (by simp only [List.length_set] at hi; omega) with h | h
          · left; rw [List.getElem?_eq_getElem hi] at h; exact Option.some.inj h
          · right; rw [List.getElem?_eq_getElem hi] at h; exact Option.some.inj h
        · rw [if_neg hs] at hf; exact absurd hf (by simp)
      · simp

theorem runS_inv (s : Sch) (h : s.Inv) : ∀ bs, (runS s bs).1.Inv ∧
    ∀ f ∈ (runS s bs).2, f.length = 320 ∧ f.take 17 = hdr17 ∧ ∀ x ∈ f, x = 0 ∨ x = 1 := by
  intro bs
  induction bs generalizing s with
  | nil => exact ⟨h, by simp [runS]⟩
  | cons b bs ih =>
    obtain ⟨h1, h2⟩ := stepS_inv s b h
    obtain ⟨h3, h4⟩ := ih _ h1
    refine ⟨h3, ?_⟩
    intro f hf
    simp only [runS, List.mem_append, Option.mem_toList] at hf
    rcases hf with hf | hf
    · exact h2 f hf
    · exact h4 f hf

/-! ### aligned streams -/

/-- zero counter -/
theorem stepS_zeros (s : Sch) (b : Bool) :
    (stepS s b).1.consecutiveZeros = if b then 0 else (s.consecutiveZeros + 1) % 2 ^ 32 := by
  unfold stepS
  cases b with
  | false => simp only [Bool.false_eq_true, false_and, if_false]; split <;> rfl
  | true => simp only [true_and, if_true]; split <;> (try split) <;> rfl

/-- processing the rest of a frame after its header -/
theorem runS_payload : ∀ (bits : List Bool) (w : List Bool) (s : Sch),
    s.WF → s.inSync = true → s.outIdx = w.length →
    s.outBitbuf.take w.length = w.map ub → w.length + bits.length = 320 → bits ≠ [] →
    (∀ k, bits[k]? = some true → runEnd s.consecutiveZeros (bits.take k) < 16) →
    s.consecutiveZeros + bits.length < 2 ^ 32 →
    (runS s bits).2 = [(w ++ bits).map ub] ∧ (runS s bits).1.inSync = false ∧
      (runS s bits).1.outIdx = 0 ∧
      (runS s bits).1.consecutiveZeros = runEnd s.consecutiveZeros bits := by
  intro bits
  induction bits with
  | nil => intro w s _ _ _ _ _ h; exact absurd rfl h
  | cons b bits ih =>
    intro w s hwf hs hi ht hlen _ hq hbig
    have hq0 : ¬ (b = true ∧ 16 ≤ s.consecutiveZeros) := by
      intro ⟨h1, h2⟩
      have := hq 0 (by simp [h1])
      simp [runEnd] at this
      omega
    have hbuf : (s.outBitbuf.set s.outIdx (ub b)).take (w.length + 1) = (w ++ [b]).map ub := by
      rw [List.take_set, List.take_add_one, ht, hi,
        List.getElem?_eq_getElem (by have := hwf.len; have := hwf.idx; omega)]
      rw [List.set_append_right _ _ (by simp)]
      simp
    have hlb := hwf.len
    have hz1 : (if b then 0 else (s.consecutiveZeros + 1) % 2 ^ 32) = runEnd s.consecutiveZeros [b] := by
      cases b
      · simp only [List.length_cons] at hbig
        simp [runEnd]
        omega
      · simp [runEnd]
    by_cases hb : bits = []
    · subst hb
      simp only [List.length_cons, List.length_nil] at hlen
      have h319 : 319 ≤ s.outIdx := by omega
      have hfull : s.outBitbuf.set s.outIdx (ub b) = (w ++ [b]).map ub := by
        rw [← hbuf, List.take_of_length_le (by simp [hlb]; omega)]
      simp only [runS, stepS, hq0, if_false, h319, if_true, hs, hfull, Option.toList_some,
        List.append_nil, true_and, hz1]
    · have hlt : ¬ 319 ≤ s.outIdx := by
        have : 0 < bits.length := List.length_pos_iff.2 hb
        simp only [List.length_cons] at hlen
        omega
      have hst : stepS s b = (Sch.mk (s.outBitbuf.set s.outIdx (ub b)) (s.outIdx + 1)
          (runEnd s.consecutiveZeros [b]) s.inSync, none) := by
        simp only [stepS, hq0, if_false, hlt, hz1]
      have hzb : runEnd s.consecutiveZeros [b] ≤ s.consecutiveZeros + 1 := by
        cases b <;> simp [runEnd]
      have := ih (w ++ [b]) (stepS s b).1 (stepS_wf s b hwf) (by rw [hst]; exact hs)
        (by rw [hst]; simp [hi]) (by rw [hst]; simpa using hbuf)
        (by simp only [List.length_append, List.length_cons, List.length_nil] at hlen ⊢; omega) hb
        (by
          intro k hk
          have := hq (k + 1) (by simpa using hk)
          rw [hst]
          simp only [List.take_succ_cons] at this
          rwa [show b :: bits.take k = [b] ++ bits.take k from rfl, runEnd_append] at this)
        (by rw [hst]; simp only [List.length_cons] at hbig ⊢; omega)
      obtain ⟨t1, t2, t3, t4⟩ := this
      simp only [runS, hst, Option.toList_none, List.nil_append] at t1 t2 t3 t4 ⊢
      refine ⟨by simpa using t1, t2, t3, ?_⟩
      rw [t4, show b :: bits = [b] ++ bits from rfl, runEnd_append]

theorem runS_zeros : ∀ (n : Nat) (s : Sch), s.WF → s.consecutiveZeros + n < 2 ^ 32 →
    (runS s (List.replicate n false)).1.consecutiveZeros = s.consecutiveZeros + n ∧
    (runS s (List.replicate n false)).2.length ≤ 1 ∧
    (s.inSync = false → (runS s (List.replicate n false)).2 = []) := by
  intro n
  induction n with
  | zero => intro s _ _; simp [runS]
  | succ n ih =>
    intro s hwf hz
    have hz1 := stepS_zeros s false
    simp only [Bool.false_eq_true, if_false] at hz1
    rw [Nat.mod_eq_of_lt (by omega)] at hz1
    obtain ⟨a1, a2, a3⟩ := ih (stepS s false).1 (stepS_wf s false hwf) (by omega)
    simp only [List.replicate_succ, runS]
    refine ⟨by omega, ?_, ?_⟩
    · by_cases h : (stepS s false).2 = none
      · simpa [h] using a2
      · have hs : (stepS s false).1.inSync = false := by
          unfold stepS at h ⊢
          simp only [Bool.false_eq_true, false_and, if_false] at h ⊢
          split
          · rfl
          · rename_i hh; simp [hh] at h
        rw [a3 hs]
        cases (stepS s false).2 <;> simp
    · intro hs
      have h1 : (stepS s false).2 = none ∧ (stepS s false).1.inSync = false := by
        unfold stepS
        simp only [Bool.false_eq_true, false_and, if_false, hs]
        split <;> simp
      rw [a3 h1.2, h1.1]
      rfl

theorem runEnd_le_length (c : Nat) : ∀ l : List Bool, runEnd c l ≤ c + l.length := by
  intro l
  induction l generalizing c with
  | nil => simp [runEnd]
  | cons b l ih =>
    rw [runEnd, List.foldl_cons, ← runEnd]
    cases b
    · have := ih (c + 1); simp only [Bool.false_eq_true, if_false, List.length_cons]; omega
    · have := ih 0; simp only [if_true, List.length_cons]; omega

theorem runEnd_ge_spec : ∀ (l : List Bool) (j c : Nat), j ≤ l.length → j ≤ runEnd c l →
    ∀ i, l.length - j ≤ i → i < l.length → l[i]? = some false := by
  intro l
  induction l with
  | nil => intro j c _ _ i _ h; simp at h
  | cons b l ih =>
    intro j c hj hr i h1 h2
    rw [runEnd, List.foldl_cons, ← runEnd] at hr
    simp only [List.length_cons] at h1 h2 hj
    by_cases hjl : j ≤ l.length
    · obtain ⟨i, rfl⟩ : ∃ i', i = i' + 1 := ⟨i - 1, by omega⟩
      rw [List.getElem?_cons_succ]
      exact ih j _ hjl hr i (by omega) (by omega)
    · have hb : b = false := by
        cases b with
        | false => rfl
        | true =>
          have := runEnd_le_length 0 l
          simp only [if_true] at hr
          omega
      subst hb
      match i, h2 with
      | 0, _ => rfl
      | i + 1, h2 =>
        rw [List.getElem?_cons_succ]
        exact ih l.length _ (by omega) (Nat.le_trans (by omega) hr) i (by omega) (by omega)

/-- one frame -/
theorem runS_frame (s : Sch) (f : List Bool) (hf : IsFrame f) (hwf : s.WF)
    (hz : s.consecutiveZeros + 16 < 2 ^ 32)
    (hq : ∀ k, 17 ≤ k → f[k]? = some true → runEnd 0 ((f.take k).drop 17) < 16) :
    ∃ pre, pre.length ≤ 1 ∧ (s.inSync = false → pre = []) ∧
      (runS s f).2 = pre ++ [f.map ub] ∧ (runS s f).1.inSync = false ∧ (runS s f).1.WF ∧
      (runS s f).1.consecutiveZeros ≤ 303 := by
  have hsplit : f = List.replicate 16 false ++ ([true] ++ f.drop 17) := by
    conv => lhs; rw [← List.take_append_drop 17 f, hf.hdr]
    simp
  obtain ⟨z1, z2, z3⟩ := runS_zeros 16 s hwf hz
  refine ⟨(runS s (List.replicate 16 false)).2, z2, z3, ?_⟩
  have hwf1 := runS_wf s hwf (List.replicate 16 false)
  generalize hs1 : (runS s (List.replicate 16 false)).1 = s1 at *
  have hst : stepS s1 true = (Sch.mk (hdr17 ++ (s1.outBitbuf.set s1.outIdx (ub true)).drop 17) 17 0 true,
      none) := by
    unfold stepS
    simp only
    rw [if_pos ⟨trivial, by omega⟩]
  have hwf2 := stepS_wf s1 true hwf1
  have hpl : (f.drop 17).length = 303 := by simp [hf.len]
  have hpay := runS_payload (f.drop 17) (List.replicate 16 false ++ [true]) (stepS s1 true).1 hwf2
    (by rw [hst]) (by rw [hst]; rfl) (by rw [hst]; rfl)
    (by rw [hpl]; rfl) (by intro h; simp [h] at hpl)
    (by
      intro k hk
      rw [List.getElem?_drop] at hk
      have := hq (17 + k) (by omega) hk
      rw [hst]
      rwa [List.drop_take, show 17 + k - 17 = k by omega] at this)
    (by rw [hst, hpl]; show 0 + 303 < 2 ^ 32; decide)
  obtain ⟨p1, p2, p3, p4⟩ := hpay
  have hrun : runS s f = ((runS (stepS s1 true).1 (f.drop 17)).1,
      (runS s (List.replicate 16 false)).2 ++ (runS (stepS s1 true).1 (f.drop 17)).2) := by
    conv => lhs; rw [hsplit]
    rw [runS_append, hs1, List.singleton_append, runS, hst]
    simp
  rw [hrun]
  refine ⟨?_, p2, runS_wf _ hwf2 _, ?_⟩
  · rw [p1, List.append_assoc, ← hsplit]
  · have h0 : (stepS s1 true).1.consecutiveZeros = 0 := by rw [hst]
    rw [p4, h0]
    have := runEnd_le_length 0 (f.drop 17)
    omega

theorem runS_stream : ∀ (fs : List (List Bool)) (pref : List Bool) (s : Sch),
    (∀ f ∈ fs, IsFrame f) → pref.length % 320 = 0 →
    (∀ i, SyncAt (pref ++ fs.flatten) i → i % 320 = 16) →
    s.WF → s.consecutiveZeros + 16 < 2 ^ 32 →
    ∃ pre, pre.length ≤ 1 ∧ (s.inSync = false → pre = []) ∧
      (runS s fs.flatten).2 = pre ++ fs.map (·.map ub) ∧
      (s.inSync = false → (runS s fs.flatten).1.inSync = false) ∧
      (runS s fs.flatten).1.consecutiveZeros + 16 < 2 ^ 32 := by
  intro fs
  induction fs with
  | nil =>
    intro pref s _ _ _ _ hz
    exact ⟨[], by simp, by simp, by simp [runS], by simp [runS], by simpa [runS] using hz⟩
  | cons f fs ih =>
    intro pref s hfr hp hsync hwf hz
    have hf := hfr f (by simp)
    obtain ⟨pre, a1, a2, a3, a4, a5, a6⟩ := runS_frame s f hf hwf hz (by
      intro k hk hb
      have hklen : k < 320 := by
        rw [← hf.len]
        exact (List.getElem?_eq_some_iff.1 hb).1
      rcases Nat.lt_or_ge (runEnd 0 ((f.take k).drop 17)) 16 with h | h
      · exact h
      · exfalso
        have hl : ((f.take k).drop 17).length = k - 17 := by
          simp [hf.len]; omega
        have hle := runEnd_le_length 0 ((f.take k).drop 17)
        rw [hl] at hle
        have hsp := runEnd_ge_spec _ 16 0 (by omega) h
        rw [hl] at hsp
        have := hsync (pref.length + k) ⟨by omega, ?_, ?_⟩
        · omega
        · rw [List.getElem?_append_right (by omega), Nat.add_sub_cancel_left, List.flatten_cons,
            List.getElem?_append_left (by rw [hf.len]; exact hklen)]
          exact hb
        · intro j j1 j2
          have := hsp (j - pref.length - 17) (by omega) (by omega)
          rw [List.getElem?_drop, List.getElem?_take] at this
          rw [if_pos (by omega)] at this
          rw [List.getElem?_append_right (by omega), List.flatten_cons,
            List.getElem?_append_left (by rw [hf.len]; omega)]
          rw [← this]
          congr 1
          omega)
    obtain ⟨pre', b1, b2, b3, b4, b5⟩ := ih (pref ++ f) (runS s f).1 (fun g hg => hfr g (by simp [hg]))
      (by simp [hf.len]; omega) (by intro i hi; exact hsync i (by simpa using hi)) a5 (by omega)
    have hpre' := b2 a4
    subst hpre'
    rw [List.flatten_cons, runS_append, a3, b3]
    exact ⟨pre, a1, a2, by simp, fun _ => b4 a4, b5⟩

/-- an incomplete payload delivers nothing -/
theorem runS_payload_part : ∀ (bits : List Bool) (s : Sch), s.outIdx + bits.length < 320 →
    (∀ k, bits[k]? = some true → runEnd s.consecutiveZeros (bits.take k) < 16) →
    s.consecutiveZeros + bits.length < 2 ^ 32 → (runS s bits).2 = [] := by
  intro bits
  induction bits with
  | nil => intro s _ _ _; rfl
  | cons b bits ih =>
    intro s hlen hq hbig
    have hq0 : ¬ (b = true ∧ 16 ≤ s.consecutiveZeros) := by
      intro ⟨h1, h2⟩
      have := hq 0 (by simp [h1])
      simp [runEnd] at this
      omega
    have hz1 : (if b then 0 else (s.consecutiveZeros + 1) % 2 ^ 32) = runEnd s.consecutiveZeros [b] := by
      cases b
      · simp only [List.length_cons] at hbig
        simp [runEnd]
        omega
      · simp [runEnd]
    simp only [List.length_cons] at hlen hbig
    have hlt : ¬ 319 ≤ s.outIdx := by omega
    have hst : stepS s b = (Sch.mk (s.outBitbuf.set s.outIdx (ub b)) (s.outIdx + 1)
          (runEnd s.consecutiveZeros [b]) s.inSync, none) := by
        simp only [stepS, hq0, if_false, hlt, hz1]
    have hzb : runEnd s.consecutiveZeros [b] ≤ s.consecutiveZeros + 1 := by
        cases b <;> simp [runEnd]
    have := ih (stepS s b).1 (by rw [hst]; simp only; omega)
      (by
        intro k hk
        have := hq (k + 1) (by simpa using hk)
        rw [hst]
        simp only [List.take_succ_cons] at this
        rwa [show b :: bits.take k = [b] ++ bits.take k from rfl, runEnd_append] at this)
      (by rw [hst]; simp only; omega)
    rw [runS, this, hst]
    rfl

theorem replicate_split (n m : Nat) (h : n ≤ m) :
    List.replicate m false = List.replicate n false ++ List.replicate (m - n) false := by
  rw [List.replicate_append_replicate]; congr 1; omega

/-- quiet payload of a clean frame -/
theorem quiet_of_clean {f : List Bool} (hc : IsCleanFrame f) :
    ∀ k, 17 ≤ k → f[k]? = some true → runEnd 0 ((f.take k).drop 17) < 16 := by
  intro k hk hb
  have hf := hc.toIsFrame
  have hklen : k < 320 := by
    rw [← hf.len]
    exact (List.getElem?_eq_some_iff.1 hb).1
  rcases Nat.lt_or_ge (runEnd 0 ((f.take k).drop 17)) 16 with h | h
  · exact h
  · exfalso
    have hl : ((f.take k).drop 17).length = k - 17 := by
      simp [hf.len]; omega
    have hle := runEnd_le_length 0 ((f.take k).drop 17)
    rw [hl] at hle
    have hsp := runEnd_ge_spec _ 16 0 (by omega) h
    rw [hl] at hsp
    have := hc.noEmul k ⟨by omega, hb, ?_⟩
    · omega
    · intro j j1 j2
      have := hsp (j - 17) (by omega) (by omega)
      rw [List.getElem?_drop, List.getElem?_take] at this
      rw [if_pos (by omega)] at this
      rw [← this]
      congr 1
      omega

/-- a proper prefix of a clean frame delivers nothing -/
theorem runS_frame_part (s : Sch) (f : List Bool) (hc : IsCleanFrame f) (hwf : s.WF)
    (hs : s.inSync = false) (hz : s.consecutiveZeros + 16 < 2 ^ 32) (n : Nat) (hn : n < 320) :
    (runS s (f.take n)).2 = [] := by
  have hf := hc.toIsFrame
  have hsplit : f = List.replicate 16 false ++ ([true] ++ f.drop 17) := by
    conv => lhs; rw [← List.take_append_drop 17 f, hf.hdr]
    simp
  by_cases h16 : n ≤ 16
  · have : f.take n = List.replicate n false := by
      rw [hsplit, List.take_append_of_le_length (by simpa using h16), List.take_replicate,
        Nat.min_eq_left h16]
    rw [this]
    exact (runS_zeros n s hwf (by omega)).2.2 hs
  · have hpl : (f.drop 17).length = 303 := by simp [hf.len]
    have : f.take n = List.replicate 16 false ++ ([true] ++ (f.drop 17).take (n - 17)) := by
      conv => lhs; rw [hsplit]
      rw [List.take_append, List.take_of_length_le (by simp; omega), List.length_replicate,
        List.take_append, List.take_of_length_le (by simp; omega)]
      simp only [List.length_cons, List.length_nil]
      rw [show n - 16 - (0 + 1) = n - 17 by omega]
    obtain ⟨z1, z2, z3⟩ := runS_zeros 16 s hwf hz
    have hwf1 := runS_wf s hwf (List.replicate 16 false)
    rw [this, runS_append, z3 hs, List.nil_append]
    generalize hs1 : (runS s (List.replicate 16 false)).1 = s1 at *
    have hst : stepS s1 true = (Sch.mk (hdr17 ++ (s1.outBitbuf.set s1.outIdx (ub true)).drop 17) 17 0 true,
        none) := by
      unfold stepS
      simp only
      rw [if_pos ⟨trivial, by omega⟩]
    rw [List.singleton_append, runS, hst]
    simp only [Option.toList_none, List.nil_append]
    have hl : ((f.drop 17).take (n - 17)).length ≤ n - 17 := by simp; omega
    refine runS_payload_part _ _ (by simp only; omega) ?_ (by simp only; omega)
    intro k hk
    simp only
    have hkl : k < n - 17 := by
      have := (List.getElem?_eq_some_iff.1 hk).1
      omega
    rw [List.getElem?_take, if_pos hkl, List.getElem?_drop] at hk
    have := quiet_of_clean hc (17 + k) (by omega) hk
    rw [List.drop_take, show 17 + k - 17 = k by omega] at this
    rwa [List.take_take, Nat.min_eq_left (by omega)]

/-- a concatenation of clean frames is a clean stream -/
theorem cleanStream_of_frames : ∀ (fs : List (List Bool)), (∀ f ∈ fs, IsCleanFrame f) →
    CleanStream fs := by
  intro fs
  induction fs with
  | nil =>
    intro _
    refine ⟨by simp, ?_⟩
    intro i hi
    have := hi.2.1
    simp at this
  | cons f fs ih =>
    intro h
    have hf := h f (by simp)
    have hfl := hf.len
    have ih := ih (fun g hg => h g (by simp [hg]))
    refine ⟨fun g hg => (h g hg).toIsFrame, ?_⟩
    intro i hi
    obtain ⟨h1, h2, h3⟩ := hi
    rw [List.flatten_cons] at h2 h3
    by_cases hlt : i < 320
    · have := hf.noEmul i ⟨h1, ?_, ?_⟩
      · omega
      · rwa [List.getElem?_append_left (by omega)] at h2
      · intro j j1 j2
        have := h3 j j1 j2
        rwa [List.getElem?_append_left (by omega)] at this
    · rw [List.getElem?_append_right (by omega)] at h2
      by_cases h16 : 16 ≤ i - 320
      · have := ih.noEmul (i - 320) ⟨h16, by rw [hfl] at h2; exact h2, ?_⟩
        · omega
        · intro j j1 j2
          have := h3 (j + 320) (by omega) (by omega)
          rw [List.getElem?_append_right (by omega), hfl] at this
          simpa using this
      · exfalso
        cases fs with
        | nil => simp at h2
        | cons g gs =>
          have hg := (h g (by simp)).hdr
          have hgl := (h g (by simp)).len
          rw [List.flatten_cons, List.getElem?_append_left (by omega), hfl] at h2
          have : (g.take 17)[i - 320]? = some false := by
            rw [hg, List.getElem?_append_left (by simp; omega),
              List.getElem?_replicate_of_lt (by omega)]
          rw [List.getElem?_take, if_pos (by omega)] at this
          rw [this] at h2
          cases h2

end Verif.Demux
