import Verif.Spec.Chain
import Verif.Props.SyncPat
import Verif.Props.Mux
import Verif.Props.RtpE2e
/-!
# C151 - C153: streams of frames, synchronised or multiplexed, and decoded
-/
namespace Verif.Chain
open Verif Verif.Trau Verif.Spec.Trau Verif.TrauSync
set_option maxRecDepth 10000

theorem feed_eq (g : Nat → Nat → Byte) : ∀ (cs : List (List Byte)) (s : St), Reach g s → feed g s cs = rxUbits g s cs.flatten := by
  intro cs
  induction cs with
  | nil => intro s _; simp [feed, rxUbits, dispatch]
  | cons c cs ih =>
    intro s h
    obtain ⟨s1, e1, s2, e2, h1, h2, h3⟩ := C15_chunking g s h c cs.flatten
    have r1 : Reach g s1 := .step (o := .rx c) h trivial h1
    rw [feed, h1]
    simp only [ih s1 r1, h2, List.flatten_cons, h3]

/-- all patterns begin with a zero bit -/
theorem first_zero : ∀ p ∈ syncPatterns, p.mask[0]? ≠ some 0 ∧ p.bits[0]? = some 0 ∧ 0 < p.nbits := by decide +kernel

theorem fails_iff {i : Nat} {s s' : St} {p : Pat} (ha : alloc i = some s) (hp : syncPatterns[i]? = some p) (e : s'.pats = s.pats) (b : List Byte) :
    Fails s' b ↔ ¬ Matches p b := by
  unfold alloc at ha
  rw [hp] at ha
  cases ha
  unfold Fails
  rw [e]
  simp

/-- **C151** Whatever number of ones (an idle line) precedes: a new synchroniser delivers every block of the stream, from the first, which matches the pattern, as long as no three blocks in a row
are errored; each of them once, in order, unchanged, whatever the division of the stream into buffers. -/
theorem C151_blocks (g : Nat → Nat → Byte) (i : Nat) (s : St) (p : Pat) (ha : alloc i = some s) (hp : syncPatterns[i]? = some p) (n : Nat) (f : List Byte) (bs : List (List Byte))
    (hl : ∀ b ∈ f :: bs, b.length = p.nbits) (hm : Matches p f) (hn : NoTriple (fun b => ¬ Matches p b) bs) (chunks : List (List Byte))
    (hc : chunks.flatten = List.replicate n 1 ++ (f :: bs).flatten) :
    ∃ s', feed g s chunks = .ok (s', (f :: bs).map some) ∧ s'.fsm = .aligned := by
  have hfl : f.length = p.nbits := hl f (by simp)
  obtain ⟨z1, z2, z3⟩ := first_zero p (List.mem_of_getElem? hp)
  have hw : window (List.replicate n 1 ++ (f :: bs).flatten) p.nbits (n + p.nbits) = f := by
    unfold window
    have : (n + p.nbits) - p.nbits = n := by omega
    rw [this, List.flatten_cons, ← List.append_assoc, List.take_left' (by simp [hfl])]
    exact List.drop_left' (by simp)
  have r0 : Reach g s := .alloc ha
  obtain ⟨s1, h1, h2, h3, h4, h5⟩ := C18_first_match g i s p ha hp (List.replicate n 1 ++ (f :: bs).flatten) (n + p.nbits) (by omega)
    (by simp [hfl]) (by rw [hw]; exact hm) (by
      intro j j1 j2 hM
      have := hM 0 (by show 0 < p.nbits; omega) z1
      rw [z2] at this
      unfold window at this
      rw [List.getElem?_drop, List.getElem?_take_of_lt (by omega), List.getElem?_append_left (by simp; omega), List.getElem?_replicate_of_lt (by omega)] at this
      cases this)
  rw [hw] at h1
  have r1 : Reach g s1 := .step (o := .rx _) r0 trivial h1
  have hp1 : s1.pats[0]? = some (some p) := by
    rw [h5]
    unfold alloc at ha; rw [hp] at ha; cases ha; rfl
  obtain ⟨s2, k1, k2⟩ := C19_keeps_alignment g s1 r1 ⟨h2, h3, h4⟩ p hp1 bs (fun b hb => hl b (by simp [hb])) (by
    intro pre a b c post e h
    exact hn pre a b c post e ⟨(fails_iff ha hp h5 a).1 h.1, (fails_iff ha hp h5 b).1 h.2.1, (fails_iff ha hp h5 c).1 h.2.2⟩)
  refine ⟨s2, ?_, k2⟩
  rw [feed_eq g _ s r0, hc]
  have hx : (List.replicate n 1 ++ (f :: bs).flatten).take (n + p.nbits) = List.replicate n 1 ++ f := by
    rw [List.flatten_cons, ← List.append_assoc]; exact List.take_left' (by simp [hfl])
  rw [hx] at h1
  obtain ⟨t1, a1, t2, a2, q1, q2, q3⟩ := C15_chunking g s r0 (List.replicate n 1 ++ f) bs.flatten
  rw [h1] at q1
  cases q1
  rw [k1] at q2
  cases q2
  rw [List.flatten_cons, ← List.append_assoc, q3]
  simp

theorem each_mem {α β : Type} {R : α → β → Prop} {fs : List α} {ws : List β} (h : Each R fs ws) {w : β} (m : w ∈ ws) : ∃ f ∈ fs, R f w := by
  induction h with
  | nil => cases m
  | cons a _ ih =>
    rcases List.mem_cons.1 m with rfl | m
    · exact ⟨_, by simp, a⟩
    · obtain ⟨f, q1, q2⟩ := ih m; exact ⟨f, by simp [q1], q2⟩

/-- what is sent for a frame shows the alignment bits -/
theorem sent_matches {f : Frame} {w : List Bool} (hf : f.WF) (ht : f.type ∈ followed) (hta : TaOk f) (h : Sent f w) :
    ∃ p, syncPatterns[patFor f.type]? = some p ∧ (ubs w).length = p.nbits ∧ Matches p (ubs w) := by
  obtain ⟨b, e, h1, h2, rfl⟩ := h
  obtain ⟨rc, e', p, g1, g2, g3, g4⟩ := C70_encoder f b hf ht h1 hta
  rw [h2] at g1
  cases g1
  refine ⟨p, g2, ?_, g4⟩
  obtain ⟨rc, e', k1, k2, _⟩ := C27_encode_buffer f b hf hta
  rw [h2] at k1
  cases k1
  have : frameBits f.type ≤ minBits f.type := by revert ht; cases f.type <;> decide
  simp only [ubs, List.length_map, List.length_take]
  omega

/-- **C151** The frames a sender encodes (of types with the same alignment pattern), after an idle line, all reach the receiver: a new synchroniser for this pattern delivers the bits of each
frame, and nothing else -/
theorem C151_stream (g : Nat → Nat → Byte) (i : Nat) (s : St) (ha : alloc i = some s) (fs : List Frame) (ws : List (List Bool)) (hs : Each Sent fs ws)
    (hf : ∀ f ∈ fs, f.WF ∧ f.type ∈ followed ∧ patFor f.type = i ∧ TaOk f) (n : Nat) (chunks : List (List Byte)) (hc : chunks.flatten = List.replicate n 1 ++ (ws.map ubs).flatten) :
    ∃ s', feed g s chunks = .ok (s', ws.map fun w => some (ubs w)) := by
  have hp : ∃ p, syncPatterns[i]? = some p := by
    unfold alloc at ha
    cases h : syncPatterns[i]? with
    | none => rw [h] at ha; cases ha
    | some p => exact ⟨p, rfl⟩
  obtain ⟨p, hp⟩ := hp
  have hM : ∀ b ∈ ws.map ubs, b.length = p.nbits ∧ Matches p b := by
    intro b m
    obtain ⟨w, m', rfl⟩ := List.mem_map.1 m
    obtain ⟨f, q1, q2⟩ := each_mem hs m'
    obtain ⟨q3, q4, q5, q6⟩ := hf f q1
    obtain ⟨p', k1, k2, k3⟩ := sent_matches q3 q4 q6 q2
    rw [q5, hp] at k1
    cases k1
    exact ⟨k2, k3⟩
  cases ws with
  | nil =>
    rw [feed_eq g _ s (.alloc ha), hc]
    obtain ⟨s', h⟩ := C18_nothing_before g i s p ha hp (List.replicate n 1 ++ (([] : List (List Bool)).map ubs).flatten) (by
      intro k k1 k2 hM
      obtain ⟨z1, z2, z3⟩ := first_zero p (List.mem_of_getElem? hp)
      simp at k2
      have := hM 0 (by show 0 < p.nbits; omega) z1
      rw [z2] at this
      unfold window at this
      rw [List.getElem?_drop, List.getElem?_take_of_lt (by omega), List.getElem?_append_left (by simp; omega), List.getElem?_replicate_of_lt (by omega)] at this
      cases this)
    exact ⟨s', h⟩
  | cons w ws =>
    rw [List.map_cons] at hM hc
    obtain ⟨s', h, _⟩ := C151_blocks g i s p ha hp n (ubs w) (ws.map ubs) (fun b m => (hM b m).1) (hM _ (by simp)).2 (by
      intro pre a b c post e h
      exact h.1 (hM a (by rw [List.mem_cons, e]; simp)).2) chunks hc
    refine ⟨s', ?_⟩
    rw [h]
    simp [Function.comp_def]

/-- **C151** … and each of these, given to the decoder (whatever the structure contained before), is the frame that was encoded: its type, direction and all bits it transports -/
theorem C151_decoded (f f0 : Frame) (w : List Bool) (h : Sent f w) (hf : f.WF) (h0 : f0.WF) (hta : TaOk f) :
    (f.type ∈ roundTrip16 → ∃ f', decode16k f0 w f.dir = .ok (0, f') ∧ f'.type = f.type ∧ f'.dir = f.dir ∧ payload f.type 5 f' = payload f.type 5 f) ∧
      (f.type ∈ roundTrip8 → Code8Ok f → ∃ f', decode8k f0 w f.dir = .ok (0, f') ∧ f'.type = f.type ∧ f'.dir = f.dir ∧ payload f.type 5 f' = payload f.type 5 f) := by
  obtain ⟨b, e, h1, h2, rfl⟩ := h
  constructor
  · intro ht
    obtain ⟨rc, e', f', k1, _, _, k2, k3, k4, _, k5⟩ := C23_roundtrip f f0 b hf h0 ht h1 hta
    rw [h2] at k1
    cases k1
    have hb : frameBits f.type = 320 := by revert ht; cases f.type <;> decide
    rw [hb]
    exact ⟨f', k2, k3, k4, k5⟩
  · intro ht hc
    obtain ⟨rc, e', f', k1, _, k2, k3, k4, k5, k6⟩ := C25_roundtrip f f0 b hf h0 ht hc h1 hta
    rw [h2] at k1
    cases k1
    have hb : frameBits f.type = 160 := by revert ht; cases f.type <;> decide
    rw [hb]
    refine ⟨f', k2, k3, k4, ?_⟩
    by_cases hs : f.type = .speech8
    · exact (k5 hs).2
    · have := k6 hs
      unfold payload at this ⊢
      simp only [List.drop_zero, Prod.mk.injEq] at this ⊢
      exact ⟨by rw [this.1], this.2⟩

/-- the hypotheses are met: two full rate frames in the up-link after a hundred ones, received octet by octet or bit by bit -/
example : ∃ (f : Frame) (w : List Bool), Sent f w ∧ Each Sent [f, f] [w, w] ∧ f.WF ∧ f.type ∈ followed ∧ f.type ∈ roundTrip16 ∧ patFor f.type = 0 ∧ TaOk f := by
  let f : Frame := { idleFrame with type := .fr, dir := .ul }
  have hw : f.WF := ⟨rfl, rfl, rfl, rfl, rfl, rfl, rfl⟩
  obtain ⟨e, h, _⟩ := C28_ta16_uplink f (List.replicate 640 false) hw (by decide) (by unfold TaOk; decide) (by decide) rfl
  have hs : Sent f (e.take 320) := ⟨List.replicate 640 false, e, by decide, h, rfl⟩
  exact ⟨f, _, hs, .cons hs (.cons hs .nil), hw, by decide, by decide, rfl, by unfold TaOk; decide⟩

/-! ### C152 -/

theorem clean_of_sync {w : List Bool} (hl : w.length = 320) (h0 : ∀ i < 16, w[i]? = some false) (h1 : ∀ k < 19, w[16 + 16 * k]? = some true) : Spec.IsCleanFrame w := by
  refine ⟨⟨hl, ?_⟩, ?_⟩
  · apply List.ext_getElem?
    intro i
    rcases Nat.lt_or_ge i 16 with h | h
    · rw [List.getElem?_take_of_lt (by omega), h0 i h, List.getElem?_append_left (by simpa using h), List.getElem?_replicate_of_lt h]
    · rcases Nat.lt_or_ge 16 i with g | g
      · rw [List.getElem?_eq_none (by simp; omega), List.getElem?_eq_none (by simp; omega)]
      · have : i = 16 := by omega
        subst this
        rw [List.getElem?_take_of_lt (by omega), h1 0 (by omega)]; rfl
  · rintro i ⟨g1, g2, g3⟩
    have hi : i < 320 := by rw [← hl]; exact (List.getElem?_eq_some_iff.1 g2).1
    rcases Nat.lt_or_ge 16 i with g | g
    · have := g3 (16 + 16 * ((i - 1) / 16 - 1)) (by omega) (by omega)
      rw [h1 _ (by omega)] at this
      cases this
    · omega

/-- **C152** The bits sent for a frame on a 16k sub-slot (of any type but extended data) show the alignment pattern at their start and nowhere else -/
theorem C152_clean {f : Frame} {w : List Bool} (hf : f.WF) (ht : f.type ∈ followed) (h16 : frameBits f.type = 320) (hta : TaOk f) (h : Sent f w) : Spec.IsCleanFrame w := by
  obtain ⟨b, e, h1, h2, rfl⟩ := h
  have hm : f.type ∈ allTypes ∧ frameBits f.type ≤ minBits f.type ∧ patFor f.type = 0 := by
    revert ht h16; cases f.type <;> decide
  obtain ⟨e0, k1, k2⟩ := bits_sync f hf ht (b.take (frameBits f.type)) (by rw [List.length_take]; omega)
  obtain ⟨hl, n, e', k3, _, k4, _⟩ := encode_of f b (frameBits f.type) e0 hm.1 h1 hta (by omega) (Nat.le_refl _) k1
  rw [h2] at k3
  have k3 := (Prod.mk.inj (Except.ok.inj k3)).2
  subst k3
  rw [hm.2.2] at k2
  have e1 : e.take (frameBits f.type) = e0 := by rw [k4, List.take_of_length_le (by omega)]
  rw [e1]
  refine clean_of_sync (by omega) (fun i hi => ?_) (fun k hk => ?_)
  · exact k2 (i, false) (List.mem_append_left _ (List.mem_map.2 ⟨i, List.mem_range.2 hi, rfl⟩))
  · exact k2 (16 + 16 * k, true) (List.mem_append_right _ (List.mem_map.2 ⟨k, List.mem_range.2 hk, rfl⟩))

/-- **C152** Frames encoded for 16k sub-slots, multiplexed and demultiplexed: on each sub-channel the receiver gets the bits of these frames in order, with idle frames in between, complete and
unchanged, whatever the times at which frames are given to the multiplexer and octets are taken from it (as long as there is room in its queue) -/
theorem C152_mux (os : List Mux.Op) (fs : Nat → List Frame) (h4 : ∀ c f, Mux.Op.enqueue c f ∈ os → c < 4) (hs : ∀ c, c < 4 → Each Sent (fs c) (Mux.enqueued c os))
    (hf : ∀ c f, c < 4 → f ∈ fs c → f.WF ∧ f.type ∈ followed ∧ frameBits f.type = 320 ∧ TaOk f) (hn : Mux.NoEvict Mux.init os) (idle : List Bool) (hi : Mux.IsIdle idle) :
    ∃ m bs d log, Mux.run Mux.init os = .ok (m, bs) ∧ Demux.demuxIn Mux.rx bs = .ok (d, log) ∧
      ∀ c < 4, ∃ seq, Mux.Padded idle (Mux.enqueued c os) seq ∧ Spec.evOf c log = (seq.take (bs.length / 160)).map Spec.ubits := by
  have hmem : ∀ (os : List Mux.Op) c f, Mux.Op.enqueue c f ∈ os → f ∈ Mux.enqueued c os := by
    intro os c f m
    induction os with
    | nil => cases m
    | cons o os ih =>
      rcases List.mem_cons.1 m with e | m
      · subst e; simp [Mux.enqueued]
      · have := ih m
        cases o with
        | enqueue c' f' => unfold Mux.enqueued; split <;> simp [this]
        | output n => exact this
  obtain ⟨m, bs, d, log, k1, k2, k3⟩ := Mux.C14_mux_demux os (by
    intro o ho c f e
    subst e
    have hc := h4 c f ho
    obtain ⟨x, q1, q2⟩ := each_mem (hs c hc) (hmem os c f ho)
    obtain ⟨q3, q4, q5, q6⟩ := hf c x hc q1
    exact ⟨hc, C152_clean q3 q4 q5 q6 q2⟩) hn idle hi
  refine ⟨m, bs, d, log, k1, k2, fun c hc => ?_⟩
  obtain ⟨seq, p1, p2, _⟩ := k3 c hc
  exact ⟨seq, p1, p2⟩

/-! ### C153 -/

open Verif.RtpConv Verif.Spec.Rtp

/-- what the sender does with an RTP payload: it converts it to a TRAU frame (starting from `tf`) and encodes that -/
def SendRtp (K : Codec) (st : State) (tf : Frame) (pl : List Byte) (w : List Bool) : Prop := ∃ tf', rtp2trau K st tf pl = .ok (0, tf') ∧ Sent tf' w

/-- what the receiver does with the bits of a frame: it decodes them and converts the frame to an RTP payload, which is the first `n` octets of its buffer `out` -/
def RecvRtp (K : Codec) (st : State) (f0 : Frame) (out : List Byte) (w : List Bool) (pl : List Byte) : Prop :=
  ∃ f', decode16k f0 w .ul = .ok (0, f') ∧ trau2rtp K st out f' = .ok (pl.length, pl ++ out.drop pl.length)

theorem each_imp {α β γ : Type} {R : α → β → Prop} {S : β → γ → Prop} {g : α → γ} : ∀ {as : List α} {bs : List β}, Each R as bs → (∀ a ∈ as, ∀ b, R a b → S b (g a)) → Each S bs (as.map g) := by
  intro as bs h
  induction h with
  | nil => intro _; exact .nil
  | cons a _ ih => intro k; exact .cons (k _ (by simp) _ a) (ih fun x m => k x (by simp [m]))

/-- a full rate or enhanced full rate payload, as configured -/
def Speech (st : State) (pl : List Byte) : Prop := (st.type = .fr ∧ ∃ s, IsFr pl s) ∨ (st.type = .efr ∧ ∃ s, IsEfr pl s)

theorem send_recv {K : Codec} {st st' : State} {tf f0 : Frame} (h : tf.WF) (h0 : f0.WF) (hul : tf.dir = .ul) (hta : TaOk tf) (hst' : st'.twts001 = false) {out : List Byte} (ho : 33 ≤ out.length)
    {pl : List Byte} (hp : Speech st pl) {w : List Bool} (hw : SendRtp K st tf pl w) :
    RecvRtp K st' f0 out w pl ∧ ∃ f, Sent f w ∧ f.WF ∧ f.type ∈ followed ∧ patFor f.type = 0 ∧ frameBits f.type = 320 ∧ TaOk f := by
  obtain ⟨x, hx, b, e, h1, h2, rfl⟩ := hw
  have hta' : TaOk x := by have := rtp2trau_ta K st tf pl _ hx; unfold TaOk; rw [this]; exact hta
  rcases hp with ⟨ht, s, hs⟩ | ⟨ht, s, hs⟩
  · obtain ⟨tf', k1, k2, k3, k4, _⟩ := C32_rtp2trau K st ht h hs (.inl rfl)
    rw [hx] at k1
    cases k1
    have hb : 639 ≤ b.length := by rw [k3] at h1; exact h1
    obtain ⟨tf', f', q1, ⟨rc, e', q2, _, q3⟩, q4⟩ := C74_fr K st st' ht hst' h h0 hul hta hs hb ho
    rw [hx] at q1
    cases q1
    rw [h2] at q2
    cases q2
    rw [k4, hul] at q3
    have hl : pl.length = 33 := hs.len
    refine ⟨⟨f', ?_, ?_⟩, x, ⟨b, e, h1, h2, rfl⟩, k2, by rw [k3]; decide, by rw [k3]; rfl, by rw [k3]; decide, hta'⟩
    · rw [k3]; exact q3
    · rw [q4, hl]; rfl
  · obtain ⟨tf', k1, k2, k3, k4, _⟩ := rtp2trauEfr_all K st ht h hs (strip_efr hs)
    rw [hx] at k1
    cases k1
    have hb : 639 ≤ b.length := by rw [k3] at h1; exact h1
    obtain ⟨tf', f', q1, ⟨rc, e', q2, _, q3⟩, q4⟩ := C74_efr K st st' ht hst' h h0 hul hta hs hb (out := out) (by omega)
    rw [hx] at q1
    cases q1
    rw [h2] at q2
    cases q2
    rw [k4, hul] at q3
    have hl : pl.length = 31 := hs.len
    refine ⟨⟨f', ?_, ?_⟩, x, ⟨b, e, h1, h2, rfl⟩, k2, by rw [k3]; decide, by rw [k3]; rfl, by rw [k3]; decide, hta'⟩
    · rw [k3]; exact q3
    · rw [q4, hl]; rfl

/-- **C153** the sender never fails: every payload becomes a frame of 320 bits -/
theorem C153_sender (K : Codec) (st : State) {tf : Frame} (h : tf.WF) (hul : tf.dir = .ul) (hta : TaOk tf) {pl : List Byte} (hp : Speech st pl) : ∃ w, SendRtp K st tf pl w ∧ w.length = 320 := by
  have key : ∀ x : Frame, rtp2trau K st tf pl = .ok (0, x) → x.WF → x.dir = tf.dir → x.type ∈ taTypes16 → ∃ w, SendRtp K st tf pl w ∧ w.length = 320 := by
    intro x k1 k2 k4 k3
    have hta' : TaOk x := by have := rtp2trau_ta K st tf pl _ k1; unfold TaOk; rw [this]; exact hta
    obtain ⟨e, q1, q2⟩ := C28_ta16_uplink x (List.replicate 640 false) k2 k3 hta' (by decide) (k4.trans hul)
    obtain ⟨_, _, q3, q4, _⟩ := C27_encode_buffer x (List.replicate 640 false) k2 hta'
    rw [q1] at q3
    cases q3
    have hb : frameBits x.type = 320 ∧ minBits x.type = 639 := by revert k3; cases x.type <;> decide
    refine ⟨e.take 320, ⟨x, k1, List.replicate 640 false, e, by rw [hb.2]; decide, by rw [hb.1]; exact q1, by rw [hb.1]⟩, ?_⟩
    rw [List.length_take, q4]; decide
  rcases hp with ⟨ht, s, hs⟩ | ⟨ht, s, hs⟩
  · obtain ⟨x, k1, k2, k3, k4, _⟩ := C32_rtp2trau K st ht h hs (.inl rfl)
    exact key x k1 k2 k4 (by rw [k3]; decide)
  · obtain ⟨x, k1, k2, k3, k4, _⟩ := rtp2trauEfr_all K st ht h hs (strip_efr hs)
    exact key x k1 k2 k4 (by rw [k3]; decide)

theorem each_split {α β γ : Type} {R : α → β → Prop} {P : γ → Prop} {Q : γ → β → Prop} : ∀ {as : List α} {bs : List β}, Each R as bs → (∀ a ∈ as, ∀ b, R a b → ∃ c, Q c b ∧ P c) →
    ∃ cs, Each Q cs bs ∧ ∀ c ∈ cs, P c := by
  intro as bs h
  induction h with
  | nil => intro _; exact ⟨[], .nil, fun _ m => nomatch m⟩
  | cons a _ ih =>
    intro k
    obtain ⟨c, c1, c2⟩ := k _ (by simp) _ a
    obtain ⟨cs, q1, q2⟩ := ih fun x m => k x (by simp [m])
    refine ⟨c :: cs, .cons c1 q1, ?_⟩
    intro y m
    rcases List.mem_cons.1 m with rfl | m
    · exact c2
    · exact q2 y m

/-- **C153** A call on a synchronised 16k sub-slot: the payloads of the RTP packets of an up-link, sent as TRAU frames, come out of the synchroniser, the decoder and the converter of the
receiver as the same payloads in the same order, none missing and none added, whatever the number of ones before them and the division of the bits into buffers -/
theorem C153_sync (K : Codec) (st st' : State) (hst' : st'.twts001 = false) {tf f0 : Frame} (h : tf.WF) (h0 : f0.WF) (hul : tf.dir = .ul) (hta : TaOk tf) {out : List Byte} (ho : 33 ≤ out.length)
    (pls : List (List Byte)) (hp : ∀ pl ∈ pls, Speech st pl) (ws : List (List Bool)) (hs : Each (SendRtp K st tf) pls ws)
    (g : Nat → Nat → Byte) (s : St) (ha : alloc 0 = some s) (n : Nat) (chunks : List (List Byte)) (hc : chunks.flatten = List.replicate n 1 ++ (ws.map ubs).flatten) :
    ∃ s', feed g s chunks = .ok (s', ws.map fun w => some (ubs w)) ∧ Each (RecvRtp K st' f0 out) ws pls := by
  obtain ⟨fs, q1, q2⟩ := each_split (Q := Sent) (P := fun f => f.WF ∧ f.type ∈ followed ∧ patFor f.type = 0 ∧ frameBits f.type = 320 ∧ TaOk f) hs
    (fun pl m w r => (send_recv h h0 hul hta hst' ho (hp pl m) r).2)
  obtain ⟨s', k⟩ := C151_stream g 0 s ha fs ws q1 (fun f m => ⟨(q2 f m).1, (q2 f m).2.1, (q2 f m).2.2.1, (q2 f m).2.2.2.2⟩) n chunks hc
  refine ⟨s', k, ?_⟩
  have := each_imp (g := id) hs (fun pl m w r => (send_recv (out := out) h h0 hul hta hst' ho (hp pl m) r).1)
  rwa [List.map_id] at this

/-- **C153** … and calls on the sub-channels of a multiplexed time slot: every frame delivered on a sub-channel is an idle frame or gives the next payload of the call on this sub-channel -/
theorem C153_mux (K : Codec) (st st' : Nat → State) (hst' : ∀ c, (st' c).twts001 = false) {tf f0 : Frame} (h : tf.WF) (h0 : f0.WF) (hul : tf.dir = .ul) (hta : TaOk tf) {out : List Byte} (ho : 33 ≤ out.length)
    (pls : Nat → List (List Byte)) (hp : ∀ c, ∀ pl ∈ pls c, Speech (st c) pl) (os : List Mux.Op) (h4 : ∀ c f, Mux.Op.enqueue c f ∈ os → c < 4)
    (hs : ∀ c, c < 4 → Each (SendRtp K (st c) tf) (pls c) (Mux.enqueued c os)) (hn : Mux.NoEvict Mux.init os) (idle : List Bool) (hi : Mux.IsIdle idle) :
    ∃ m bs d log, Mux.run Mux.init os = .ok (m, bs) ∧ Demux.demuxIn Mux.rx bs = .ok (d, log) ∧
      ∀ c < 4, ∃ seq, Mux.Padded idle (Mux.enqueued c os) seq ∧ Spec.evOf c log = (seq.take (bs.length / 160)).map Spec.ubits ∧
        Each (RecvRtp K (st' c) f0 out) (Mux.enqueued c os) (pls c) := by
  have key : ∀ c, ∃ fs, c < 4 → Each Sent fs (Mux.enqueued c os) ∧ ∀ f ∈ fs, f.WF ∧ f.type ∈ followed ∧ patFor f.type = 0 ∧ frameBits f.type = 320 ∧ TaOk f := by
    intro c
    by_cases hc : c < 4
    · obtain ⟨fs, q1, q2⟩ := each_split (Q := Sent) (P := fun f => f.WF ∧ f.type ∈ followed ∧ patFor f.type = 0 ∧ frameBits f.type = 320 ∧ TaOk f) (hs c hc)
        (fun pl m w r => (send_recv h h0 hul hta (hst' c) ho (hp c pl m) r).2)
      exact ⟨fs, fun _ => ⟨q1, q2⟩⟩
    · exact ⟨[], fun e => absurd e hc⟩
  obtain ⟨fs, hfs⟩ := Classical.axiomOfChoice key
  obtain ⟨m, bs, d, log, k1, k2, k3⟩ := C152_mux os fs h4 (fun c hc => (hfs c hc).1) (fun c f hc hm => by
    obtain ⟨a1, a2, _, a3, a4⟩ := (hfs c hc).2 f hm; exact ⟨a1, a2, a3, a4⟩) hn idle hi
  refine ⟨m, bs, d, log, k1, k2, fun c hc => ?_⟩
  obtain ⟨seq, p1, p2⟩ := k3 c hc
  refine ⟨seq, p1, p2, ?_⟩
  have := each_imp (g := id) (hs c hc) (fun pl m w r => (send_recv (out := out) h h0 hul hta (hst' c) ho (hp c pl m) r).1)
  rwa [List.map_id] at this

/-- the hypotheses are met: a full rate payload, sent twice, on a sub-channel of a time slot -/
example : ∃ (pl : List Byte) (w : List Bool), Speech (stFr false) pl ∧ SendRtp K0 (stFr false) (Frame0 .ul) pl w ∧ Each (SendRtp K0 (stFr false) (Frame0 .ul)) [pl, pl] [w, w] ∧
    Mux.NoEvict Mux.init [.enqueue 0 w, .enqueue 0 w, .output 160] := by
  have hp : Speech (stFr false) exFr := .inl ⟨rfl, (bitsOf exFr).drop 4, ⟨by rfl, by rfl, by decide +kernel⟩⟩
  obtain ⟨w, h, _⟩ := C153_sender K0 (stFr false) (tf := Frame0 .ul) (Frame0_WF _) rfl (by unfold TaOk; decide) hp
  refine ⟨exFr, w, hp, h, .cons h (.cons h .nil), ?_⟩
  refine ⟨Nat.zero_le _, fun r e => ?_⟩
  cases e
  refine ⟨by show 1 ≤ 2; decide, fun r e => ?_⟩
  cases e
  exact ⟨trivial, fun _ _ => trivial⟩

end Verif.Chain
