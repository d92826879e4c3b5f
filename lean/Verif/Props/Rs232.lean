import Verif.Spec.Rs232
/-!
# C56, C57: the serial line
-/
set_option maxRecDepth 10000
namespace Verif.Rs232

theorem bind_ok {α β : Type} (x : α) (f : α → M β) : (Except.ok x >>= f) = f x := rfl

theorem hdrLen_append {d : List Byte} (h : 2 ≤ d.length) (bs : List Byte) : hdrLen (d ++ bs) = hdrLen d := by
  match d, h with
  | x :: y :: _, _ => rfl

theorem fold_frames (buf : List Byte) (fr : List (List Byte)) (bs : List Byte) :
    bs.foldl rxByte (buf, fr) = ((bs.foldl rxByte (buf, [])).1, fr ++ (bs.foldl rxByte (buf, [])).2) := by
  induction bs generalizing buf fr with
  | nil => simp
  | cons b bs ih =>
    simp only [List.foldl_cons]
    by_cases h : 2 ≤ (buf ++ [b]).length ∧ (buf ++ [b]).length = 2 + hdrLen (buf ++ [b])
    · have e1 : rxByte (buf, fr) b = ([], fr ++ [buf ++ [b]]) := if_pos h
      have e2 : rxByte (buf, []) b = ([], [] ++ [buf ++ [b]]) := if_pos h
      rw [e1, e2, ih [] (fr ++ [buf ++ [b]]), ih [] ([] ++ [buf ++ [b]])]
      simp
    · have e1 : rxByte (buf, fr) b = (buf ++ [b], fr) := if_neg h
      have e2 : rxByte (buf, []) b = (buf ++ [b], []) := if_neg h
      rw [e1, e2, ih]

theorem frames_append (a b : List Byte) :
    frames (a ++ b) = ((b.foldl rxByte ((frames a).1, [])).1, (frames a).2 ++ (b.foldl rxByte ((frames a).1, [])).2) := by
  unfold frames
  rw [List.foldl_append, ← fold_frames]

/-- octets that do not complete a frame -/
theorem grow {buf : List Byte} (bs : List Byte) (h2 : 2 ≤ buf.length) (hlt : buf.length + bs.length < 2 + hdrLen buf) :
    bs.foldl rxByte (buf, []) = (buf ++ bs, []) := by
  induction bs generalizing buf with
  | nil => simp
  | cons b bs ih =>
    have hl : (buf ++ [b]).length = buf.length + 1 := by simp
    have hh := hdrLen_append h2 [b]
    simp only [List.length_cons] at hlt
    have e : rxByte (buf, []) b = (buf ++ [b], []) := if_neg (by rw [hl, hh]; omega)
    rw [List.foldl_cons, e, ih (by omega) (by rw [hh, hl]; omega)]
    simp

theorem complete {buf : List Byte} (bs : List Byte) (h2 : 2 ≤ buf.length) (hb : bs ≠ []) (heq : buf.length + bs.length = 2 + hdrLen buf) :
    bs.foldl rxByte (buf, []) = ([], [buf ++ bs]) := by
  rcases List.eq_nil_or_concat bs with h | ⟨q, b, h⟩
  · exact absurd h hb
  · rw [List.concat_eq_append] at h
    subst h
    simp only [List.length_append, List.length_cons, List.length_nil] at heq
    rw [List.foldl_append, grow q h2 (by omega)]
    have hh : hdrLen (buf ++ q ++ [b]) = hdrLen buf := by rw [List.append_assoc, hdrLen_append h2]
    have : rxByte (buf ++ q, []) b = ([], [] ++ [buf ++ q ++ [b]]) := if_pos (by
      rw [hh]; simp only [List.length_append, List.length_cons, List.length_nil]; omega)
    simp [this]

/-- the first two octets -/
theorem start {buf bs : List Byte} (h : buf.length < 2) (hl : buf.length + bs.length ≤ 2) (hlen : buf.length + bs.length = 2 → 1 ≤ hdrLen (buf ++ bs)) :
    bs.foldl rxByte (buf, []) = (buf ++ bs, []) := by
  match buf, bs, h, hl with
  | buf, [], _, _ => simp
  | [], [x], _, _ => rfl
  | [x], [y], _, _ =>
    have := hlen rfl
    have e : rxByte ([x], []) y = ([x, y], []) := if_neg (by simp only [List.cons_append, List.nil_append, List.length_cons, List.length_nil] at this ⊢; omega)
    simp [e]
  | [], [x, y], _, _ =>
    have := hlen rfl
    have e : rxByte ([x], []) y = ([x, y], []) := if_neg (by simp only [List.cons_append, List.nil_append, List.length_cons, List.length_nil] at this ⊢; omega)
    have e0 : rxByte ([], []) x = ([x], []) := rfl
    simp [e0, e]
  | x :: y :: _, _, h, _ => exact absurd h (by simp)
  | [x], y :: z :: _, _, hl => exact absurd hl (by simp; omega)
  | [], x :: y :: z :: _, _, hl => exact absurd hl (by simp)

/-- what the receiver has stored, after the octets `s` -/
structure Rel (sh : Sh) (s : List Byte) : Prop where
  rx : sh.rx = .buf (frames s).1 ∨ (sh.rx = .null ∧ (frames s).1 = [])
  miss : 2 ≤ (frames s).1.length → sh.missing + (frames s).1.length = 2 + hdrLen (frames s).1

theorem Fits.pos {s : List Byte} (h : Fits s) : Positive s := fun p r he => ⟨fun h2 => ((h p r he).1 h2).1, (h p r he).2⟩

theorem frames_lt (s : List Byte) (hf : Positive s) : 2 ≤ (frames s).1.length → (frames s).1.length < 2 + hdrLen (frames s).1 := by
  have key : ∀ (bs buf : List Byte) (fr : List (List Byte)), (2 ≤ buf.length → buf.length < 2 + hdrLen buf) →
      2 ≤ (bs.foldl rxByte (buf, fr)).1.length →
      (∀ p r, bs = p ++ r → 2 ≤ (p.foldl rxByte (buf, fr)).1.length → 1 ≤ hdrLen (p.foldl rxByte (buf, fr)).1) →
      (bs.foldl rxByte (buf, fr)).1.length < 2 + hdrLen (bs.foldl rxByte (buf, fr)).1 := by
    intro bs
    induction bs with
    | nil => intro buf fr h h2 _; exact h h2
    | cons b bs ih =>
      intro buf fr h h2 hp
      rw [List.foldl_cons] at h2 ⊢
      by_cases hc : 2 ≤ (buf ++ [b]).length ∧ (buf ++ [b]).length = 2 + hdrLen (buf ++ [b])
      · have e : rxByte (buf, fr) b = ([], fr ++ [buf ++ [b]]) := if_pos hc
        rw [e] at h2 ⊢
        refine ih _ _ (by intro h; simp at h) h2 ?_
        intro p r he h3
        have := hp (b :: p) r (by rw [he]; rfl)
        rw [List.foldl_cons, e] at this
        exact this h3
      · have e : rxByte (buf, fr) b = (buf ++ [b], fr) := if_neg hc
        rw [e] at h2 ⊢
        refine ih _ _ ?_ h2 ?_
        · intro hl
          have hlen : (buf ++ [b]).length = buf.length + 1 := by simp
          have h1 := hp [b] bs rfl
          rw [List.foldl_cons, List.foldl_nil, e] at h1
          have h1 := h1 hl
          by_cases h2' : 2 ≤ buf.length
          · have hh := hdrLen_append h2' [b]
            have := h h2'
            rw [hh] at hc ⊢
            omega
          · omega
        · intro p r he h3
          have := hp (b :: p) r (by rw [he]; rfl)
          rw [List.foldl_cons, e] at this
          exact this h3
  intro h2
  refine key s [] [] (by intro h; simp at h) h2 ?_
  intro p r he h3
  exact (hf p r he).1 h3

theorem step_rel' {sh : Sh} {s bs : List Byte} (hr : Rel sh s) (hcb : sh.cb = true) (hf : Positive (s ++ bs)) (hw : bs.length ≤ want sh)
    (h300 : (frames s).1.length + bs.length ≤ 300) :
    ∃ sh', serRead sh (.ok bs) = .ok (sh', bs.length, ((bs.foldl rxByte ((frames s).1, [])).2).map delivery) ∧ Rel sh' (s ++ bs) ∧ sh'.cb = true := by
  have hfs : Positive s := by
    intro p r he
    exact hf p (r ++ bs) (by rw [he]; simp)
  have hlt := frames_lt s hfs
  have hfa := frames_append s bs
  have hgo : ∀ d, d = (frames s).1 → want sh = (if d.length < 2 then 2 - d.length else sh.missing) →
      ∃ sh', (if ALLOC_SIZE < d.length + bs.length then (.error .oob : M (Sh × Int × List Act))
      else if d.length < 2 then
        let d' := d ++ bs
        if 2 ≤ d'.length then .ok ({ sh with rx := .buf d', missing := hdrLen d' }, bs.length, [])
        else .ok ({ sh with rx := .buf d' }, bs.length, [])
      else
        let d' := d ++ bs
        let missing := sh.missing - bs.length
        if missing = 0 then
          let l2h := if HDR_LEN < d'.length then some HDR_LEN else none
          if sh.cb then .ok ({ sh with rx := .null, missing := 0 }, bs.length, [.deliver d' l2h])
          else .ok ({ sh with rx := .null, missing := 0 }, -EINVAL, [.leak d'])
        else .ok ({ sh with rx := .buf d', missing := missing }, bs.length, [])) =
      .ok (sh', bs.length, ((bs.foldl rxByte ((frames s).1, [])).2).map delivery) ∧ Rel sh' (s ++ bs) ∧ sh'.cb = true := by
    intro d hd hwant
    rw [hwant] at hw
    subst hd
    by_cases h2 : (frames s).1.length < 2
    · rw [if_pos h2] at hw
      have hna : ¬ ALLOC_SIZE < (frames s).1.length + bs.length := by simp only [ALLOC_SIZE]; omega
      rw [if_neg hna, if_pos h2]
      simp only
      have hstart : bs.foldl rxByte ((frames s).1, []) = ((frames s).1 ++ bs, []) := by
        by_cases heq : (frames s).1.length + bs.length = 2
        · refine start h2 (by omega) ?_
          intro _
          -- the frame is either complete (excluded) or in the buffer
          by_cases hz : 1 ≤ hdrLen ((frames s).1 ++ bs)
          · exact hz
          · exfalso
            have h0 : hdrLen ((frames s).1 ++ bs) = 0 := by omega
            have hl2 : ((frames s).1 ++ bs).length = 2 := by rw [List.length_append]; exact heq
            -- then the fold emits a frame of two octets
            have hem : (frames s).1 ++ bs ∈ (frames (s ++ bs)).2 := by
              rw [hfa]
              simp only
              apply List.mem_append_right
              rcases List.eq_nil_or_concat bs with hb | ⟨q, b, hb⟩
              · subst hb; simp at heq; omega
              · rw [List.concat_eq_append] at hb
                subst hb
                rw [List.foldl_append]
                have hq : q.foldl rxByte ((frames s).1, []) = ((frames s).1 ++ q, []) := by
                  refine start h2 (by simp at heq; omega) ?_
                  intro h; simp at heq; omega
                rw [hq]
                have : rxByte ((frames s).1 ++ q, []) b = ([], [] ++ [(frames s).1 ++ q ++ [b]]) := if_pos (by
                  rw [← List.append_assoc] at h0 hl2
                  rw [h0, hl2]; exact ⟨by omega, rfl⟩)
                simp [this]
            have := (hf (s ++ bs) [] (by simp)).2 _ hem
            omega
        · exact start h2 (by omega) (fun h => absurd h heq)
      rw [hstart] at hfa ⊢
      simp only [List.append_nil] at hfa
      have hfa1 : (frames (s ++ bs)).1 = (frames s).1 ++ bs := by rw [hfa]
      by_cases hd2 : 2 ≤ ((frames s).1 ++ bs).length
      · rw [if_pos hd2]
        refine ⟨_, rfl, ⟨.inl (by rw [hfa1]), ?_⟩, hcb⟩
        intro _
        rw [hfa1]
        have : ((frames s).1 ++ bs).length = 2 := by rw [List.length_append] at hd2 ⊢; omega
        simp only [this]; omega
      · rw [if_neg hd2]
        refine ⟨_, rfl, ⟨.inl (by rw [hfa1]), ?_⟩, hcb⟩
        intro h; rw [hfa1] at h; exact absurd h hd2
    · rw [if_neg h2] at hw
      have h2' : 2 ≤ (frames s).1.length := by omega
      have hm := hr.miss h2'
      have hlt' := hlt h2'
      have hna : ¬ ALLOC_SIZE < (frames s).1.length + bs.length := by simp only [ALLOC_SIZE]; omega
      rw [if_neg hna, if_neg h2]
      simp only
      by_cases hdone : sh.missing - bs.length = 0
      · rw [if_pos hdone, if_pos hcb]
        have hb : bs ≠ [] := by intro e; subst e; simp at hdone; omega
        have hc := complete bs h2' hb (by omega)
        rw [hc] at hfa ⊢
        have hfa1 : (frames (s ++ bs)).1 = [] := by rw [hfa]
        refine ⟨_, rfl, ⟨.inr ⟨rfl, hfa1⟩, ?_⟩, hcb⟩
        intro h; rw [hfa1] at h; simp at h
      · rw [if_neg hdone]
        have hc := grow bs h2' (by omega)
        rw [hc] at hfa ⊢
        have hfa1 : (frames (s ++ bs)).1 = (frames s).1 ++ bs := by rw [hfa]
        refine ⟨_, rfl, ⟨.inl (by rw [hfa1]), ?_⟩, hcb⟩
        intro _
        rw [hfa1, hdrLen_append h2', List.length_append]
        simp only; omega
  unfold serRead
  rcases hr.rx with h | ⟨h, h0⟩
  · rw [h]
    exact hgo (frames s).1 rfl (by simp only [want, h])
  · rw [h]
    have := hgo [] h0.symm (by simp only [want, h]; rfl)
    exact this

theorem step_rel {sh : Sh} {s bs : List Byte} (hr : Rel sh s) (hcb : sh.cb = true) (hf : Fits (s ++ bs)) (hw : bs.length ≤ want sh) :
    ∃ sh', serRead sh (.ok bs) = .ok (sh', bs.length, ((bs.foldl rxByte ((frames s).1, [])).2).map delivery) ∧ Rel sh' (s ++ bs) ∧ sh'.cb = true := by
  refine step_rel' hr hcb hf.pos hw ?_
  have hp : Positive s := fun p r he => hf.pos p (r ++ bs) (by rw [he]; simp)
  have hlt := frames_lt s hp
  have h298 := (hf s bs rfl).1
  have hwant : want sh = if (frames s).1.length < 2 then 2 - (frames s).1.length else sh.missing := by
    rcases hr.rx with h | ⟨h, h0⟩
    · simp only [want, h]
    · rw [h0]; simp only [want, h]; rfl
  rw [hwant] at hw
  by_cases h2 : (frames s).1.length < 2
  · rw [if_pos h2] at hw; omega
  · rw [if_neg h2] at hw
    have := hr.miss (by omega)
    have := (h298 (by omega)).2
    omega

theorem run_rel {rs : List (Except Unit (List Byte))} {sh : Sh} {s : List Byte} (hr : Rel sh s) (hcb : sh.cb = true)
    (hf : Fits (s ++ octets rs)) (ha : AdmReads sh rs) :
    ∃ sh' acts, run sh rs = .ok (sh', acts) ∧ Rel sh' (s ++ octets rs) ∧
      acts = (((octets rs).foldl rxByte ((frames s).1, [])).2).map delivery := by
  induction rs generalizing sh s with
  | nil => exact ⟨sh, [], rfl, by simpa [octets] using hr, rfl⟩
  | cons r rs ih =>
    obtain ⟨⟨bs, rfl, hw⟩, hnext⟩ := ha
    have ho : octets (.ok bs :: rs) = bs ++ octets rs := rfl
    rw [ho, ← List.append_assoc] at hf
    have hf1 : Fits (s ++ bs) := by
      intro p r he
      exact hf p (r ++ octets rs) (by rw [he]; simp)
    obtain ⟨sh1, h1, hr1, hcb1⟩ := step_rel hr hcb hf1 hw
    obtain ⟨sh2, acts, h2, hr2, h3⟩ := ih hr1 hcb1 hf (hnext _ _ _ h1)
    refine ⟨sh2, _, by simp only [run, h1, bind_ok, h2]; rfl, ?_, ?_⟩
    · rw [ho, ← List.append_assoc]; exact hr2
    · rw [ho, List.foldl_append, h3, frames_append]
      have hx := fold_frames (bs.foldl rxByte ((frames s).1, [])).1 (bs.foldl rxByte ((frames s).1, [])).2 (octets rs)
      have hy : ((bs.foldl rxByte ((frames s).1, [])).1, (bs.foldl rxByte ((frames s).1, [])).2) = bs.foldl rxByte ((frames s).1, []) := rfl
      rw [hy] at hx
      rw [hx]
      simp only [List.map_append]

/-- C56: whatever the sizes of the reads, the application gets exactly the complete frames of the octets received, in
order, each once; there is no fault (for streams of frames that fit into the buffer, and without read errors) -/
theorem C56_fragmentation {rs : List (Except Unit (List Byte))} (ha : AdmReads (init true) rs) (hf : Fits (octets rs)) :
    ∃ sh, run (init true) rs = .ok (sh, (frames (octets rs)).2.map delivery) := by
  have hr : Rel (init true) [] := ⟨.inr ⟨rfl, rfl⟩, by intro h; simp [frames] at h⟩
  obtain ⟨sh, acts, h1, _, h3⟩ := run_rel hr rfl (by rw [List.nil_append]; exact hf) ha
  refine ⟨sh, ?_⟩
  rw [h1, h3]
  rfl

theorem build_len (m : List Byte) : (buildMsg m).length = 10 + m.length := by simp [buildMsg]; omega

theorem build_hdr {m : List Byte} (h : m.length ≤ 65527) : hdrLen (buildMsg m) = 8 + m.length := by
  simp only [buildMsg, HDR_LEN, hdrLen, List.cons_append, BitVec.toNat_ofNat]
  omega

theorem build_drop (m : List Byte) : (buildMsg m).drop 10 = m := by simp [buildMsg]

theorem build_split (m : List Byte) : ∃ x y r, buildMsg m = x :: y :: r ∧ hdrLen (buildMsg m) = hdrLen [x, y] := ⟨_, _, _, rfl, rfl⟩

theorem build_fold {m : List Byte} (h : m.length ≤ 65527) : (buildMsg m).foldl rxByte ([], []) = ([], [buildMsg m]) := by
  obtain ⟨x, y, r, e, eh⟩ := build_split m
  have hl := build_len m
  have hh := build_hdr h
  rw [eh] at hh
  have e2 : buildMsg m = [x, y] ++ r := e
  rw [e2] at hl ⊢
  simp only [List.length_append, List.length_cons, List.length_nil] at hl
  rw [List.foldl_append, start (buf := []) (bs := [x, y]) (by simp) (by simp) (by intro _; simp only [List.nil_append]; omega), List.nil_append]
  exact complete r (by simp) (by intro er; subst er; simp at hl; omega) (by simp; omega)

theorem build_fits {ms : List (List Byte)} (h : ∀ m ∈ ms, m.length ≤ 290) : Fits (ms.flatMap buildMsg) ∧ frames (ms.flatMap buildMsg) = ([], ms.map buildMsg) := by
  -- from the back: append one message
  have key : ∀ (ms : List (List Byte)) (s : List Byte) (fr : List (List Byte)), (∀ m ∈ ms, m.length ≤ 290) → Fits s → frames s = ([], fr) →
      Fits (s ++ ms.flatMap buildMsg) ∧ frames (s ++ ms.flatMap buildMsg) = ([], fr ++ ms.map buildMsg) := by
    intro ms
    induction ms with
    | nil => intro s fr _ h1 h2; simpa using ⟨h1, h2⟩
    | cons m ms ih =>
      intro s fr hm hfit hfr
      have hm1 : m.length ≤ 290 := hm m List.mem_cons_self
      have hfold := build_fold (m := m) (by omega)
      have hlen := build_len m
      have hhdr := build_hdr (m := m) (by omega)
      have e1 : frames (s ++ buildMsg m) = ([], fr ++ [buildMsg m]) := by
        rw [frames_append, hfr]; simp only [hfold]
      have f1 : Fits (s ++ buildMsg m) := by
        intro p r he
        rcases List.append_eq_append_iff.1 he with ⟨a', h3, h4⟩ | ⟨a', h3, h4⟩
        · -- p = s ++ a'
          have hp : frames p = ((a'.foldl rxByte ([], [])).1, fr ++ (a'.foldl rxByte ([], [])).2) := by
            rw [h3, frames_append, hfr]
          by_cases hr0 : r = []
          · subst hr0
            rw [List.append_nil] at h4
            subst h4
            rw [hp, hfold]
            refine ⟨by intro h; simp at h, ?_⟩
            intro f hfm
            simp only [List.mem_append, List.mem_singleton] at hfm
            rcases hfm with hfm | hfm
            · exact (hfit s [] (by simp)).2 f (by rw [hfr]; exact hfm)
            · subst hfm; omega
          · -- a proper prefix: nothing emitted
            have hal : a'.length < (buildMsg m).length := by
              rw [h4, List.length_append]
              have := List.length_pos_iff.2 hr0
              omega
            have hpre : a'.foldl rxByte ([], []) = (a', []) := by
              by_cases h2 : a'.length < 2
              · have := start (buf := []) (bs := a') (by simp) (by simp; omega) (by simp; omega)
                simpa using this
              · obtain ⟨x, y, q, e⟩ : ∃ x y q, a' = x :: y :: q := by
                  match a', h2 with
                  | x :: y :: q, _ => exact ⟨x, y, q, rfl⟩
                  | [x], h => simp at h
                  | [], h => simp at h
                have hxy : hdrLen [x, y] = 8 + m.length := by
                  rw [← hhdr, h4, e]; rfl
                have e2 : a' = [x, y] ++ q := e
                rw [e2, List.foldl_append, start (buf := []) (bs := [x, y]) (by simp) (by simp) (by intro _; simp only [List.nil_append]; omega), List.nil_append]
                refine grow q (by simp) ?_
                rw [e2] at hal
                simp only [List.length_append, List.length_cons, List.length_nil] at hal
                simp only [List.length_cons, List.length_nil]
                omega
            rw [hp, hpre]
            refine ⟨?_, ?_⟩
            · intro h2
              simp only at h2 ⊢
              have : hdrLen a' = 8 + m.length := by
                rw [← hhdr, h4, hdrLen_append h2]
              omega
            · intro f hfm
              simp only [List.append_nil] at hfm
              exact (hfit s [] (by simp)).2 f (by rw [hfr]; exact hfm)
        · exact hfit p a' h3
      have := ih (s ++ buildMsg m) (fr ++ [buildMsg m]) (fun x hx => hm x (List.mem_cons_of_mem _ hx)) f1 e1
      simpa [List.flatMap_cons, List.append_assoc] using this
  have h0 : Fits [] := by
    intro p r he
    have : p = [] := (List.append_eq_nil_iff.1 he.symm).1
    subst this
    exact ⟨by intro h; simp [frames] at h, by intro f hf; simp [frames] at hf⟩
  have := key ms [] [] h h0 rfl
  simpa using this

/-- C56: messages of up to 290 octets, built with the header of the driver and received in any fragmentation, are
delivered in order, each once, with the same payload -/
theorem C56_roundtrip {ms : List (List Byte)} (h : ∀ m ∈ ms, m.length ≤ 290) {rs : List (Except Unit (List Byte))}
    (ha : AdmReads (init true) rs) (ho : octets rs = ms.flatMap buildMsg) :
    ∃ sh, run (init true) rs = .ok (sh, ms.map fun m => .deliver (buildMsg m) (if m = [] then none else some 10)) ∧
      ∀ m, (buildMsg m).drop 10 = m := by
  obtain ⟨hf, hfr⟩ := build_fits h
  obtain ⟨sh, h1⟩ := C56_fragmentation ha (by rw [ho]; exact hf)
  refine ⟨sh, ?_, build_drop⟩
  rw [h1, ho, hfr]
  simp only [List.map_map]
  congr 2
  apply List.map_congr_left
  intro m _
  simp only [Function.comp, delivery, build_len]
  by_cases hm : m = []
  · subst hm; rfl
  · have := List.length_pos_iff.2 hm
    rw [if_pos (by omega), if_neg hm]

/-- the header: length of the rest, constants, length of the payload and its check octet -/
theorem C56_header {m : List Byte} (h : m.length ≤ 255) :
    ∃ r, buildMsg m = BitVec.ofNat 8 ((m.length + 8) / 256) :: BitVec.ofNat 8 (m.length + 8) :: 0 :: 7 :: 1 :: 0x3e :: 0 :: 0 ::
        BitVec.ofNat 8 m.length :: (BitVec.ofNat 8 m.length ^^^ 0x38) :: r ∧ r = m ∧ (BitVec.ofNat 8 m.length).toNat = m.length := by
  refine ⟨m, ?_, rfl, ?_⟩
  · simp only [buildMsg, HDR_LEN, List.cons_append, List.nil_append]
    have e1 : m.length + 10 - 2 = m.length + 8 := by omega
    have e2 : m.length + 10 - 10 = m.length := by omega
    rw [e1, e2]
  · simp only [BitVec.toNat_ofNat]; omega

/-! ### C57 -/

/-- one octet -/
theorem frames_snoc (s : List Byte) (b : Byte) :
    (frames (s ++ [b]) = ([], (frames s).2 ++ [(frames s).1 ++ [b]])) ∨ frames (s ++ [b]) = ((frames s).1 ++ [b], (frames s).2) := by
  have e : frames (s ++ [b]) = rxByte (frames s) b := by simp [frames, List.foldl_append]
  rw [e]
  by_cases h : 2 ≤ ((frames s).1 ++ [b]).length ∧ ((frames s).1 ++ [b]).length = 2 + hdrLen ((frames s).1 ++ [b])
  · exact .inl (if_pos h)
  · exact .inr (if_neg h)

theorem short_prefix (s t : List Byte) (h : Short (s ++ t)) : Short s := by
  induction t generalizing s with
  | nil => simpa using h
  | cons b t ih =>
    have h := ih (s ++ [b]) (by simpa using h)
    unfold Short at h ⊢
    rcases frames_snoc s b with e | e
    · rw [e] at h
      have h1 := h.2 ((frames s).1 ++ [b]) (by simp)
      simp only [List.length_append, List.length_cons, List.length_nil] at h1
      exact ⟨by omega, fun f hf => h.2 f (List.mem_append_left _ hf)⟩
    · rw [e] at h
      simp only [List.length_append, List.length_cons, List.length_nil] at h
      exact ⟨by omega, h.2⟩

theorem short_add (s t : List Byte) (h : Short s) (hl : (frames s).1.length + t.length ≤ 300) : Short (s ++ t) := by
  induction t generalizing s with
  | nil => simpa using h
  | cons b t ih =>
    have : s ++ b :: t = s ++ [b] ++ t := by simp
    rw [this]
    simp only [List.length_cons] at hl
    unfold Short at h
    rcases frames_snoc s b with e | e
    · refine ih _ ?_ (by rw [e]; simp only [List.length_nil]; omega)
      unfold Short
      rw [e]
      refine ⟨by simp, ?_⟩
      intro f hf
      rcases List.mem_append.1 hf with hf | hf
      · exact h.2 f hf
      · rw [List.mem_singleton.1 hf, List.length_append, List.length_singleton]; omega
    · refine ih _ ?_ (by rw [e]; simp only [List.length_append, List.length_singleton]; omega)
      unfold Short
      rw [e]
      exact ⟨by simp only [List.length_append, List.length_singleton]; omega, h.2⟩

/-- a read goes beyond the 300 octets of the buffer only if the frame does -/
theorem read_le {sh : Sh} {s bs : List Byte} (hr : Rel sh s) (hp : Positive (s ++ bs)) (hw : bs.length ≤ want sh) (hs : Short (s ++ bs)) :
    (frames s).1.length + bs.length ≤ 300 := by
  have hps : Positive s := fun p r he => hp p (r ++ bs) (by rw [he]; simp)
  have hlt := frames_lt s hps
  have hfa := frames_append s bs
  have hwant : want sh = if (frames s).1.length < 2 then 2 - (frames s).1.length else sh.missing := by
    rcases hr.rx with h | ⟨h, h0⟩
    · simp only [want, h]
    · rw [h0]; simp only [want, h]; rfl
  rw [hwant] at hw
  by_cases h2 : (frames s).1.length < 2
  · rw [if_pos h2] at hw; omega
  · rw [if_neg h2] at hw
    have h2' : 2 ≤ (frames s).1.length := by omega
    have hm := hr.miss h2'
    have hlt' := hlt h2'
    unfold Short at hs
    by_cases hdone : sh.missing - bs.length = 0
    · have hb : bs ≠ [] := by intro e; subst e; simp at hdone; omega
      have hc := complete bs h2' hb (by omega)
      rw [hc] at hfa
      have := hs.2 ((frames s).1 ++ bs) (by rw [hfa]; simp)
      rwa [List.length_append] at this
    · have hc := grow bs h2' (by omega)
      rw [hc] at hfa
      have := hs.1
      rw [hfa] at this
      rwa [List.length_append] at this

theorem read_oob {sh : Sh} {s bs : List Byte} (hr : Rel sh s) (h : 300 < (frames s).1.length + bs.length) : serRead sh (.ok bs) = .error .oob := by
  unfold serRead
  rcases hr.rx with e | ⟨e, h0⟩
  · rw [e]; exact if_pos h
  · rw [e]
    rw [h0] at h
    exact if_pos h

theorem run_short {rs : List (Except Unit (List Byte))} {sh : Sh} {s : List Byte} (hr : Rel sh s) (hcb : sh.cb = true) (hs : Short s)
    (hp : Positive (s ++ octets rs)) (ha : AdmReads sh rs) :
    (Short (s ++ octets rs) → ∃ r, run sh rs = .ok r) ∧ (¬ Short (s ++ octets rs) → run sh rs = .error .oob) := by
  induction rs generalizing sh s with
  | nil =>
    have : s ++ octets [] = s := by simp [octets]
    rw [this]
    exact ⟨fun _ => ⟨_, rfl⟩, fun h => absurd hs h⟩
  | cons r rs ih =>
    obtain ⟨⟨bs, rfl, hw⟩, hnext⟩ := ha
    have ho : octets (.ok bs :: rs) = bs ++ octets rs := rfl
    rw [ho, ← List.append_assoc] at hp ⊢
    have hp1 : Positive (s ++ bs) := fun p r he => hp p (r ++ octets rs) (by rw [he]; simp)
    by_cases h300 : (frames s).1.length + bs.length ≤ 300
    · obtain ⟨sh1, h1, hr1, hcb1⟩ := step_rel' hr hcb hp1 hw h300
      obtain ⟨ha, hb⟩ := ih hr1 hcb1 (short_add s bs hs h300) hp (hnext _ _ _ h1)
      constructor
      · intro h
        obtain ⟨r, hr⟩ := ha h
        exact ⟨_, by simp only [run, h1, bind_ok, hr]; rfl⟩
      · intro h
        simp only [run, h1, bind_ok, hb h]; rfl
    · have he := read_oob hr (bs := bs) (by omega)
      constructor
      · intro h
        exact absurd (read_le hr hp1 hw (short_prefix _ _ h)) h300
      · intro _
        simp only [run, he]; rfl

/-- C57 (exact): for every division into reads, the receiver stays within its buffer exactly if no frame of the stream, length octets included, has more
than 300 octets; otherwise it writes behind the buffer.  (For streams without empty frames and without read errors.) -/
theorem C57_safe_iff {rs : List (Except Unit (List Byte))} (ha : AdmReads (init true) rs) (hp : Positive (octets rs)) :
    ((∃ r, run (init true) rs = .ok r) ↔ Short (octets rs)) ∧ (run (init true) rs = .error .oob ↔ ¬ Short (octets rs)) := by
  have hr : Rel (init true) [] := ⟨.inr ⟨rfl, rfl⟩, by intro h; exact absurd h (by decide)⟩
  have h := run_short hr rfl ⟨by decide, by intro f hf; cases hf⟩ (by simpa using hp) ha
  simp only [List.nil_append] at h
  constructor
  · refine ⟨?_, h.1⟩
    rintro ⟨r, h1⟩
    apply Classical.byContradiction
    intro hn
    rw [h.2 hn] at h1; cases h1
  · refine ⟨?_, h.2⟩
    intro h1 hn
    obtain ⟨r, h2⟩ := h.1 hn
    rw [h2] at h1; cases h1

/-- C57, partially: without read errors, and for streams of frames that fit, there is no fault.  Missing: longer frames
and read errors, see below. -/
theorem C57_safe_partial {rs : List (Except Unit (List Byte))} (ha : AdmReads (init true) rs) (hf : Fits (octets rs)) :
    ∃ r, run (init true) rs = .ok r := by
  obtain ⟨sh, h⟩ := C56_fragmentation ha hf
  exact ⟨_, h⟩

/-- C57 is false: a frame announcing more than 298 octets is written beyond the buffer of 300 octets -/
theorem C57_overrun_violated (n : Nat) (h1 : 299 ≤ n) (h2 : n < 65536) (bs : List Byte) (hb : 299 ≤ bs.length) :
    (bs.length ≤ n → bs.length ≤ want { rx := .buf [BitVec.ofNat 8 (n / 256), BitVec.ofNat 8 n], missing := n, cb := true }) ∧
    run (init true) [.ok [BitVec.ofNat 8 (n / 256), BitVec.ofNat 8 n], .ok bs] = .error .oob := by
  refine ⟨fun h => h, ?_⟩
  have hl : hdrLen [BitVec.ofNat 8 (n / 256), BitVec.ofNat 8 n] = n := by
    simp only [hdrLen, BitVec.toNat_ofNat]; omega
  have hs : serRead (init true) (.ok [BitVec.ofNat 8 (n / 256), BitVec.ofNat 8 n]) =
      .ok ({ rx := .buf [BitVec.ofNat 8 (n / 256), BitVec.ofNat 8 n], missing := n, cb := true }, 2, []) := by
    simp [serRead, init, ALLOC_SIZE, hl]
  have hs2 : serRead { rx := .buf [BitVec.ofNat 8 (n / 256), BitVec.ofNat 8 n], missing := n, cb := true } (.ok bs) = .error .oob := by
    simp only [serRead, ALLOC_SIZE, List.length_cons, List.length_nil]
    rw [if_pos (by omega)]
  simp only [run, hs, bind_ok, hs2]
  rfl

/-- C57 is false: after a read error the freed buffer is used again -/
theorem C57_use_after_free_violated (sh : Sh) (h : sh.rx ≠ .freed) (r : Except Unit (List Byte)) :
    ∃ sh', serRead sh (.error ()) = .ok (sh', -1, []) ∧ serRead sh' r = .error .badptr := by
  obtain ⟨rx, missing, cb⟩ := sh
  cases rx with
  | null => exact ⟨_, rfl, rfl⟩
  | buf d => exact ⟨_, rfl, rfl⟩
  | freed => exact absurd rfl h

/-- a frame announcing no octets is delivered only with the next read event -/
theorem zero_length_delayed : run (init true) [.ok [0, 0]] = .ok ({ rx := .buf [0, 0], missing := 0, cb := true }, []) ∧
    run (init true) [.ok [0, 0], .ok []] = .ok (init true, [.deliver [0, 0] none]) := ⟨rfl, rfl⟩

/-- without callback a complete frame is leaked -/
theorem no_callback_leaks_violated : ∃ sh, run (init false) [.ok [0, 1], .ok [7]] = .ok (sh, [.leak [0, 1, 7]]) := ⟨_, rfl⟩

/-- C103, partially: when `write()` takes the whole frame, exactly that frame is sent; several such writes are received as
the same messages (with C56_roundtrip).  Missing: short writes, see `short_write_violated` -/
theorem write_complete_partial (ms : List (List Byte)) :
    ms.flatMap (fun d => (serWrite (some d) (buildMsg d).length).2) = ms.map (fun d => .write (buildMsg d)) ∧
    ∀ d, (serWrite (some d) (buildMsg d).length).1 = 0 := by
  have h : ∀ d, serWrite (some d) (buildMsg d).length = (0, [.write (buildMsg d)]) := by
    intro d; simp only [serWrite]; rw [if_neg (by omega)]
  refine ⟨?_, fun d => by rw [h]⟩
  simp only [h]
  induction ms with
  | nil => rfl
  | cons m ms ih => simp [List.flatMap_cons, ih]

/-- a short write is not continued: the peer sees a truncated frame, and (see C56_fragmentation) takes the beginning of the
next frame for its rest -/
theorem short_write_violated : ∃ n d, serWrite (some d) n = (-1, [.write ((buildMsg d).take 5)]) ∧
    frames ((buildMsg d).take 5 ++ buildMsg d) ≠ ([], [buildMsg d]) := by
  refine ⟨5, [1], rfl, by decide +kernel⟩

/-- a non-trivial fragmentation: two messages, read in pieces of 1, 1, 3, 8, 2, 0, 9 octets -/
def frag : List (Except Unit (List Byte)) :=
  let s := buildMsg [1, 2, 3] ++ buildMsg [4]
  [.ok (s.take 1), .ok ((s.drop 1).take 1), .ok ((s.drop 2).take 3), .ok ((s.drop 5).take 8), .ok ((s.drop 13).take 2), .ok [], .ok (s.drop 15)]

def admB (sh : Sh) : List (Except Unit (List Byte)) → Bool
  | [] => true
  | r :: rs => (match r with | .ok bs => decide (bs.length ≤ want sh) | .error _ => false) &&
      (match serRead sh r with | .ok (sh', _, _) => admB sh' rs | .error _ => false)

theorem admB_ok {sh : Sh} {rs : List (Except Unit (List Byte))} (h : admB sh rs = true) : AdmReads sh rs := by
  induction rs generalizing sh with
  | nil => trivial
  | cons r rs ih =>
    simp only [admB, Bool.and_eq_true] at h
    refine ⟨?_, ?_⟩
    · cases r with
      | error e => simp at h
      | ok bs => exact ⟨bs, rfl, by simpa using h.1⟩
    · intro sh' rc a hs
      rw [hs] at h
      exact ih h.2

example : AdmReads (init true) frag ∧ octets frag = [[1, 2, 3], [4]].flatMap buildMsg ∧
    run (init true) frag = .ok ({ rx := .null, missing := 0, cb := true }, [.deliver (buildMsg [1, 2, 3]) (some 10), .deliver (buildMsg [4]) (some 10)]) :=
  ⟨admB_ok (by decide +kernel), by decide +kernel, by decide +kernel⟩

/-- a stream that consists of one frame, or the beginning of one -/
theorem one_frame {x y : Byte} {bs : List Byte} (h1 : 1 ≤ hdrLen [x, y]) (hl : bs.length ≤ hdrLen [x, y]) :
    frames (x :: y :: bs) = if bs.length < hdrLen [x, y] then (x :: y :: bs, []) else ([], [x :: y :: bs]) := by
  have e0 : frames (x :: y :: bs) = bs.foldl rxByte ([x, y], []) := by
    have : rxByte (rxByte ([], []) x) y = ([x, y], []) :=
      if_neg (by
        have h2 : hdrLen ([] ++ [x] ++ [y]) = hdrLen [x, y] := rfl
        intro h
        have h3 : ([] ++ [x] ++ [y]).length = 2 + hdrLen ([] ++ [x] ++ [y]) := h.2
        rw [h2] at h3
        simp only [List.nil_append, List.length_append, List.length_singleton] at h3
        omega)
    show bs.foldl rxByte (rxByte (rxByte ([], []) x) y) = _
    rw [this]
  rw [e0]
  by_cases h : bs.length < hdrLen [x, y]
  · rw [if_pos h, grow bs (by simp) (by simp only [List.length_cons, List.length_nil]; omega)]; rfl
  · rw [if_neg h, complete bs (by simp) (by intro e; rw [e] at h; simp only [List.length_nil] at h; omega)
      (by simp only [List.length_cons, List.length_nil]; omega)]; rfl

theorem one_frame_pos {x y : Byte} {bs : List Byte} (h1 : 1 ≤ hdrLen [x, y]) (hl : bs.length ≤ hdrLen [x, y]) : Positive (x :: y :: bs) := by
  intro p r he
  match p, he with
  | [], _ => exact ⟨by intro h; exact absurd h (by decide), by intro f hf; cases hf⟩
  | [a], _ =>
    have : frames [a] = ([a], []) := rfl
    rw [this]
    exact ⟨by intro h; exact absurd h (by simp), by intro f hf; cases hf⟩
  | a :: b :: p, he =>
    simp only [List.cons_append, List.cons.injEq] at he
    obtain ⟨rfl, rfl, rfl⟩ := he
    have hp : p.length ≤ hdrLen [x, y] := by rw [List.length_append] at hl; omega
    rw [one_frame h1 hp]
    by_cases h : p.length < hdrLen [x, y]
    · rw [if_pos h]
      exact ⟨fun _ => h1, by intro f hf; cases hf⟩
    · rw [if_neg h]
      refine ⟨by intro h; exact absurd h (by simp), ?_⟩
      intro f hf
      rw [List.mem_singleton.1 hf]
      simp only [List.length_cons]
      omega

/-- both sides of C57 are met: the frame of 300 octets, and the one of 301 octets -/
example : AdmReads (init true) [.ok [1, 42], .ok (List.replicate 298 7)] ∧ Positive (octets [.ok [1, 42], .ok (List.replicate 298 7)]) ∧
    Short (octets [.ok [1, 42], .ok (List.replicate 298 7)]) := by
  have e : octets [.ok [1, 42], .ok (List.replicate 298 7)] = 1 :: 42 :: List.replicate 298 7 := by simp [octets]
  refine ⟨⟨⟨_, rfl, by decide⟩, fun sh' rc a h => ⟨⟨_, rfl, ?_⟩, fun _ _ _ _ => trivial⟩⟩, ?_, ?_⟩
  · obtain ⟨rfl, -⟩ := Prod.mk.inj (Except.ok.inj h)
    rw [List.length_replicate]; decide
  · rw [e]; exact one_frame_pos (by decide) (by rw [List.length_replicate]; decide)
  · rw [e]
    unfold Short
    rw [one_frame (by decide) (by rw [List.length_replicate]; decide), if_neg (by rw [List.length_replicate]; decide)]
    exact ⟨by simp, by intro f hf; rw [List.mem_singleton.1 hf]; simp⟩

example : AdmReads (init true) [.ok [1, 43], .ok (List.replicate 299 7)] ∧ Positive (octets [.ok [1, 43], .ok (List.replicate 299 7)]) ∧
    ¬ Short (octets [.ok [1, 43], .ok (List.replicate 299 7)]) := by
  have e : octets [.ok [1, 43], .ok (List.replicate 299 7)] = 1 :: 43 :: List.replicate 299 7 := by simp [octets]
  refine ⟨⟨⟨_, rfl, by decide⟩, fun sh' rc a h => ⟨⟨_, rfl, ?_⟩, fun _ _ _ _ => trivial⟩⟩, ?_, ?_⟩
  · obtain ⟨rfl, -⟩ := Prod.mk.inj (Except.ok.inj h)
    rw [List.length_replicate]; decide
  · rw [e]; exact one_frame_pos (by decide) (by rw [List.length_replicate]; decide)
  · rw [e]
    unfold Short
    rw [one_frame (by decide) (by rw [List.length_replicate]; decide), if_neg (by rw [List.length_replicate]; decide)]
    intro h
    have := h.2 _ (List.mem_singleton.2 rfl)
    simp only [List.length_cons, List.length_replicate] at this
    omega

end Verif.Rs232
