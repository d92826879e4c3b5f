import Verif.Spec.TrauSync
import Verif.Proof.RaaPrime
/-!
Refinement of the TRAU synchroniser model to a bit-by-bit machine without faults.
-/
namespace Verif.TrauSync
open Verif
open Verif.RaaPrime (bind_ok bind_err)
set_option linter.unusedSimpArgs false
set_option maxRecDepth 4000

/-- sanity of a pattern -/
structure Pat.OK (p : Pat) : Prop where
  pos : 0 < p.byteLen
  le : p.byteLen ≤ 160
  bits : p.bits.length = p.byteLen * 8
  mask : p.mask.length = p.byteLen * 8
  first : p.mask[0]? = some 1
  zero : p.bits[0]? = some 0

theorem table_ok : ∀ p ∈ syncPatterns, p.OK := by
  have h : ∀ p ∈ syncPatterns, (0 < p.byteLen ∧ p.byteLen ≤ 160) ∧
      (p.bits.length = p.byteLen * 8 ∧ p.mask.length = p.byteLen * 8) ∧
      (p.mask[0]? = some 1 ∧ p.bits[0]? = some 0) := by decide +kernel
  intro p hp
  obtain ⟨⟨a, b⟩, ⟨c, d⟩, e, f⟩ := h p hp
  exact ⟨a, b, c, d, e, f⟩

/-- the ring buffer, oldest bit first -/
def ring (s : St) : List Byte := s.hist.drop s.idx ++ s.hist.take s.idx

/-- the newest `n` bits -/
def win (s : St) (n : Nat) : List Byte := (ring s).drop (HIST - n)

structure Inv (s : St) : Prop where
  len : s.hist.length = HIST
  idx : s.idx < HIST
  pats : s.pats.length = 8
  prim : ∃ p ps, s.pats = some p :: ps
  ok : ∀ p, some p ∈ s.pats → p.OK
  same : ∀ p q, some p ∈ s.pats → some q ∈ s.pats → p.byteLen = q.byteLen
  al : s.fsm = .aligned → ∀ p, some p ∈ s.pats → s.idx < p.byteLen * 8
  errs : s.errs < 2 ^ 32

instance : Inhabited Pat := ⟨⟨0, [], []⟩⟩

/-- the primary pattern -/
def prim (s : St) : Pat :=
  match s.pats with
  | some p :: _ => p
  | _ => default

/-- frame length in bits -/
def N (s : St) : Nat := (prim s).byteLen * 8

theorem Inv.prim_mem {s : St} (h : Inv s) : some (TrauSync.prim s) ∈ s.pats := by
  obtain ⟨p, ps, hp⟩ := h.prim
  simp [TrauSync.prim, hp]

theorem patAt_zero {s : St} (h : ∃ p ps, s.pats = some p :: ps) : patAt s 0 = .ok (prim s) := by
  obtain ⟨p, ps, hp⟩ := h
  simp [patAt, rd, hp, prim, bind_ok]

theorem ring_length {s : St} (h : s.hist.length = HIST) (hi : s.idx ≤ HIST) : (ring s).length = HIST := by
  simp [ring, h]; omega

theorem win_length {s : St} (h : s.hist.length = HIST) (hi : s.idx ≤ HIST) {n : Nat} (hn : n ≤ HIST) :
    (win s n).length = n := by
  simp [win, ring_length h hi]; omega

theorem ring_getElem {s : St} (h : s.hist.length = HIST) (hi : s.idx < HIST) (i : Nat) (hh : i < HIST) :
    (ring s)[i]? = s.hist[(s.idx + i) % HIST]? := by
  unfold ring
  by_cases hc : s.idx + i < HIST
  · rw [List.getElem?_append_left (by simp [h]; omega), List.getElem?_drop, Nat.mod_eq_of_lt hc]
  · rw [List.getElem?_append_right (by simp [h]; omega)]
    rw [List.getElem?_take_of_lt (by simp [h]; omega)]
    congr 1
    rw [Nat.mod_eq_sub_mod (by omega), Nat.mod_eq_of_lt (by omega)]
    simp [h]; omega

theorem win_getElem {s : St} (h : s.hist.length = HIST) (hi : s.idx ≤ HIST) {n : Nat} (hn : n ≤ HIST)
    (i : Nat) (hin : i < n) :
    (win s n)[i]? = s.hist[((HIST + s.idx - n) % HIST + i) % HIST]? := by
  by_cases hlt : s.idx < HIST
  · unfold win
    rw [List.getElem?_drop, ring_getElem h hlt _ (by omega), Nat.mod_add_mod]
    congr 2
    omega
  · have : s.idx = HIST := by omega
    unfold win ring
    rw [this, ← h]
    simp only [List.drop_length, List.take_length, List.nil_append, List.getElem?_drop]
    congr 1
    rw [h, Nat.mod_add_mod]
    by_cases hz : n = HIST
    · subst hz; rw [Nat.mod_eq_sub_mod (by omega), Nat.mod_eq_of_lt (by omega)]; omega
    · rw [Nat.mod_eq_sub_mod (by omega), Nat.mod_eq_of_lt (by omega)]; omega

theorem corrLoop_spec (hist : List Byte) (p : Pat) (start : Nat) (w : List Byte) (L : Nat)
    (hm : p.mask.length = L) (hb : p.bits.length = L) (hl : hist.length = HIST)
    (hw : ∀ i < L, w[i]? = hist[(start + i) % HIST]?) :
    ∀ n i c, i + n = L → ∃ r, corrLoop hist p start n i c = .ok r ∧
      (r = 0 ↔ c = 0 ∧ ∀ j, i ≤ j → j < L → p.mask[j]? ≠ some 0 → w[j]? = p.bits[j]?) := by
  intro n
  induction n with
  | zero =>
    intro i c hi
    refine ⟨c, rfl, ?_⟩
    constructor
    · intro h; exact ⟨h, fun j h1 h2 => by omega⟩
    · exact And.left
  | succ n ih =>
    intro i c hi
    rw [corrLoop]
    simp only [rd_ok (show i < p.mask.length by omega), bind_ok]
    have hH : (0 : Nat) < HIST := by decide
    by_cases h0 : p.mask[i]'(by omega) = 0
    · rw [if_pos h0]
      obtain ⟨r, h1, h2⟩ := ih (i + 1) c (by omega)
      refine ⟨r, h1, h2.trans ?_⟩
      constructor
      · rintro ⟨a, b⟩
        refine ⟨a, fun j j1 j2 j3 => ?_⟩
        by_cases hj : j = i
        · subst hj; exact absurd (by rw [List.getElem?_eq_getElem (by omega), h0]) j3
        · exact b j (by omega) j2 j3
      · rintro ⟨a, b⟩
        exact ⟨a, fun j j1 j2 j3 => b j (by omega) j2 j3⟩
    · rw [if_neg h0]
      have hp : (start + i) % HIST < hist.length := by rw [hl]; exact Nat.mod_lt _ hH
      simp only [rd_ok hp, rd_ok (show i < p.bits.length by omega), bind_ok]
      obtain ⟨r, h1, h2⟩ := ih (i + 1) (if hist[(start + i) % HIST]'hp ≠ p.bits[i]'(by omega) then c + 1 else c)
        (by omega)
      refine ⟨r, h1, h2.trans ?_⟩
      have hwi := hw i (by omega)
      rw [List.getElem?_eq_getElem hp] at hwi
      have hbi : p.bits[i]? = some (p.bits[i]'(by omega)) := List.getElem?_eq_getElem (by omega)
      have hmi : p.mask[i]? = some (p.mask[i]'(by omega)) := List.getElem?_eq_getElem (by omega)
      by_cases he : hist[(start + i) % HIST]'hp = p.bits[i]'(by omega)
      · simp only [he, ne_eq, not_true_eq_false, if_false]
        constructor
        · rintro ⟨a, b⟩
          refine ⟨a, fun j j1 j2 j3 => ?_⟩
          by_cases hj : j = i
          · subst hj; rw [hwi, hbi, he]
          · exact b j (by omega) j2 j3
        · rintro ⟨a, b⟩
          exact ⟨a, fun j j1 j2 j3 => b j (by omega) j2 j3⟩
      · simp only [ne_eq, he, not_false_eq_true, if_true]
        constructor
        · rintro ⟨a, b⟩; omega
        · rintro ⟨a, b⟩
          have := b i (Nat.le_refl _) (by omega) (by rw [hmi]; simpa using h0)
          rw [hwi, hbi] at this
          exact absurd (Option.some.inj this) he

theorem correlate_spec {s : St} (h : s.hist.length = HIST) (hi : s.idx ≤ HIST) {p : Pat} (hp : p.OK) :
    ∃ r, correlate s p = .ok r ∧ (r = 0 ↔ Matches p (win s (p.byteLen * 8))) := by
  have hle := hp.le
  have hN : p.byteLen * 8 ≤ HIST := by unfold HIST; omega
  unfold correlate
  simp only [cassert, hN, decide_true, if_true, bind_ok]
  obtain ⟨r, h1, h2⟩ := corrLoop_spec s.hist p ((HIST + s.idx - p.byteLen * 8) % HIST)
    (win s (p.byteLen * 8)) (p.byteLen * 8) hp.mask hp.bits h
    (fun i hin => win_getElem h hi hN i hin) (p.byteLen * 8) 0 0 (by omega)
  refine ⟨r, h1, h2.trans ?_⟩
  simp [Matches]

theorem corrPats_spec {s : St} (h : s.hist.length = HIST) (hi : s.idx ≤ HIST) :
    ∀ (ps : List (Option Pat)) (best : Nat), 0 < best → (∀ p, some p ∈ ps → p.OK) →
    ∃ r, corrPats s ps best = .ok r ∧ (r = 0 ↔ ∃ p, some p ∈ ps ∧ Matches p (win s (p.byteLen * 8))) := by
  intro ps
  induction ps with
  | nil => intro best hb _; exact ⟨best, rfl, by simp; omega⟩
  | cons o ps ih =>
    intro best hb hok
    cases o with
    | none =>
      obtain ⟨r, h1, h2⟩ := ih best hb (fun p hp => hok p (by simp [hp]))
      exact ⟨r, h1, by simpa using h2⟩
    | some p =>
      obtain ⟨w, w1, w2⟩ := correlate_spec h hi (hok p (by simp))
      rw [corrPats]
      simp only [w1, bind_ok]
      by_cases hw : w = 0
      · rw [if_pos hw]
        exact ⟨0, rfl, by simpa using Or.inl (w2.1 hw)⟩
      · rw [if_neg hw]
        have hb' : 0 < (if w < best then w else best) := by split <;> omega
        obtain ⟨r, h1, h2⟩ := ih _ hb' (fun q hq => hok q (by simp [hq]))
        refine ⟨r, h1, h2.trans ?_⟩
        have hn : ¬ Matches p (win s (p.byteLen * 8)) := fun hh => hw (w2.2 hh)
        constructor
        · rintro ⟨q, q1, q2⟩; exact ⟨q, by simp [q1], q2⟩
        · rintro ⟨q, q1, q2⟩
          rcases List.mem_cons.1 q1 with hq | hq
          · cases hq; exact absurd q2 hn
          · exact ⟨q, hq, q2⟩

theorem copyLoop_spec (hist : List Byte) (first : Nat) (hl : hist.length = HIST) :
    ∀ n i, ∃ l, copyLoop hist first n i = .ok l ∧ l.length = n ∧
      ∀ j < n, l[j]? = hist[(first + (i + j)) % HIST]? := by
  intro n
  induction n with
  | zero => intro i; exact ⟨[], rfl, rfl, by intro j hj; omega⟩
  | succ n ih =>
    intro i
    obtain ⟨l, h1, h2, h3⟩ := ih (i + 1)
    have hp : (first + i) % HIST < hist.length := by rw [hl]; exact Nat.mod_lt _ (by decide)
    refine ⟨hist[(first + i) % HIST]'hp :: l, ?_, by simp [h2], ?_⟩
    · rw [copyLoop]; simp only [rd_ok hp, bind_ok, h1]
    · intro j hj
      cases j with
      | zero => simp [List.getElem?_eq_getElem hp]
      | succ j =>
        rw [List.getElem?_cons_succ, h3 j (by omega)]
        congr 3; omega

/-- result of rx_history_align -/
def aligned (g : Nat → Nat → Byte) (s : St) : St :=
  { s with
    hist := win s (N s) ++ (List.range (HIST - N s)).map (fun i => g s.nAlign (N s + i))
    idx := 0
    nAlign := s.nAlign + 1
    fsm := .aligned
    timer := false }

theorem align_spec (g : Nat → Nat → Byte) {s : St} (h : s.hist.length = HIST) (hi : s.idx ≤ HIST)
    (hp : ∃ p ps, s.pats = some p :: ps) (hok : (prim s).OK) :
    align g s = .ok { aligned g s with fsm := s.fsm, timer := s.timer } := by
  have hle := hok.le
  have hN : (prim s).byteLen * 8 ≤ HIST := by unfold HIST; omega
  obtain ⟨l, h1, h2, h3⟩ := copyLoop_spec s.hist ((HIST + s.idx - (prim s).byteLen * 8) % HIST) h
    ((prim s).byteLen * 8) 0
  have : l = win s (N s) := by
    apply List.ext_getElem?
    intro i
    by_cases hin : i < (prim s).byteLen * 8
    · rw [h3 i hin, N, win_getElem h hi hN i hin]
      simp
    · rw [List.getElem?_eq_none (by omega),
        List.getElem?_eq_none (by rw [N, win_length h hi hN]; omega)]
  unfold align
  simp only [patAt_zero hp, bind_ok, h1]
  rw [this]
  rfl

/-- what happens when a block is complete; `s` is the state with the block at the start of the history -/
def blockEnd (s : St) : St × List Ev :=
  if ∃ p ∈ s.pats.filterMap id, Matches p (s.hist.take (N s)) then
    ({ s with idx := 0, errs := 0 }, [some (s.hist.take (N s))])
  else if (s.errs + 1) % 2 ^ 32 ≥ 3 then
    ({ s with idx := 0, errs := (s.errs + 1) % 2 ^ 32, fsm := .lost, timer := true }, [none])
  else ({ s with idx := 0, errs := (s.errs + 1) % 2 ^ 32 }, [some (s.hist.take (N s))])

/-- what happens after a bit was received while not aligned -/
def acquire (g : Nat → Nat → Byte) (s : St) : St × List Ev :=
  if Matches (prim s) (win s (N s)) then (aligned g s, [some (win s (N s))]) else (s, [])

/-- one received bit -/
def stepB (g : Nat → Nat → Byte) (s : St) (b : Byte) : St × List Ev :=
  match s.fsm with
  | .aligned =>
    if s.idx + 1 < N s then ({ s with hist := s.hist.set s.idx b, idx := s.idx + 1 }, [])
    else blockEnd { s with hist := s.hist.set s.idx b, idx := s.idx + 1 }
  | _ => acquire g { s with hist := s.hist.set s.idx b, idx := (s.idx + 1) % HIST }

theorem stepB_unaligned (g : Nat → Nat → Byte) (s : St) (b : Byte) (hf : s.fsm ≠ .aligned) :
    stepB g s b = acquire g { s with hist := s.hist.set s.idx b, idx := (s.idx + 1) % HIST } := by
  unfold stepB
  split
  · rename_i h; exact absurd h hf
  · rfl

/-- a sequence of received bits -/
def runB (g : Nat → Nat → Byte) (s : St) : List Byte → St × List Ev
  | [] => (s, [])
  | b :: bs => ((runB g (stepB g s b).1 bs).1, (stepB g s b).2 ++ (runB g (stepB g s b).1 bs).2)

theorem runB_append (g : Nat → Nat → Byte) : ∀ (a b : List Byte) (s : St),
    runB g s (a ++ b) = ((runB g (runB g s a).1 b).1, (runB g s a).2 ++ (runB g (runB g s a).1 b).2) := by
  intro a
  induction a with
  | nil => intro b s; simp [runB]
  | cons x a ih => intro b s; simp [runB, ih]

theorem blockEnd_pats (s : St) : (blockEnd s).1.pats = s.pats := by
  unfold blockEnd
  split
  · rfl
  · split <;> rfl

theorem acquire_pats (g : Nat → Nat → Byte) (s : St) : (acquire g s).1.pats = s.pats := by
  unfold acquire; split <;> rfl

theorem stepB_pats (g : Nat → Nat → Byte) (s : St) (b : Byte) : (stepB g s b).1.pats = s.pats := by
  unfold stepB
  split
  · split
    · rfl
    · exact blockEnd_pats _
  · exact acquire_pats g _

theorem N_le {s : St} (h : Inv s) : N s ≤ 1280 := by
  have := (h.ok _ h.prim_mem).le
  unfold N; omega

theorem N_pos {s : St} (h : Inv s) : 0 < N s := by
  have := (h.ok _ h.prim_mem).pos
  unfold N; omega

theorem stepB_inv (g : Nat → Nat → Byte) (s : St) (b : Byte) (h : Inv s) : Inv (stepB g s b).1 := by
  have hp := stepB_pats g s b
  have hN := N_le h
  have hNp := N_pos h
  have hlen : (s.hist.set s.idx b).length = HIST := by simp [h.len]
  have hbase : (stepB g s b).1.hist.length = HIST ∧ (stepB g s b).1.idx < HIST ∧
      ((stepB g s b).1.fsm = .aligned → (stepB g s b).1.idx < N s) ∧ (stepB g s b).1.errs < 2 ^ 32 := by
    unfold stepB
    have hidx := h.idx
    have hH : HIST = 1281 := rfl
    have herr := h.errs
    have hmod : (s.errs + 1) % 2 ^ 32 < 2 ^ 32 := Nat.mod_lt _ (by decide)
    split
    · split
      · rename_i _ hlt
        exact ⟨hlen, by simp only; omega, fun _ => hlt, herr⟩
      · unfold blockEnd
        split
        · exact ⟨hlen, by simp only; omega, fun _ => hNp, (by decide : 0 < 2 ^ 32)⟩
        · split
          · exact ⟨hlen, by simp only; omega, by simp, hmod⟩
          · exact ⟨hlen, by simp only; omega, fun _ => hNp, hmod⟩
    · rename_i hne
      have hi' : (s.idx + 1) % HIST < HIST := Nat.mod_lt _ (by decide)
      unfold acquire
      split
      · refine ⟨?_, by simp only [aligned]; omega, fun _ => hNp, herr⟩
        generalize hs1 : ({ s with hist := s.hist.set s.idx b, idx := (s.idx + 1) % HIST } : St) = s1
        have hN1 : N s1 = N s := by subst hs1; rfl
        have hw : (win s1 (N s1)).length = N s1 :=
          win_length (by subst hs1; exact hlen) (by subst hs1; exact Nat.le_of_lt hi') (by omega)
        simp only [aligned, List.length_append, hw, List.length_map, List.length_range]
        omega
      · refine ⟨hlen, hi', ?_, herr⟩
        intro hal
        exact absurd hal (by simpa using hne)
  exact
    { len := hbase.1, idx := hbase.2.1, pats := by rw [hp]; exact h.pats, prim := by rw [hp]; exact h.prim
      ok := by rw [hp]; exact h.ok, same := by rw [hp]; exact h.same
      al := by
        intro ha p hpm
        rw [hp] at hpm
        rw [h.same p _ hpm h.prim_mem]
        exact hbase.2.2.1 ha
      errs := hbase.2.2.2 }

theorem runB_inv (g : Nat → Nat → Byte) : ∀ (bs : List Byte) (s : St), Inv s → Inv (runB g s bs).1
  | [], _, h => h
  | b :: bs, s, h => runB_inv g bs _ (stepB_inv g s b h)

theorem runB_pats (g : Nat → Nat → Byte) : ∀ (bs : List Byte) (s : St), (runB g s bs).1.pats = s.pats
  | [], _ => rfl
  | b :: bs, s => (runB_pats g bs _).trans (stepB_pats g s b)

/-- writing `bs` at `i` -/
def put (h : List Byte) (i : Nat) (bs : List Byte) : List Byte :=
  h.take i ++ bs ++ h.drop (i + bs.length)

theorem put_nil (h : List Byte) (i : Nat) : put h i [] = h := by simp [put]

theorem put_cons (h : List Byte) (i : Nat) (b : Byte) (bs : List Byte) (hi : i < h.length) :
    put (h.set i b) (i + 1) bs = put h i (b :: bs) := by
  unfold put
  rw [List.take_add_one, List.getElem?_set_self hi, List.take_set_of_le (Nat.le_refl i),
    List.drop_set_of_lt (by omega)]
  simp only [Option.toList_some, List.append_assoc, List.length_cons, List.cons_append, List.nil_append]
  rw [show i + 1 + bs.length = i + (bs.length + 1) by omega]

theorem put_length (h : List Byte) (i : Nat) (bs : List Byte) (hi : i + bs.length ≤ h.length) :
    (put h i bs).length = h.length := by simp [put]; omega

/-- bits that do not complete a block -/
theorem runB_partial (g : Nat → Nat → Byte) : ∀ (bs : List Byte) (s : St), s.fsm = .aligned →
    s.idx + bs.length < N s → N s ≤ s.hist.length →
    runB g s bs = ({ s with hist := put s.hist s.idx bs, idx := s.idx + bs.length }, []) := by
  intro bs
  induction bs with
  | nil => intro s _ _ _; simp [runB, put_nil]
  | cons b bs ih =>
    intro s hf hlt hl
    simp only [List.length_cons] at hlt
    have hs : stepB g s b = ({ s with hist := s.hist.set s.idx b, idx := s.idx + 1 }, []) := by
      unfold stepB
      rw [hf]
      simp only
      rw [if_pos (by omega)]
    rw [runB, hs]
    have hi := ih { s with hist := s.hist.set s.idx b, idx := s.idx + 1 } hf
      (by show s.idx + 1 + bs.length < N s; omega)
      (by show N s ≤ (s.hist.set s.idx b).length; simpa using hl)
    simp only [hi, List.nil_append]
    rw [put_cons _ _ _ _ (by omega)]
    simp only [List.length_cons]
    rw [show s.idx + 1 + bs.length = s.idx + (bs.length + 1) by omega]

/-- bits that complete a block -/
theorem runB_block (g : Nat → Nat → Byte) (bs : List Byte) (s : St) (hf : s.fsm = .aligned)
    (hne : bs ≠ []) (hlt : s.idx + bs.length = N s) (hl : N s ≤ s.hist.length) :
    runB g s bs = blockEnd { s with hist := put s.hist s.idx bs, idx := s.idx + bs.length } := by
  obtain ⟨pre, b, rfl⟩ : ∃ pre b, bs = pre ++ [b] :=
    ⟨bs.dropLast, bs.getLast hne, (List.dropLast_concat_getLast hne).symm⟩
  simp only [List.length_append, List.length_cons, List.length_nil, Nat.zero_add] at hlt
  rw [runB_append, runB_partial g pre s hf (by omega) hl]
  simp only [runB, List.append_nil, List.nil_append]
  have hput : (put s.hist s.idx pre).set (s.idx + pre.length) b = put s.hist s.idx (pre ++ [b]) := by
    apply List.ext_getElem?
    intro i
    unfold put
    simp only [List.length_append, List.length_cons, List.length_nil, Nat.zero_add]
    rw [List.getElem?_set]
    simp only [List.getElem?_append, List.length_append, List.length_take, List.length_cons, List.length_nil,
      List.getElem?_drop, List.getElem?_take, Nat.zero_add]
    rw [Nat.min_eq_left (by omega)]
    by_cases h1 : i < s.idx
    · rw [if_neg (by omega), if_pos (by omega), if_pos h1, if_pos (by omega), if_pos (by omega), if_pos h1]
    · by_cases h2 : i < s.idx + pre.length
      · rw [if_neg (by omega), if_pos h2, if_neg h1, if_pos (by omega), if_neg h1, if_pos (by omega)]
      · by_cases h3 : i = s.idx + pre.length
        · rw [if_pos (by omega), if_pos (by simp only [List.length_drop]; omega), if_pos (by omega), if_neg h1,
            if_neg (by omega)]
          rw [show i - s.idx - pre.length = 0 by omega]; rfl
        · rw [if_neg (by omega), if_neg h2, if_neg (by omega)]
          congr 1; omega
  unfold stepB
  simp only [hf]
  rw [if_neg (by
    show ¬ s.idx + pre.length + 1 < N s
    omega)]
  rw [hput]
  simp only [List.length_append, List.length_cons, List.length_nil, Nat.zero_add, Nat.add_assoc, List.append_nil]

theorem filterMap_id_mem (ps : List (Option Pat)) (p : Pat) : p ∈ ps.filterMap id ↔ some p ∈ ps := by
  simp [List.mem_filterMap]

theorem remaining_eq {p : Pat} {i : Nat} (h : i ≤ p.byteLen * 8) (h2 : p.byteLen * 8 ≤ 1280) :
    remaining p i = p.byteLen * 8 - i := by
  unfold remaining
  rw [show 2 ^ 32 + p.byteLen * 8 - i = (p.byteLen * 8 - i) + 2 ^ 32 by omega,
    Nat.add_mod_right, Nat.mod_eq_of_lt (by omega)]

theorem addBits_spec {s : St} (h : Inv s) (bs : List Byte) (hle : s.idx + bs.length ≤ N s) :
    addBits s bs = .ok { s with hist := put s.hist s.idx bs, idx := s.idx + bs.length } := by
  have hN := N_le h
  have hH : HIST = 1281 := rfl
  unfold N at hle hN
  unfold addBits
  rw [patAt_zero h.prim]
  simp only [bind_ok, cassert, remaining_eq (p := prim s) (i := s.idx) (by omega) hN]
  rw [if_pos (by simpa using (by omega : bs.length ≤ (prim s).byteLen * 8 - s.idx))]
  simp only [bind_ok, blit]
  rw [if_pos (by rw [h.len]; omega)]
  rfl

/-- the block seen by the correlation when a block is complete -/
theorem win_block {h : List Byte} (s : St) (hs : s.hist = h) (hl : h.length = HIST) (n : Nat)
    (hn : n ≤ HIST) (hi : s.idx = n) : win s n = h.take n := by
  subst hs
  have : s.idx ≤ HIST := by omega
  unfold win ring
  rw [List.drop_append]
  have e1 : HIST - n - (s.hist.drop s.idx).length = 0 := by simp [hl]; omega
  rw [e1, List.drop_of_length_le (by simp [hl]; omega), hi]
  simp

theorem dispatch_eq (g : Nat → Nat → Byte) : ∀ (fuel : Nat) (s : St) (bits : List Byte), Inv s →
    bits.length ≤ fuel → dispatch g fuel s bits = .ok (runB g s bits) := by
  intro fuel
  induction fuel with
  | zero =>
    intro s bits _ hle
    have : bits = [] := List.length_eq_zero_iff.1 (by omega)
    subst this; rfl
  | succ fuel ih =>
    intro s bits h hle
    cases bits with
    | nil => rfl
    | cons b bs =>
      have hN := N_le h
      have hNp := N_pos h
      have hH : HIST = 1281 := rfl
      simp only [List.length_cons] at hle
      by_cases hf : s.fsm = .aligned
      · rw [dispatch]
        simp only [hf]
        simp only [patAt_zero h.prim, bind_ok]
        have hidx := h.al hf _ h.prim_mem
        have hrem : remaining (prim s) s.idx = N s - s.idx :=
          remaining_eq (Nat.le_of_lt hidx) (by unfold N at hN; exact hN)
        have hidx' : s.idx < N s := hidx
        rw [hrem]
        by_cases hlt : (b :: bs).length < N s - s.idx
        · rw [if_pos hlt, addBits_spec h _ (by omega), runB_partial g _ s hf (by omega) (by rw [h.len]; omega)]
          simp only [bind_ok]
        · rw [if_neg hlt]
          generalize hblk : (b :: bs).take (N s - s.idx) = blk
          generalize hrest : (b :: bs).drop (N s - s.idx) = rest
          have hcat : b :: bs = blk ++ rest := by rw [← hblk, ← hrest, List.take_append_drop]
          have hbl : blk.length = N s - s.idx := by
            rw [← hblk, List.length_take]; omega
          have hrl : rest.length ≤ fuel := by
            rw [← hrest, List.length_drop, List.length_cons]; omega
          have hadd := addBits_spec h blk (by omega)
          rw [hcat, runB_append, hadd]
          simp only [bind_ok]
          have hne : blk ≠ [] := by intro hh; rw [hh] at hbl; simp at hbl; omega
          have hrb := runB_block g blk s hf hne (by omega) (by rw [h.len]; omega)
          unfold blockEnd at hrb
          change runB g s blk = if ∃ p ∈ s.pats.filterMap id, Matches p ((put s.hist s.idx blk).take (N s)) then
            ({ s with hist := put s.hist s.idx blk, idx := 0, errs := 0 },
              [some ((put s.hist s.idx blk).take (N s))])
            else if (s.errs + 1) % 2 ^ 32 ≥ 3 then
              ({ s with hist := put s.hist s.idx blk, idx := 0, errs := (s.errs + 1) % 2 ^ 32,
                        fsm := .lost, timer := true }, [none])
            else ({ s with hist := put s.hist s.idx blk, idx := 0, errs := (s.errs + 1) % 2 ^ 32 },
              [some ((put s.hist s.idx blk).take (N s))]) at hrb
          have hplen : (put s.hist s.idx blk).length = HIST := by
            rw [put_length _ _ _ (by rw [h.len]; omega), h.len]
          obtain ⟨r, r1, r2⟩ := corrPats_spec
            (s := { s with hist := put s.hist s.idx blk, idx := s.idx + blk.length })
            hplen (by simp only; omega) s.pats (160 * 8) (by decide) h.ok
          have hwin : ∀ p, some p ∈ s.pats → win { s with hist := put s.hist s.idx blk, idx := s.idx + blk.length }
              (p.byteLen * 8) = (put s.hist s.idx blk).take (N s) := by
            intro p hp
            have : p.byteLen * 8 = N s := by rw [h.same p _ hp h.prim_mem]; rfl
            rw [this]
            exact win_block _ rfl hplen _ (by omega) (by simp only; omega)
          have r2' : r = 0 ↔ ∃ p ∈ s.pats.filterMap id, Matches p ((put s.hist s.idx blk).take (N s)) := by
            rw [r2]
            constructor
            · rintro ⟨p, p1, p2⟩; exact ⟨p, (filterMap_id_mem _ _).2 p1, by rw [← hwin p p1]; exact p2⟩
            · rintro ⟨p, p1, p2⟩
              have p1 := (filterMap_id_mem _ _).1 p1
              exact ⟨p, p1, by rw [hwin p p1]; exact p2⟩
          unfold correlateAll
          simp only [r1, bind_ok]
          have hinv := runB_inv g blk s h
          by_cases hm : ∃ p ∈ s.pats.filterMap id, Matches p ((put s.hist s.idx blk).take (N s))
          · have hr0 : r = 0 := r2'.2 hm
            subst hr0
            simp only [gt_iff_lt, Nat.lt_irrefl, if_false, false_and]
            simp only [hm, if_true] at hrb
            rw [hrb] at hinv
            rw [hrb]
            simp only
            rw [ih _ rest hinv hrl]
            simp only [slice, Nat.zero_add, hplen, show s.idx + blk.length ≤ HIST by omega, if_true, bind_ok,
              List.drop_zero, List.cons_append, List.nil_append]
            rw [show s.idx + blk.length = N s by omega]
          · have hr0 : r > 0 := Nat.pos_of_ne_zero (fun hh => hm (r2'.1 hh))
            simp only [hr0, if_true, true_and]
            simp only [hm, if_false] at hrb
            by_cases he : (s.errs + 1) % 2 ^ 32 ≥ 3
            · simp only [he, if_true] at hrb ⊢
              rw [hrb] at hinv
              rw [hrb]
              simp only [stateChg, hf, allowed, if_true, bind_ok]
              rw [ih _ rest hinv hrl]
              simp only [bind_ok, List.append_nil, List.cons_append, List.nil_append]
            · simp only [he, if_false] at hrb ⊢
              rw [hrb] at hinv
              rw [hrb]
              simp only
              rw [ih _ rest hinv hrl]
              simp only [slice, Nat.zero_add, hplen, show s.idx + blk.length ≤ HIST by omega, if_true, bind_ok,
                List.drop_zero, List.cons_append, List.nil_append]
              rw [show s.idx + blk.length = N s by omega]
      · have hstep := stepB_inv g s b h
        have hidx := h.idx
        have hal : allowed s.fsm .aligned = true := by cases hh : s.fsm <;> simp_all [allowed]
        have hd : dispatch g (fuel + 1) s (b :: bs) = (do
            let s ← addBit s b
            let p ← patAt s 0
            let rc ← correlate s p
            if rc = 0 then
              let (s, e1) ← stateChg g s .aligned false
              let (s, e2) ← dispatch g fuel s bs
              .ok (s, e1 ++ e2)
            else dispatch g fuel s bs) := by
          rw [dispatch]
          cases hh : s.fsm with
          | wait => rfl
          | lost => rfl
          | aligned => exact absurd hh hf
        rw [hd]
        have hst : stepB g s b =
            if Matches (prim s) (win { s with hist := s.hist.set s.idx b, idx := (s.idx + 1) % HIST } (N s)) then
              (aligned g { s with hist := s.hist.set s.idx b, idx := (s.idx + 1) % HIST },
                [some (win { s with hist := s.hist.set s.idx b, idx := (s.idx + 1) % HIST } (N s))])
            else ({ s with hist := s.hist.set s.idx b, idx := (s.idx + 1) % HIST }, []) := by
          unfold stepB
          cases hh : s.fsm with
          | wait => rfl
          | lost => rfl
          | aligned => exact absurd hh hf
        have ha : addBit s b = .ok { s with hist := s.hist.set s.idx b, idx := (s.idx + 1) % HIST } := by
          unfold addBit wr
          rw [if_pos (by rw [h.len]; exact hidx)]
          simp only [bind_ok]
        rw [ha]
        simp only [bind_ok]
        generalize hs1 : ({ s with hist := s.hist.set s.idx b, idx := (s.idx + 1) % HIST } : St) = s1 at *
        have hlen1 : s1.hist.length = HIST := by subst hs1; simp [h.len]
        have hidx1 : s1.idx < HIST := by subst hs1; exact Nat.mod_lt _ (by decide)
        have hprim1 : prim s1 = prim s := by subst hs1; rfl
        have hp1 : ∃ p ps, s1.pats = some p :: ps := by subst hs1; exact h.prim
        have hfsm1 : s1.fsm = s.fsm := by subst hs1; rfl
        have hok := h.ok _ h.prim_mem
        rw [patAt_zero hp1]
        simp only [bind_ok]
        rw [hprim1]
        obtain ⟨r, r1, r2⟩ := correlate_spec hlen1 (Nat.le_of_lt hidx1) hok
        rw [r1]
        simp only [bind_ok]
        rw [show (prim s).byteLen * 8 = N s from rfl] at r2
        rw [runB]
        by_cases hr : r = 0
        · rw [if_pos hr]
          rw [if_pos (r2.1 hr)] at hst
          rw [hst] at hstep ⊢
          simp only [stateChg, hfsm1, hal, if_true, onenterAligned]
          have halign : align g { s1 with fsm := .aligned, timer := false } = .ok (aligned g s1) :=
            align_spec g (s := { s1 with fsm := .aligned, timer := false }) hlen1
              (Nat.le_of_lt hidx1) hp1 (by
              show (prim s1).OK
              rw [hprim1]; exact hok)
          rw [halign]
          simp only [bind_ok]
          have hNs : N s1 = N s := by rw [N, hprim1]; rfl
          have hwl : (win s1 (N s)).length = N s := win_length hlen1 (Nat.le_of_lt hidx1) (by omega)
          have hpa' : patAt (aligned g s1) 0 = .ok (prim s) := by
            rw [← hprim1]
            exact patAt_zero (s := aligned g s1) hp1
          have hsl : slice (aligned g s1).hist 0 ((prim s).byteLen * 8) = .ok (win s1 (N s)) := by
            show slice (win s1 (N s1) ++ _) 0 (N s) = _
            rw [hNs, slice_ok (by simp [hwl])]
            simp [hwl]
          rw [hpa']
          simp only [bind_ok]
          rw [hsl]
          simp only [bind_ok]
          rw [ih _ bs hstep (by omega)]
          simp only [bind_ok]
        · rw [if_neg hr]
          rw [if_neg (fun hh => hr (r2.2 hh))] at hst
          rw [hst] at hstep ⊢
          rw [ih _ bs hstep (by omega)]
          simp only [List.nil_append]

theorem rxUbits_eq (g : Nat → Nat → Byte) (s : St) (bits : List Byte) (h : Inv s) :
    rxUbits g s bits = .ok (runB g s bits) := dispatch_eq g _ s bits h (Nat.le_refl _)

end Verif.TrauSync
