import Verif.Proof.TrauSync
/-!
# C15 – C22: the TRAU frame synchroniser
-/
namespace Verif.TrauSync
open Verif
open Verif.RaaPrime (bind_ok bind_err)
set_option linter.unusedSimpArgs false
set_option maxRecDepth 4000

/-- An API call or timer expiry. -/
inductive Op where
  | rx (bits : List Byte)
  | setPat (patId : Nat)
  | setSecondary (patId patIndex : Nat)
  | timeout

def step (g : Nat → Nat → Byte) (s : St) : Op → M (St × List Ev)
  | .rx bits => rxUbits g s bits
  | .setPat i => setPat g s i
  | .setSecondary i j => setSecondary g s i j
  | .timeout => timeout g s

/-- The conditions the API documents: a pattern of the table; a secondary pattern has an index
1..7 and the length of the primary one. -/
def Admissible (s : St) : Op → Prop
  | .rx _ => True
  | .setPat i => i < 10
  | .setSecondary i j => 0 < j ∧ j < 8 ∧
      ∃ p q, s.pats[0]? = some (some p) ∧ syncPatterns[i]? = some q ∧ q.byteLen = p.byteLen
  | .timeout => True

/-- The states an instance can get into, for the contents `g` of uninitialised stack memory. -/
inductive Reach (g : Nat → Nat → Byte) : St → Prop
  | alloc {i s} : alloc i = some s → Reach g s
  | step {s s' : St} {o : Op} {es : List Ev} :
      Reach g s → Admissible s o → step g s o = .ok (s', es) → Reach g s'

private theorem alloc_eq {i : Nat} {s : St} (h : alloc i = some s) : ∃ p, syncPatterns[i]? = some p ∧
    s = { hist := List.replicate HIST 1, idx := 0, pats := some p :: List.replicate 7 none, errs := 0,
          fsm := .wait, timer := false, nAlign := 0 } := by
  unfold alloc at h
  split at h
  · cases h
  · rename_i p hp; cases h; exact ⟨p, hp, rfl⟩

private theorem single_mem {p q : Pat} (h : some q ∈ some p :: List.replicate 7 none) : q = p := by
  rcases List.mem_cons.1 h with h | h
  · exact Option.some.inj h
  · simp at h

private theorem alloc_inv {i : Nat} {s : St} (h : alloc i = some s) : Inv s := by
  obtain ⟨p, hp, rfl⟩ := alloc_eq h
  have hok := table_ok p (List.mem_of_getElem? hp)
  exact
    { len := by simp, idx := (by decide : 0 < HIST), pats := by simp, prim := ⟨p, _, rfl⟩
      ok := fun q hq => by rw [single_mem hq]; exact hok
      same := fun a b ha hb => by rw [single_mem ha, single_mem hb]
      al := by simp, errs := (by decide : 0 < 2 ^ 32) }

private theorem stateChg_other (g : Nat → Nat → Byte) (s : St) (to : Fsm) (t : Bool) (h : to ≠ .aligned) :
    stateChg g s to t = .ok (if allowed s.fsm to then { s with fsm := to, timer := t } else s, []) := by
  unfold stateChg
  split
  · cases to <;> simp_all
  · rfl

private theorem inv_chg {s s' : St} (h : Inv s) (h1 : s'.hist = s.hist) (h2 : s'.idx = s.idx)
    (h3 : s'.errs = s.errs) (hp : s'.pats.length = 8) (hpr : ∃ p ps, s'.pats = some p :: ps)
    (hok : ∀ p, some p ∈ s'.pats → p.OK)
    (hsame : ∀ p q, some p ∈ s'.pats → some q ∈ s'.pats → p.byteLen = q.byteLen)
    (hal : s'.fsm ≠ .aligned) : Inv s' :=
  { len := by rw [h1]; exact h.len, idx := by rw [h2]; exact h.idx, pats := hp, prim := hpr, ok := hok
    same := hsame, al := fun ha => absurd ha hal, errs := by rw [h3]; exact h.errs }

theorem step_ok (g : Nat → Nat → Byte) (s : St) (o : Op) (h : Inv s) (ha : Admissible s o) :
    ∃ s' es, step g s o = .ok (s', es) ∧ Inv s' := by
  cases o with
  | rx bits => exact ⟨_, _, rxUbits_eq g s bits h, runB_inv g bits s h⟩
  | setPat i =>
    have hi : i < syncPatterns.length := ha
    have hok := table_ok _ (List.getElem_mem hi)
    simp only [step, setPat, rd_ok hi, bind_ok]
    rw [stateChg_other _ _ _ _ (by simp)]
    refine ⟨_, _, rfl, ?_⟩
    apply inv_chg h
    · split <;> rfl
    · split <;> rfl
    · split <;> rfl
    · split <;> simp
    · split <;> exact ⟨_, _, rfl⟩
    · intro q hq
      have : q = syncPatterns[i] := by split at hq <;> exact single_mem hq
      rw [this]; exact hok
    · intro a b ha hb
      have h1 : a = syncPatterns[i] := by split at ha <;> exact single_mem ha
      have h2 : b = syncPatterns[i] := by split at hb <;> exact single_mem hb
      rw [h1, h2]
    · cases hh : s.fsm <;> simp [allowed, hh]
  | setSecondary i j =>
    obtain ⟨hj0, hj8, p, q, hp, hq, hpq⟩ := ha
    have hp0 : p = prim s := by
      obtain ⟨p', ps, hps⟩ := h.prim
      rw [hps] at hp; simp at hp; simp [prim, hps, hp]
    have hqok := table_ok q (List.mem_of_getElem? hq)
    have hrd : rd syncPatterns i = .ok q := by simp [rd, hq]
    have hjl : j < s.pats.length := by rw [h.pats]; exact hj8
    simp only [step, setSecondary, patAt_zero h.prim, hrd, bind_ok, cassert, hj0, hjl, decide_true, if_true,
      ← hp0, hpq, wr]
    rw [stateChg_other _ _ _ _ (by simp)]
    refine ⟨_, _, rfl, ?_⟩
    have hmem : ∀ a, some a ∈ s.pats.set j (some q) → some a ∈ s.pats ∨ a = q := by
      intro a ha
      rcases List.mem_or_eq_of_mem_set ha with h1 | h1
      · exact Or.inl h1
      · exact Or.inr (Option.some.inj h1)
    have hlen : ∀ a, some a ∈ s.pats ∨ a = q → a.byteLen = p.byteLen := by
      rintro a (h1 | h1)
      · rw [hp0]; exact h.same _ _ h1 h.prim_mem
      · rw [h1, hpq]
    apply inv_chg h
    · split <;> rfl
    · split <;> rfl
    · split <;> rfl
    · split <;> simp [h.pats]
    · obtain ⟨p', ps, hps⟩ := h.prim
      obtain ⟨j, rfl⟩ : ∃ j', j = j' + 1 := ⟨j - 1, by omega⟩
      split <;> exact ⟨p', ps.set j (some q), by simp [hps]⟩
    · intro a ha
      have : some a ∈ s.pats.set j (some q) := by split at ha <;> exact ha
      rcases hmem a this with h1 | h1
      · exact h.ok a h1
      · rw [h1]; exact hqok
    · intro a b ha hb
      have h1 : some a ∈ s.pats.set j (some q) := by split at ha <;> exact ha
      have h2 : some b ∈ s.pats.set j (some q) := by split at hb <;> exact hb
      rw [hlen a (hmem a h1), hlen b (hmem b h2)]
    · cases hh : s.fsm <;> simp [allowed, hh]
  | timeout =>
    simp only [step, timeout]
    split
    · rw [stateChg_other _ _ _ _ (by simp)]
      refine ⟨_, _, rfl, ?_⟩
      by_cases hall : allowed s.fsm .wait = true
      · apply inv_chg h <;> simp only [hall, if_true]
        · exact h.pats
        · exact h.prim
        · exact h.ok
        · exact h.same
        · simp
      · simp only [hall]
        exact { len := h.len, idx := h.idx, pats := h.pats, prim := h.prim, ok := h.ok, same := h.same
                al := h.al, errs := h.errs }
    · exact ⟨_, _, rfl, h⟩

theorem Reach.inv {g : Nat → Nat → Byte} {s : St} (h : Reach g s) : Inv s := by
  induction h with
  | alloc h => exact alloc_inv h
  | step _ ha hs ih =>
    obtain ⟨s', es, h1, h2⟩ := step_ok g _ _ ih ha
    rw [h1] at hs
    have := Except.ok.inj hs
    cases this
    exact h2

/-! ### C20 -/

/-- **C20** Whatever was done before: no admissible call fires an assertion, leaves the history buffer,
dereferences a missing pattern or fails to terminate (all of these would be an error). -/
theorem C20_no_fault (g : Nat → Nat → Byte) (s : St) (h : Reach g s) (o : Op) (ha : Admissible s o) :
    ∃ s' es, step g s o = .ok (s', es) := by
  obtain ⟨s', es, h1, _⟩ := step_ok g s o h.inv ha
  exact ⟨s', es, h1⟩

/-- A history with a secondary pattern is admissible. -/
example : ∃ s, alloc 1 = some s ∧ Admissible s (.setSecondary 2 1) ∧ Admissible s (.setPat 9) := by
  refine ⟨_, rfl, ⟨by decide, by decide, _, _, rfl, rfl, by decide +kernel⟩, (by decide : 9 < 10)⟩

/-- Outside of the documented conditions the assertions do fire. -/
theorem C20_assert_needed : ∃ g s s', Reach g s ∧ setSecondary g s 0 1 = .error .assert ∧
    Reach g s' ∧ setPat g s' 10 = .error .oob := by
  refine ⟨fun _ _ => 0, _, _, .alloc (i := 9) rfl, ?_, .alloc (i := 9) rfl, ?_⟩ <;> decide +kernel

/-! ### C15 -/

/-- **C15** In every reachable state, delivering `a` and then `b` gives the same call-backs and the same
state as delivering `a ++ b` at once. -/
theorem C15_chunking (g : Nat → Nat → Byte) (s : St) (h : Reach g s) (a b : List Byte) :
    ∃ s1 e1 s2 e2, rxUbits g s a = .ok (s1, e1) ∧ rxUbits g s1 b = .ok (s2, e2) ∧
      rxUbits g s (a ++ b) = .ok (s2, e1 ++ e2) := by
  have hi := h.inv
  refine ⟨_, _, _, _, rxUbits_eq g s a hi, rxUbits_eq g _ b (runB_inv g a s hi), ?_⟩
  rw [rxUbits_eq g s (a ++ b) hi, runB_append]

/-! ### Acquisition: C16, C17, C18 -/

private theorem ring_step {s : St} (h : s.hist.length = HIST) (hi : s.idx < HIST) (b : Byte) :
    ring { s with hist := s.hist.set s.idx b, idx := (s.idx + 1) % HIST } = (ring s ++ [b]).drop 1 := by
  unfold ring
  simp only
  have hcons : s.hist.drop s.idx = s.hist[s.idx]'(by omega) :: s.hist.drop (s.idx + 1) :=
    List.drop_eq_getElem_cons (by omega)
  by_cases hw : s.idx + 1 < HIST
  · rw [Nat.mod_eq_of_lt hw, List.drop_set_of_lt (by omega), List.take_add_one,
      List.getElem?_set_self (by omega), List.take_set_of_le (Nat.le_refl _), hcons]
    simp only [Option.toList_some, List.append_assoc, List.cons_append, List.drop_succ_cons, List.drop_zero]
  · have he : s.idx + 1 = HIST := by omega
    rw [he, Nat.mod_self, hcons, he, ← h]
    simp only [List.drop_zero, List.take_zero, List.append_nil, List.drop_length, List.nil_append,
      List.cons_append, List.drop_succ_cons]
    apply List.ext_getElem?
    intro i
    rw [List.getElem?_set]
    by_cases h1 : i < s.idx
    · rw [if_neg (by omega), List.getElem?_append_left (by simp; omega), List.getElem?_take_of_lt h1]
    · by_cases h2 : i = s.idx
      · rw [if_pos h2.symm, if_pos (by omega), List.getElem?_append_right (by simp; omega)]
        simp only [List.length_take]
        rw [show i - min s.idx s.hist.length = 0 by omega]; rfl
      · rw [if_neg (by omega), List.getElem?_eq_none (by omega), List.getElem?_eq_none (by simp; omega)]

/-- newest `n` bits of a history -/
private def lastN (n : Nat) (l : List Byte) : List Byte := l.drop (l.length - n)

private theorem lastN_append_le {n : Nat} (a b : List Byte) (h : n ≤ b.length) : lastN n (a ++ b) = lastN n b := by
  unfold lastN
  rw [List.length_append, List.drop_append, List.drop_of_length_le (by omega)]
  simp only [List.nil_append]
  congr 1; omega

private theorem lastN_shift (R : List Byte) (x : Byte) (n : Nat) (hR : HIST ≤ R.length) (hn : n ≤ HIST) :
    lastN n ((lastN HIST R ++ [x]).drop 1) = lastN n (R ++ [x]) := by
  have hH : 0 < HIST := by decide
  unfold lastN
  rw [← List.drop_append_of_le_length (by omega), List.drop_drop, List.drop_drop]
  simp only [List.length_drop, List.length_append, List.length_cons, List.length_nil]
  congr 1
  omega

private theorem win_lastN {s : St} (h : s.hist.length = HIST) (hi : s.idx < HIST) {n : Nat} :
    win s n = lastN n (ring s) := by
  unfold win lastN
  rw [ring_length h (Nat.le_of_lt hi)]

/-- received while not aligned, without a match -/
private theorem search (g : Nat → Nat → Byte) : ∀ (xs : List Byte) (s : St), Inv s → s.fsm ≠ .aligned →
    (∀ k, 0 < k → k ≤ xs.length → ¬ Matches (prim s) (lastN (N s) (ring s ++ xs.take k))) →
    (runB g s xs).2 = [] ∧ (runB g s xs).1.fsm = s.fsm ∧ (runB g s xs).1.errs = s.errs ∧
      lastN HIST (ring s ++ xs) = ring (runB g s xs).1 ∧ (runB g s xs).1.nAlign = s.nAlign := by
  intro xs
  induction xs with
  | nil =>
    intro s h hf _
    refine ⟨rfl, rfl, rfl, ?_, rfl⟩
    simp [runB, lastN, ring_length h.len (Nat.le_of_lt h.idx)]
  | cons x xs ih =>
    intro s h hf hno
    have hN := N_le h
    have hH : HIST = 1281 := rfl
    generalize hs1 : ({ s with hist := s.hist.set s.idx x, idx := (s.idx + 1) % HIST } : St) = s1
    have hst : stepB g s x = acquire g s1 := by rw [stepB_unaligned g s x hf, hs1]
    have hlen1 : s1.hist.length = HIST := by subst hs1; simp [h.len]
    have hidx1 : s1.idx < HIST := by subst hs1; exact Nat.mod_lt _ (by decide)
    have hring : ring s1 = (ring s ++ [x]).drop 1 := by subst hs1; exact ring_step h.len h.idx x
    have hrl := ring_length h.len (Nat.le_of_lt h.idx)
    have hprim : prim s1 = prim s := by subst hs1; rfl
    have hNN : N s1 = N s := by subst hs1; rfl
    have hfsm : s1.fsm = s.fsm := by subst hs1; rfl
    have herr : s1.errs = s.errs := by subst hs1; rfl
    have hl : ∀ n ≤ HIST, ∀ ys, lastN n (ring s1 ++ ys) = lastN n (ring s ++ x :: ys) := by
      intro n hn ys
      rw [hring]
      cases hr : ring s with
      | nil => rw [hr] at hrl; simp at hrl; omega
      | cons r0 r =>
        rw [hr] at hrl
        simp only [List.length_cons] at hrl
        simp only [List.cons_append, List.drop_succ_cons, List.drop_zero, List.append_assoc, List.nil_append]
        rw [show r0 :: (r ++ x :: ys) = [r0] ++ (r ++ x :: ys) from rfl,
          lastN_append_le [r0] (r ++ x :: ys) (by simp only [List.length_append, List.length_cons]; omega)]
    have hnm : ¬ Matches (prim s1) (win s1 (N s1)) := by
      rw [win_lastN hlen1 hidx1, hprim, hNN]
      have := hno 1 (by omega) (by simp)
      have h2 := hl (N s) (by omega) []
      rw [List.append_nil] at h2
      rw [h2]
      simpa using this
    have hacq : stepB g s x = (s1, []) := by rw [hst, acquire, if_neg hnm]
    have hinv1 : Inv s1 := by have := stepB_inv g s x h; rwa [hacq] at this
    have hnal : s1.nAlign = s.nAlign := by subst hs1; rfl
    obtain ⟨a, b, c, d, e⟩ := ih s1 hinv1 (by rw [hfsm]; exact hf) (by
      intro k hk hkl
      rw [hprim, hNN, hl (N s) (by omega)]
      have := hno (k + 1) (by omega) (by simp; omega)
      simpa using this)
    rw [runB, hacq]
    refine ⟨by simpa using a, by rw [← hfsm]; exact b, by rw [← herr]; exact c, ?_, by rw [← hnal]; exact e⟩
    rw [← hl HIST (Nat.le_refl _) xs]
    exact d

/-- the bit completing the first match -/
private theorem acquired (g : Nat → Nat → Byte) (xs : List Byte) (x : Byte) (s : St) (h : Inv s)
    (hf : s.fsm ≠ .aligned)
    (hno : ∀ k, 0 < k → k ≤ xs.length → ¬ Matches (prim s) (lastN (N s) (ring s ++ xs.take k)))
    (hm : Matches (prim s) (lastN (N s) (ring s ++ (xs ++ [x])))) :
    (runB g s (xs ++ [x])).2 = [some (lastN (N s) (ring s ++ (xs ++ [x])))] ∧
      (runB g s (xs ++ [x])).1.fsm = .aligned ∧ (runB g s (xs ++ [x])).1.idx = 0 ∧
      (runB g s (xs ++ [x])).1.errs = s.errs ∧ (runB g s (xs ++ [x])).1.pats = s.pats ∧
      (runB g s (xs ++ [x])).1.hist = lastN (N s) (ring s ++ (xs ++ [x])) ++
        (List.range (HIST - N s)).map (fun i => g s.nAlign (N s + i)) ∧
      (runB g s (xs ++ [x])).1.nAlign = s.nAlign + 1 ∧ (runB g s (xs ++ [x])).1.timer = false := by
  obtain ⟨a, b, c, d, dn⟩ := search g xs s h hf hno
  have hN := N_le h
  have hH : HIST = 1281 := rfl
  have hpats := runB_pats g xs s
  have hpats2 := runB_pats g (xs ++ [x]) s
  have hi := runB_inv g xs s h
  rw [runB_append]
  generalize hr : runB g s xs = r at *
  obtain ⟨s0, e0⟩ := r
  simp only at a b c d dn hpats hi
  subst a
  simp only [runB, List.nil_append, List.append_nil]
  generalize hs1 : ({ s0 with hist := s0.hist.set s0.idx x, idx := (s0.idx + 1) % HIST } : St) = s1
  have hst : stepB g s0 x = acquire g s1 := by rw [stepB_unaligned g s0 x (by rw [b]; exact hf), hs1]
  have hprim0 : prim s0 = prim s := by unfold prim; rw [hpats]
  have hprim : prim s1 = prim s := by rw [← hprim0]; subst hs1; rfl
  have hNN : N s1 = N s := by unfold N; rw [hprim]
  have hlen1 : s1.hist.length = HIST := by subst hs1; simp [hi.len]
  have hidx1 : s1.idx < HIST := by subst hs1; exact Nat.mod_lt _ (by decide)
  have hring : ring s1 = (ring s0 ++ [x]).drop 1 := by subst hs1; exact ring_step hi.len hi.idx x
  have hrl := ring_length h.len (Nat.le_of_lt h.idx)
  have hw : win s1 (N s1) = lastN (N s) (ring s ++ (xs ++ [x])) := by
    rw [win_lastN hlen1 hidx1, hNN, hring, ← d, ← List.append_assoc]
    exact lastN_shift _ x (N s) (by rw [List.length_append, hrl]; omega) (by omega)
  have hacq : stepB g s0 x = (aligned g s1, [some (lastN (N s) (ring s ++ (xs ++ [x])))]) := by
    rw [hst, acquire, hw, hprim, if_pos hm]
  rw [hacq]
  have hnal : s1.nAlign = s.nAlign := by rw [← dn]; subst hs1; rfl
  refine ⟨rfl, rfl, rfl, ?_, ?_, ?_, ?_, rfl⟩
  · rw [← c]; subst hs1; rfl
  · rw [← hpats]; subst hs1; rfl
  · show win s1 (N s1) ++ (List.range (HIST - N s1)).map (fun i => g s1.nAlign (N s1 + i)) = _
    rw [hw, hNN, hnal]
  · show s1.nAlign + 1 = _
    rw [hnal]

/-- decidable search for the first match -/
private theorem first_match (P : Nat → Prop) [DecidablePred P] : ∀ n : Nat,
    (∀ k, 0 < k → k ≤ n → ¬ P k) ∨ ∃ k, 0 < k ∧ k ≤ n ∧ P k ∧ ∀ j, 0 < j → j < k → ¬ P j := by
  intro n
  induction n with
  | zero => exact Or.inl (by intro k h1 h2; omega)
  | succ n ih =>
    rcases ih with h | ⟨k, h1, h2, h3, h4⟩
    · by_cases hp : P (n + 1)
      · exact Or.inr ⟨n + 1, by omega, Nat.le_refl _, hp, fun j j1 j2 => h j j1 (by omega)⟩
      · refine Or.inl (fun k k1 k2 => ?_)
        by_cases hk : k = n + 1
        · subst hk; exact hp
        · exact h k k1 (by omega)
    · exact Or.inr ⟨k, h1, by omega, h3, h4⟩

private theorem take_succ_split (xs : List Byte) (k : Nat) (h0 : 0 < k) (h : k ≤ xs.length) :
    ∃ ys x, xs.take k = ys ++ [x] ∧ ys = xs.take (k - 1) := by
  refine ⟨xs.take (k - 1), xs[k - 1]'(by omega), ?_, rfl⟩
  have := List.take_add_one (l := xs) (i := k - 1)
  rw [show k - 1 + 1 = k by omega, List.getElem?_eq_getElem (by omega)] at this
  simpa using this

/-- everything about the first match in an unaligned state -/
private theorem acquisition (g : Nat → Nat → Byte) (s : St) (h : Inv s) (hf : s.fsm ≠ .aligned)
    (xs : List Byte) (k : Nat) (hk0 : 0 < k) (hk : k ≤ xs.length)
    (hm : Matches (prim s) (lastN (N s) (ring s ++ xs.take k)))
    (hno : ∀ j, 0 < j → j < k → ¬ Matches (prim s) (lastN (N s) (ring s ++ xs.take j))) :
    (runB g s (xs.take k)).2 = [some (lastN (N s) (ring s ++ xs.take k))] ∧
      (runB g s (xs.take k)).1.fsm = .aligned ∧ (runB g s (xs.take k)).1.idx = 0 ∧
      (runB g s (xs.take k)).1.errs = s.errs ∧ (runB g s (xs.take k)).1.pats = s.pats ∧
      (runB g s (xs.take k)).1.hist = lastN (N s) (ring s ++ xs.take k) ++
        (List.range (HIST - N s)).map (fun i => g s.nAlign (N s + i)) ∧
      (runB g s (xs.take k)).1.nAlign = s.nAlign + 1 ∧ (runB g s (xs.take k)).1.timer = false := by
  obtain ⟨ys, x, h1, h2⟩ := take_succ_split xs k hk0 hk
  rw [h1] at hm ⊢
  refine acquired g ys x s h hf ?_ hm
  intro j j1 j2
  have hyl : ys.length = k - 1 := by rw [h2, List.length_take]; omega
  have := hno j j1 (by omega)
  rw [h2, List.take_take, Nat.min_eq_left (by omega)]
  exact this

/-- In a fresh instance a window reaching back before the first bit received does not match. -/
private theorem fresh_early {s : St} {p : Pat} (hp : p ∈ syncPatterns) (hring : ring s = List.replicate HIST 1)
    (xs : List Byte) (k : Nat) (hk : k ≤ xs.length) (hlt : k < p.nbits) :
    ¬ Matches p (lastN p.nbits (ring s ++ xs.take k)) := by
  intro hm
  have hok := table_ok p hp
  have hle := hok.le
  have hpos := hok.pos
  unfold Pat.nbits at hlt hm
  have h0 := hm 0 (by omega) (by rw [hok.first]; decide)
  rw [hok.zero, hring] at h0
  unfold lastN at h0
  rw [List.getElem?_drop, List.getElem?_append_left (by simp [HIST]; omega), List.getElem?_replicate,
    if_pos (by simp [HIST]; omega)] at h0
  revert h0; decide

private theorem window_eq (s : St) (xs : List Byte) (n k : Nat) (hk : k ≤ xs.length) (hn : n ≤ k) :
    lastN n (ring s ++ xs.take k) = window xs n k := by
  rw [lastN_append_le _ _ (by simp; omega)]
  unfold lastN window
  rw [List.length_take, Nat.min_eq_left hk]

private theorem alloc_facts {i : Nat} {s : St} {p : Pat} (ha : alloc i = some s) (hp : syncPatterns[i]? = some p) :
    Inv s ∧ s.fsm ≠ .aligned ∧ prim s = p ∧ N s = p.nbits ∧ ring s = List.replicate HIST 1 ∧ s.errs = 0 := by
  have hi := alloc_inv ha
  obtain ⟨p', hp', rfl⟩ := alloc_eq ha
  rw [hp] at hp'
  cases hp'
  exact ⟨hi, by simp, rfl, rfl, by simp [ring], rfl⟩

private theorem fresh_none (g : Nat → Nat → Byte) {i : Nat} {s : St} {p : Pat} (ha : alloc i = some s)
    (hp : syncPatterns[i]? = some p) (xs : List Byte)
    (hno : ∀ k, p.nbits ≤ k → k ≤ xs.length → ¬ Matches p (window xs p.nbits k)) :
    (runB g s xs).2 = [] := by
  obtain ⟨hi, hf, hpr, hN, hring, _⟩ := alloc_facts ha hp
  refine (search g xs s hi hf ?_).1
  intro k hk0 hk
  rw [hpr, hN]
  by_cases hlt : k < p.nbits
  · exact fresh_early (List.mem_of_getElem? hp) hring xs k hk hlt
  · rw [window_eq s xs _ k hk (by omega)]
    exact hno k (by omega) hk

/-- **C17** No call-back is made before a complete frame length of bits was received. -/
theorem C17_full_frame_needed (g : Nat → Nat → Byte) (i : Nat) (s : St) (p : Pat) (ha : alloc i = some s)
    (hp : syncPatterns[i]? = some p) (xs : List Byte) (hl : xs.length < p.nbits) :
    ∃ s', rxUbits g s xs = .ok (s', []) := by
  refine ⟨(runB g s xs).1, ?_⟩
  rw [rxUbits_eq g s xs (alloc_inv ha)]
  have := fresh_none g ha hp xs (by intro k k1 k2; omega)
  rw [← this]

/-- **C18** If none of the windows received so far matches, nothing is delivered; -/
theorem C18_nothing_before (g : Nat → Nat → Byte) (i : Nat) (s : St) (p : Pat) (ha : alloc i = some s)
    (hp : syncPatterns[i]? = some p) (xs : List Byte)
    (hno : ∀ k, p.nbits ≤ k → k ≤ xs.length → ¬ Matches p (window xs p.nbits k)) :
    ∃ s', rxUbits g s xs = .ok (s', []) := by
  refine ⟨(runB g s xs).1, ?_⟩
  rw [rxUbits_eq g s xs (alloc_inv ha), ← fresh_none g ha hp xs hno]

/-- **C18** … and if the window ending at bit `k` is the first one to match, exactly this window is
delivered when bit `k` is received (and the next bit is the first one of the next frame). -/
theorem C18_first_match (g : Nat → Nat → Byte) (i : Nat) (s : St) (p : Pat) (ha : alloc i = some s)
    (hp : syncPatterns[i]? = some p) (xs : List Byte) (k : Nat) (hk1 : p.nbits ≤ k) (hk2 : k ≤ xs.length)
    (hm : Matches p (window xs p.nbits k))
    (hno : ∀ j, p.nbits ≤ j → j < k → ¬ Matches p (window xs p.nbits j)) :
    ∃ s', rxUbits g s (xs.take k) = .ok (s', [some (window xs p.nbits k)]) ∧
      s'.fsm = .aligned ∧ s'.idx = 0 ∧ s'.errs = 0 ∧ s'.pats = s.pats := by
  obtain ⟨hi, hf, hpr, hN, hring, he⟩ := alloc_facts ha hp
  have hpos : 0 < p.nbits := by rw [← hN]; exact N_pos hi
  obtain ⟨a, b, c, d, e, _⟩ := acquisition g s hi hf xs k (by omega) hk2
    (by rw [hpr, hN, window_eq s xs _ k hk2 hk1]; exact hm)
    (by
      intro j j1 j2
      rw [hpr, hN]
      by_cases hlt : j < p.nbits
      · exact fresh_early (List.mem_of_getElem? hp) hring xs j (by omega) hlt
      · rw [window_eq s xs _ j (by omega) (by omega)]
        exact hno j (by omega) j2)
  refine ⟨(runB g s (xs.take k)).1, ?_, b, c, by rw [d, he], e⟩
  rw [rxUbits_eq g s _ hi]
  congr 1
  apply Prod.ext
  · rfl
  · rw [a, hN, window_eq s xs _ k hk2 hk1]

/-- the same for any instance that has not received a bit, whatever secondary patterns were added -/
theorem first_match_of (g : Nat → Nat → Byte) (s : St) (p : Pat) (hi : Inv s) (hf : s.fsm ≠ .aligned) (hpr : prim s = p) (hp : p ∈ syncPatterns)
    (hring : ring s = List.replicate HIST 1) (he : s.errs = 0) (xs : List Byte) (k : Nat) (hk1 : p.nbits ≤ k) (hk2 : k ≤ xs.length)
    (hm : Matches p (window xs p.nbits k))
    (hno : ∀ j, p.nbits ≤ j → j < k → ¬ Matches p (window xs p.nbits j)) :
    ∃ s', rxUbits g s (xs.take k) = .ok (s', [some (window xs p.nbits k)]) ∧
      s'.fsm = .aligned ∧ s'.idx = 0 ∧ s'.errs = 0 ∧ s'.pats = s.pats := by
  have hN : N s = p.nbits := by rw [← hpr]; rfl
  have hpos : 0 < p.nbits := by rw [← hN]; exact N_pos hi
  obtain ⟨a, b, c, d, e, _⟩ := acquisition g s hi hf xs k (by omega) hk2
    (by rw [hpr, hN, window_eq s xs _ k hk2 hk1]; exact hm)
    (by
      intro j j1 j2
      rw [hpr, hN]
      by_cases hlt : j < p.nbits
      · exact fresh_early hp hring xs j (by omega) hlt
      · rw [window_eq s xs _ j (by omega) (by omega)]
        exact hno j (by omega) j2)
  refine ⟨(runB g s (xs.take k)).1, ?_, b, c, by rw [d, he], e⟩
  rw [rxUbits_eq g s _ hi]
  congr 1
  apply Prod.ext
  · rfl
  · rw [a, hN, window_eq s xs _ k hk2 hk1]

/-- the same, whatever errors were counted, with what is in the history afterwards -/
theorem first_match_hist (g : Nat → Nat → Byte) (s : St) (p : Pat) (hi : Inv s) (hf : s.fsm ≠ .aligned) (hpr : prim s = p) (hp : p ∈ syncPatterns)
    (hring : ring s = List.replicate HIST 1) (xs : List Byte) (k : Nat) (hk1 : p.nbits ≤ k) (hk2 : k ≤ xs.length)
    (hm : Matches p (window xs p.nbits k))
    (hno : ∀ j, p.nbits ≤ j → j < k → ¬ Matches p (window xs p.nbits j)) :
    ∃ s', rxUbits g s (xs.take k) = .ok (s', [some (window xs p.nbits k)]) ∧
      s'.fsm = .aligned ∧ s'.idx = 0 ∧ s'.errs = s.errs ∧ s'.pats = s.pats ∧
      s'.hist = window xs p.nbits k ++ (List.range (HIST - N s)).map (fun i => g s.nAlign (N s + i)) := by
  have hN : N s = p.nbits := by rw [← hpr]; rfl
  have hpos : 0 < p.nbits := by rw [← hN]; exact N_pos hi
  obtain ⟨a, b, c, d, e, h, _⟩ := acquisition g s hi hf xs k (by omega) hk2
    (by rw [hpr, hN, window_eq s xs _ k hk2 hk1]; exact hm)
    (by
      intro j j1 j2
      rw [hpr, hN]
      by_cases hlt : j < p.nbits
      · exact fresh_early hp hring xs j (by omega) hlt
      · rw [window_eq s xs _ j (by omega) (by omega)]
        exact hno j (by omega) j2)
  have hw : lastN (N s) (ring s ++ xs.take k) = window xs p.nbits k := by rw [hN, window_eq s xs _ k hk2 hk1]
  rw [hw] at a h
  refine ⟨(runB g s (xs.take k)).1, ?_, b, c, d, e, h⟩
  rw [rxUbits_eq g s _ hi]
  congr 1
  exact Prod.ext rfl a

/-- nothing is delivered and the history is full of ones, if a fresh history gets nothing but ones -/
theorem ones_of (g : Nat → Nat → Byte) (s : St) (p : Pat) (hi : Inv s) (hf : s.fsm ≠ .aligned) (hpr : prim s = p) (hp : p ∈ syncPatterns)
    (hring : ring s = List.replicate HIST 1) (k : Nat) :
    ∃ s', rxUbits g s (List.replicate k 1) = .ok (s', []) ∧ Inv s' ∧ s'.fsm ≠ .aligned ∧ s'.pats = s.pats ∧ ring s' = List.replicate HIST 1 := by
  have hok := table_ok p hp
  have hno : ∀ j, p.nbits ≤ j → j ≤ (List.replicate k (1 : Byte)).length → ¬ Matches p (window (List.replicate k 1) p.nbits j) := by
    intro j j1 j2 hm
    have hpos := hok.pos
    have h0 := hm 0 (by omega) (by rw [hok.first]; decide)
    unfold Pat.nbits at j1 h0
    rw [List.length_replicate] at j2
    rw [hok.zero] at h0
    unfold window at h0
    rw [List.getElem?_drop, List.getElem?_take, if_pos (by omega), List.getElem?_replicate, if_pos (by omega)] at h0
    revert h0; decide
  have hN : N s = p.nbits := by rw [← hpr]; rfl
  obtain ⟨a, b, -, d, -⟩ := search g (List.replicate k 1) s hi hf (by
    intro j hj0 hj
    rw [hpr, hN]
    by_cases hlt : j < p.nbits
    · exact fresh_early hp hring _ j hj hlt
    · rw [window_eq s _ _ j hj (by omega)]
      exact hno j (by omega) hj)
  refine ⟨(runB g s (List.replicate k 1)).1, ?_, runB_inv g _ s hi, by rw [b]; exact hf, runB_pats g _ s, ?_⟩
  · rw [rxUbits_eq g s _ hi]
    exact congrArg _ (Prod.ext rfl a)
  · rw [← d, hring]
    unfold lastN
    clear d hno a b
    generalize HIST = H
    rw [List.replicate_append_replicate, List.drop_replicate, List.length_replicate, show H + k - (H + k - H) = H by omega]

/-- and if no window matches the primary pattern, nothing is delivered -/
theorem nothing_of (g : Nat → Nat → Byte) (s : St) (p : Pat) (hi : Inv s) (hf : s.fsm ≠ .aligned) (hpr : prim s = p) (hp : p ∈ syncPatterns)
    (hring : ring s = List.replicate HIST 1) (xs : List Byte)
    (hno : ∀ k, p.nbits ≤ k → k ≤ xs.length → ¬ Matches p (window xs p.nbits k)) : ∃ s', rxUbits g s xs = .ok (s', []) := by
  have hN : N s = p.nbits := by rw [← hpr]; rfl
  refine ⟨(runB g s xs).1, ?_⟩
  have : (runB g s xs).2 = [] := by
    refine (search g xs s hi hf ?_).1
    intro k hk0 hk
    rw [hpr, hN]
    by_cases hlt : k < p.nbits
    · exact fresh_early hp hring xs k hk hlt
    · rw [window_eq s xs _ k hk (by omega)]
      exact hno k (by omega) hk
  rw [rxUbits_eq g s xs hi, ← this]

/-- hypotheses of C18: a V.110 frame after three other bits -/
example : ∃ p xs, syncPatterns[5]? = some p ∧ Matches p (window xs p.nbits 83) ∧
    ∀ j, p.nbits ≤ j → j < 83 → ¬ Matches p (window xs p.nbits j) := by
  refine ⟨_, ([1, 0, 1] : List Byte) ++ (syncPatterns[5]'(by decide)).bits, rfl, by decide +kernel, ?_⟩
  intro j j1 j2
  have : ∀ j : Fin 83, (syncPatterns[5]'(by decide)).nbits ≤ j.1 → ¬ Matches (syncPatterns[5]'(by decide))
    (window (([1, 0, 1] : List Byte) ++ (syncPatterns[5]'(by decide)).bits) (syncPatterns[5]'(by decide)).nbits j.1) := by
    decide +kernel
  exact this ⟨j, j2⟩ j1

/-- **C16** The first call-back a fresh instance makes delivers a frame that has the length of the
pattern, consists of the bits received last at that time and matches the pattern. -/
theorem C16_first_frame (g : Nat → Nat → Byte) (i : Nat) (s s' : St) (p : Pat) (ha : alloc i = some s)
    (hp : syncPatterns[i]? = some p) (xs : List Byte) (e : Ev) (es : List Ev)
    (hr : rxUbits g s xs = .ok (s', e :: es)) :
    ∃ k, p.nbits ≤ k ∧ k ≤ xs.length ∧ e = some (window xs p.nbits k) ∧
      (window xs p.nbits k).length = p.nbits ∧ Matches p (window xs p.nbits k) := by
  rw [rxUbits_eq g s xs (alloc_inv ha)] at hr
  have hr := Except.ok.inj hr
  have h2 : (runB g s xs).2 = e :: es := by rw [hr]
  rcases first_match (fun k => p.nbits ≤ k ∧ Matches p (window xs p.nbits k)) xs.length with h | ⟨k, k1, k2, k3, k4⟩
  · have := fresh_none g ha hp xs (by
      intro k k1 k2 hm
      have hpos := (table_ok p (List.mem_of_getElem? hp)).pos
      exact h k (by unfold Pat.nbits at k1; omega) k2 ⟨k1, hm⟩)
    rw [h2] at this
    cases this
  · have hpos := (table_ok p (List.mem_of_getElem? hp)).pos
    refine ⟨k, k3.1, k2, ?_, ?_, k3.2⟩
    · obtain ⟨s1, h3, _⟩ := C18_first_match g i s p ha hp xs k k3.1 k2 k3.2 (by
        intro j j1 j2 hm
        exact k4 j (by unfold Pat.nbits at j1; omega) j2 ⟨j1, hm⟩)
      rw [rxUbits_eq g s _ (alloc_inv ha)] at h3
      have h3 := Except.ok.inj h3
      rw [← List.take_append_drop k xs, runB_append, h3] at h2
      simp only [List.cons_append, List.nil_append, List.cons.injEq] at h2
      exact h2.1.symm
    · unfold window
      rw [List.length_drop, List.length_take]; omega

/-- **C16** The same in any reachable state without alignment (after a loss, after setting a pattern), as
long as the call-back does not come before a frame length of bits has been received in this state. -/
theorem C16_reacquired (g : Nat → Nat → Byte) (s s' : St) (h : Reach g s) (hf : s.fsm ≠ .aligned) (p : Pat)
    (hp : s.pats[0]? = some (some p)) (xs : List Byte) (e : Ev) (es : List Ev)
    (hr : rxUbits g s xs = .ok (s', e :: es)) :
    ∃ k f, 0 < k ∧ k ≤ xs.length ∧ e = some f ∧ f.length = p.nbits ∧ Matches p f ∧
      (∃ s1, rxUbits g s (xs.take k) = .ok (s1, [some f])) ∧
      (p.nbits ≤ k → f = window xs p.nbits k) := by
  have hi := h.inv
  have hpr : prim s = p := by
    obtain ⟨p', ps, hps⟩ := hi.prim
    rw [hps] at hp; simp at hp; simp [prim, hps, hp]
  have hN : N s = p.nbits := by unfold N Pat.nbits; rw [hpr]
  rw [rxUbits_eq g s xs hi] at hr
  have hr := Except.ok.inj hr
  have h2 : (runB g s xs).2 = e :: es := by rw [hr]
  rcases first_match (fun k => Matches (prim s) (lastN (N s) (ring s ++ xs.take k))) xs.length with
    h | ⟨k, k1, k2, k3, k4⟩
  · have := (search g xs s hi hf h).1
    rw [h2] at this
    cases this
  · obtain ⟨a, b, c, d, e', _⟩ := acquisition g s hi hf xs k k1 k2 k3 k4
    have hrl := ring_length hi.len (Nat.le_of_lt hi.idx)
    have hNl := N_le hi
    refine ⟨k, lastN (N s) (ring s ++ xs.take k), k1, k2, ?_, ?_, by rw [← hpr]; exact k3, ?_, ?_⟩
    · rw [← List.take_append_drop k xs, runB_append, a] at h2
      simp only [List.cons_append, List.nil_append, List.cons.injEq] at h2
      exact h2.1.symm
    · unfold lastN
      rw [List.length_drop, List.length_append, hrl, hN] at *
      unfold HIST; omega
    · refine ⟨(runB g s (xs.take k)).1, ?_⟩
      rw [rxUbits_eq g s _ hi, ← a]
    · intro hle
      rw [hN, window_eq s xs _ k k2 hle]

/-! ### Keeping and losing alignment: C19, C21 -/

/-- the block fails all configured patterns -/
def Fails (s : St) (b : List Byte) : Prop := ∀ p, some p ∈ s.pats → ¬ Matches p b

instance (s : St) (b : List Byte) : Decidable (Fails s b) :=
  decidable_of_iff (∀ p ∈ s.pats.filterMap id, ¬ Matches p b) (by
    simp only [filterMap_id_mem]; rfl)

/-- Alignment was just acquired, no errored frame seen yet. -/
structure JustAligned (s : St) : Prop where
  fsm : s.fsm = .aligned
  idx : s.idx = 0
  errs : s.errs = 0

/-- C18 leads to such states -/
example (g : Nat → Nat → Byte) (i : Nat) (s : St) (p : Pat) (ha : alloc i = some s)
    (hp : syncPatterns[i]? = some p) (xs : List Byte) (k : Nat) (hk1 : p.nbits ≤ k) (hk2 : k ≤ xs.length)
    (hm : Matches p (window xs p.nbits k))
    (hno : ∀ j, p.nbits ≤ j → j < k → ¬ Matches p (window xs p.nbits j)) :
    ∃ s' es, rxUbits g s (xs.take k) = .ok (s', es) ∧ JustAligned s' ∧ Reach g s' := by
  obtain ⟨s', h1, h2, h3, h4, _⟩ := C18_first_match g i s p ha hp xs k hk1 hk2 hm hno
  exact ⟨s', _, h1, ⟨h2, h3, h4⟩, .step (o := .rx (xs.take k)) (.alloc ha) trivial h1⟩

private theorem put_zero_take (h blk : List Byte) : (put h 0 blk).take blk.length = blk := by
  simp [put]

/-- one complete block -/
private theorem one_block (g : Nat → Nat → Byte) (s : St) (h : Inv s) (hf : s.fsm = .aligned) (h0 : s.idx = 0)
    (blk : List Byte) (hl : blk.length = N s) :
    (¬ Fails s blk → ∃ s', runB g s blk = (s', [some blk]) ∧ s'.fsm = .aligned ∧ s'.idx = 0 ∧
        s'.errs = 0 ∧ s'.pats = s.pats) ∧
    (Fails s blk → (s.errs + 1) % 2 ^ 32 < 3 → ∃ s', runB g s blk = (s', [some blk]) ∧ s'.fsm = .aligned ∧
        s'.idx = 0 ∧ s'.errs = (s.errs + 1) % 2 ^ 32 ∧ s'.pats = s.pats) ∧
    (Fails s blk → 3 ≤ (s.errs + 1) % 2 ^ 32 → ∃ s', runB g s blk = (s', [none]) ∧ s'.fsm = .lost ∧
        s'.errs = (s.errs + 1) % 2 ^ 32 ∧ s'.pats = s.pats) := by
  have hNp := N_pos h
  have hNl := N_le h
  have hlen := h.len
  have hH : HIST = 1281 := rfl
  have hne : blk ≠ [] := by intro hh; rw [hh] at hl; simp at hl; omega
  have hrb := runB_block g blk s hf hne (by rw [h0]; omega) (by omega)
  unfold blockEnd at hrb
  have ht : (put s.hist s.idx blk).take (N s) = blk := by rw [h0, ← hl, put_zero_take]
  change runB g s blk = if ∃ p ∈ s.pats.filterMap id, Matches p ((put s.hist s.idx blk).take (N s)) then
    ({ s with hist := put s.hist s.idx blk, idx := 0, errs := 0 },
      [some ((put s.hist s.idx blk).take (N s))])
    else if (s.errs + 1) % 2 ^ 32 ≥ 3 then
      ({ s with hist := put s.hist s.idx blk, idx := 0, errs := (s.errs + 1) % 2 ^ 32,
                fsm := .lost, timer := true }, [none])
    else ({ s with hist := put s.hist s.idx blk, idx := 0, errs := (s.errs + 1) % 2 ^ 32 },
      [some ((put s.hist s.idx blk).take (N s))]) at hrb
  rw [ht] at hrb
  have hiff : (∃ p ∈ s.pats.filterMap id, Matches p blk) ↔ ¬ Fails s blk := by
    unfold Fails
    constructor
    · rintro ⟨p, p1, p2⟩ hh; exact hh p ((filterMap_id_mem _ _).1 p1) p2
    · intro hh
      apply Classical.byContradiction
      intro hc
      exact hh (fun p hp hm => hc ⟨p, (filterMap_id_mem _ _).2 hp, hm⟩)
  refine ⟨?_, ?_, ?_⟩
  · intro hh
    rw [if_pos (hiff.2 hh)] at hrb
    exact ⟨_, hrb, hf, rfl, rfl, rfl⟩
  · intro hh he
    rw [if_neg (fun hc => hiff.1 hc hh), if_neg (by omega)] at hrb
    exact ⟨_, hrb, hf, rfl, rfl, rfl⟩
  · intro hh he
    rw [if_neg (fun hc => hiff.1 hc hh), if_pos he] at hrb
    exact ⟨_, hrb, rfl, rfl, rfl⟩

private theorem keeps (g : Nat → Nat → Byte) : ∀ (bs : List (List Byte)) (s : St) (past : List (List Byte)),
    Inv s → s.fsm = .aligned → s.idx = 0 → (∀ b ∈ bs, b.length = N s) →
    s.errs = past.length → (∀ b ∈ past, Fails s b) → NoTriple (Fails s) (past ++ bs) →
    ∃ s' past', runB g s bs.flatten = (s', bs.map some) ∧ Inv s' ∧ s'.fsm = .aligned ∧ s'.idx = 0 ∧
      s'.pats = s.pats ∧ s'.errs = past'.length ∧ (∀ b ∈ past', Fails s b) ∧
      past' <:+ past ++ bs := by
  intro bs
  induction bs with
  | nil =>
    intro s past hi hf h0 _ he hp _
    exact ⟨s, past, rfl, hi, hf, h0, rfl, he, hp, by simp⟩
  | cons b bs ih =>
    intro s past hi hf h0 hl he hp hnt
    obtain ⟨p1, p2, p3⟩ := one_block g s hi hf h0 b (hl b (by simp))
    have hinv := runB_inv g b s hi
    by_cases hb : Fails s b
    · have hlen : past.length < 2 := by
        apply Classical.byContradiction
        intro hc
        match past, hp, hnt, hc with
        | [], _, _, hc => simp at hc
        | [_], _, _, hc => simp at hc
        | x :: y :: l, hp, hnt, hc =>
          -- the last two of `past` and `b`
          have hne : x :: y :: l ≠ [] := by simp
          obtain ⟨q, z, hqz⟩ : ∃ q z, x :: y :: l = q ++ [z] := ⟨_, _, (List.dropLast_concat_getLast hne).symm⟩
          have hql : q ≠ [] := by
            intro hh; rw [hh] at hqz
            have := congrArg List.length hqz
            simp at this
          obtain ⟨q', w, hqw⟩ : ∃ q' w, q = q' ++ [w] := ⟨_, _, (List.dropLast_concat_getLast hql).symm⟩
          refine hnt q' w z b bs (by rw [hqz, hqw]; simp) ⟨?_, ?_, hb⟩
          · exact hp w (by rw [hqz, hqw]; simp)
          · exact hp z (by rw [hqz]; simp)
      obtain ⟨s1, r1, r2, r3, r4, r5⟩ := p2 hb (by rw [he, Nat.mod_eq_of_lt] <;> omega)
      rw [r1] at hinv
      have hN1 : N s1 = N s := by unfold N prim; rw [r5]
      have hF : Fails s1 = Fails s := by funext x; unfold Fails; rw [r5]
      obtain ⟨s2, past', t1, t2, t3, t4, t5, t6, t7, t8⟩ := ih s1 (past ++ [b]) hinv r2 r3
        (by rw [hN1]; exact fun x hx => hl x (by simp [hx]))
        (by rw [r4, he, Nat.mod_eq_of_lt (by omega)]; simp)
        (by
          rw [hF]
          intro x hx
          rcases List.mem_append.1 hx with hx | hx
          · exact hp x hx
          · rw [List.mem_singleton.1 hx]; exact hb)
        (by rw [hF]; simpa using hnt)
      refine ⟨s2, past', ?_, t2, t3, t4, by rw [t5, r5], t6, by rw [← hF]; exact t7, by simpa using t8⟩
      rw [List.flatten_cons, runB_append, r1, t1]
      simp
    · obtain ⟨s1, r1, r2, r3, r4, r5⟩ := p1 hb
      rw [r1] at hinv
      have hN1 : N s1 = N s := by unfold N prim; rw [r5]
      have hF : Fails s1 = Fails s := by funext x; unfold Fails; rw [r5]
      obtain ⟨s2, past', t1, t2, t3, t4, t5, t6, t7, t8⟩ := ih s1 [] hinv r2 r3
        (by rw [hN1]; exact fun x hx => hl x (by simp [hx]))
        (by simp [r4]) (by simp)
        (by
          rw [hF]
          intro pre a b' c post hh
          refine hnt (past ++ b :: pre) a b' c post ?_
          simp only [List.nil_append] at hh
          rw [hh]; simp)
      refine ⟨s2, past', ?_, t2, t3, t4, by rw [t5, r5], t6, by rw [← hF]; exact t7, ?_⟩
      · rw [List.flatten_cons, runB_append, r1, t1]
        simp
      · exact t8.trans ⟨past ++ [b], by simp⟩

private theorem NF {s : St} {p : Pat} (h : Inv s) (hp : s.pats[0]? = some (some p)) : N s = p.nbits := by
  obtain ⟨p', ps, hps⟩ := h.prim
  rw [hps] at hp; simp at hp; simp [N, prim, hps, hp, Pat.nbits]

/-- **C19** As long as no three consecutive blocks fail all patterns, all of them are delivered and
alignment is kept. -/
theorem C19_keeps_alignment (g : Nat → Nat → Byte) (s : St) (h : Reach g s) (hj : JustAligned s) (p : Pat)
    (hp : s.pats[0]? = some (some p)) (bs : List (List Byte)) (hl : ∀ b ∈ bs, b.length = p.nbits)
    (hn : NoTriple (Fails s) bs) :
    ∃ s', rxUbits g s bs.flatten = .ok (s', bs.map some) ∧ s'.fsm = .aligned := by
  obtain ⟨s', _, h1, _, h2, _⟩ := keeps g bs s [] h.inv hj.fsm hj.idx (by rw [NF h.inv hp]; exact hl)
    (by rw [hj.errs]; rfl) (by simp) (by simpa using hn)
  exact ⟨s', by rw [rxUbits_eq g s _ h.inv, h1], h2⟩

/-- **C19** Alignment loss is declared exactly on the third of the first three consecutive blocks that
fail all patterns; this block is not delivered. -/
theorem C19_loss (g : Nat → Nat → Byte) (s : St) (h : Reach g s) (hj : JustAligned s) (p : Pat)
    (hp : s.pats[0]? = some (some p)) (pre : List (List Byte)) (b1 b2 b3 : List Byte)
    (hl : ∀ b ∈ pre ++ [b1, b2, b3], b.length = p.nbits)
    (hn : NoTriple (Fails s) (pre ++ [b1, b2])) (h1 : Fails s b1) (h2 : Fails s b2) (h3 : Fails s b3) :
    ∃ s', rxUbits g s (pre ++ [b1, b2, b3]).flatten = .ok (s', (pre ++ [b1, b2]).map some ++ [none]) ∧
      s'.fsm = .lost := by
  have hN := NF h.inv hp
  -- before b1: number of errors is the number of trailing failing blocks
  obtain ⟨s1, past, a1, a2, a3, a4, a5, a6, a7, a8⟩ := keeps g pre s [] h.inv hj.fsm hj.idx
    (by rw [hN]; exact fun b hb => hl b (by simp [hb])) (by rw [hj.errs]; rfl) (by simp)
    (by
      intro p' a b c post hh
      refine hn p' a b c (post ++ [b1, b2]) ?_
      simp only [List.nil_append] at hh
      rw [hh]; simp)
  simp only [List.nil_append] at a8
  -- there are none
  have hpast : past = [] := by
    apply Classical.byContradiction
    intro hc
    obtain ⟨q, z, hqz⟩ : ∃ q z, past = q ++ [z] := ⟨_, _, (List.dropLast_concat_getLast hc).symm⟩
    obtain ⟨r, hr⟩ := a8
    refine hn (r ++ q) z b1 b2 [] (by rw [← hr, hqz]; simp) ⟨a7 z (by rw [hqz]; simp), h1, h2⟩
  subst hpast
  have hN1 : N s1 = N s := by unfold N prim; rw [a5]
  have hF1 : Fails s1 = Fails s := by funext x; unfold Fails; rw [a5]
  simp only [List.length_nil] at a6
  obtain ⟨s2, c1, c2, c3, c4, c5⟩ := (one_block g s1 a2 a3 a4 b1 (by rw [hN1, hN]; exact hl b1 (by simp))).2.1
    (by rw [hF1]; exact h1) (by rw [a6]; decide)
  have i2 : Inv s2 := by have := runB_inv g b1 s1 a2; rwa [c1] at this
  have hN2 : N s2 = N s := by unfold N prim; rw [c5, a5]
  have hF2 : Fails s2 = Fails s := by funext x; unfold Fails; rw [c5, a5]
  have e2 : s2.errs = 1 := by rw [c4, a6]
  obtain ⟨s3, d1, d2, d3, d4, d5⟩ := (one_block g s2 i2 c2 c3 b2 (by rw [hN2, hN]; exact hl b2 (by simp))).2.1
    (by rw [hF2]; exact h2) (by rw [e2]; decide)
  have i3 : Inv s3 := by have := runB_inv g b2 s2 i2; rwa [d1] at this
  have hN3 : N s3 = N s := by unfold N prim; rw [d5, c5, a5]
  have hF3 : Fails s3 = Fails s := by funext x; unfold Fails; rw [d5, c5, a5]
  have e3 : s3.errs = 2 := by rw [d4, e2]
  obtain ⟨s4, f1, f2, f3, f4⟩ := (one_block g s3 i3 d2 d3 b3 (by rw [hN3, hN]; exact hl b3 (by simp))).2.2
    (by rw [hF3]; exact h3) (by rw [e3]; decide)
  refine ⟨s4, ?_, f2⟩
  rw [rxUbits_eq g s _ h.inv]
  have : (pre ++ [b1, b2, b3]).flatten = pre.flatten ++ (b1 ++ (b2 ++ b3)) := by simp
  rw [this, runB_append, a1]
  simp only [runB_append, c1, d1, f1]
  simp

/-- blocks meeting the hypotheses: V.110 blocks of ones -/
example : ∃ s, alloc 5 = some s ∧ Fails s (List.replicate 80 1) := ⟨_, rfl, by decide +kernel⟩

/-- **C21 (violated)** The error counter is not reset: alignment is lost with the third errored block, then
re-acquired, and now a single errored block makes the instance declare loss again – in every such history. -/
theorem C21_tolerance_violated (g : Nat → Nat → Byte) (s : St) (h : Reach g s) (hj : JustAligned s) (p : Pat)
    (hp : s.pats[0]? = some (some p)) (b1 b2 b3 : List Byte) (hl : ∀ b ∈ [b1, b2, b3], b.length = p.nbits)
    (hb : Fails s b1 ∧ Fails s b2 ∧ Fails s b3)
    -- alignment is re-acquired at the end of `ys`
    (s1 s2 : St) (f : List Byte) (ys : List Byte)
    (hs1 : ∃ es, rxUbits g s [b1, b2, b3].flatten = .ok (s1, es))
    (hs2 : rxUbits g s1 ys = .ok (s2, [some f])) (h0 : s2.fsm = .aligned) (hi : s2.idx = 0)
    (b : List Byte) (hlb : b.length = p.nbits) (hfb : Fails s b) :
    ∃ s3, rxUbits g s2 b = .ok (s3, [none]) := by
  have hN := NF h.inv hp
  obtain ⟨es, hs1⟩ := hs1
  have hinv := h.inv
  obtain ⟨t1, c1, c2, c3, c4, c5⟩ := (one_block g s hinv hj.fsm hj.idx b1 (by rw [hN]; exact hl b1 (by simp))).2.1
    hb.1 (by rw [hj.errs]; decide)
  have i1 : Inv t1 := by have := runB_inv g b1 s hinv; rwa [c1] at this
  have e1 : t1.errs = 1 := by rw [c4, hj.errs]
  have hN1 : N t1 = N s := by unfold N prim; rw [c5]
  have hF1 : Fails t1 = Fails s := by funext x; unfold Fails; rw [c5]
  obtain ⟨t2, d1, d2, d3, d4, d5⟩ := (one_block g t1 i1 c2 c3 b2 (by rw [hN1, hN]; exact hl b2 (by simp))).2.1
    (by rw [hF1]; exact hb.2.1) (by rw [e1]; decide)
  have i2 : Inv t2 := by have := runB_inv g b2 t1 i1; rwa [d1] at this
  have e2 : t2.errs = 2 := by rw [d4, e1]
  have hN2 : N t2 = N s := by unfold N prim; rw [d5, c5]
  have hF2 : Fails t2 = Fails s := by funext x; unfold Fails; rw [d5, c5]
  obtain ⟨t3, k1, k2, k3, k4⟩ := (one_block g t2 i2 d2 d3 b3 (by rw [hN2, hN]; exact hl b3 (by simp))).2.2
    (by rw [hF2]; exact hb.2.2) (by rw [e2]; decide)
  have i3 : Inv t3 := by have := runB_inv g b3 t2 i2; rwa [k1] at this
  have e3 : t3.errs = 3 := by rw [k3, e2]
  rw [rxUbits_eq g s _ hinv] at hs1
  have hs1 := Except.ok.inj hs1
  have hcat : [b1, b2, b3].flatten = b1 ++ (b2 ++ b3) := by simp
  rw [hcat, runB_append, c1] at hs1
  simp only [runB_append, d1, k1] at hs1
  have hst3 : t3 = s1 := congrArg Prod.fst hs1
  subst hst3
  -- re-acquisition does not touch the counter
  rw [rxUbits_eq g t3 ys i3] at hs2
  have hs2 := Except.ok.inj hs2
  have he2 : s2.errs = 3 ∧ s2.pats = s.pats ∧ Inv s2 := by
    have hinv2 := runB_inv g ys t3 i3
    have hpats := runB_pats g ys t3
    rw [hs2] at hinv2 hpats
    refine ⟨?_, by rw [hpats, k4, d5, c5], hinv2⟩
    rcases first_match (fun k => Matches (prim t3) (lastN (N t3) (ring t3 ++ ys.take k))) ys.length with
      hh | ⟨k, q1, q2, q3, q4⟩
    · have := (search g ys t3 i3 (by rw [k2]; simp) hh).1
      rw [hs2] at this; cases this
    · obtain ⟨a1, a2, a3, a4, a5, _⟩ := acquisition g t3 i3 (by rw [k2]; simp) ys k q1 q2 q3 q4
      -- nothing is left of `ys`, otherwise `idx` would not be 0 again with a single event
      rw [← List.take_append_drop k ys, runB_append] at hs2
      have iA := runB_inv g (ys.take k) t3 i3
      generalize hA : runB g t3 (ys.take k) = A at *
      obtain ⟨sA, eA⟩ := A
      simp only at a1 a2 a3 a4 a5 hs2 iA
      by_cases hrest : (ys.drop k).length < N sA
      · have hpart := runB_partial g (ys.drop k) sA a2 (by rw [a3]; omega) (by
          rw [iA.len]; have := N_le iA; unfold HIST; omega)
        rw [hpart] at hs2
        have : sA.errs = s2.errs := congrArg (fun r => r.1.errs) hs2
        rw [← this, a4, e3]
      · exfalso
        rw [← List.take_append_drop (N sA) (ys.drop k), runB_append] at hs2
        have hblk : ((ys.drop k).take (N sA)).length = N sA := by rw [List.length_take]; omega
        have hev : (runB g sA ((ys.drop k).take (N sA))).2 ≠ [] := by
          obtain ⟨o1, o2, o3⟩ := one_block g sA iA a2 a3 _ hblk
          by_cases hfl : Fails sA ((ys.drop k).take (N sA))
          · by_cases hc : (sA.errs + 1) % 2 ^ 32 < 3
            · obtain ⟨z, z1, _⟩ := o2 hfl hc; rw [z1]; simp
            · obtain ⟨z, z1, _⟩ := o3 hfl (by omega); rw [z1]; simp
          · obtain ⟨z, z1, _⟩ := o1 hfl; rw [z1]; simp
        have hsnd := congrArg Prod.snd hs2
        simp only [a1] at hsnd
        simp only [List.cons_append, List.nil_append, List.cons.injEq, List.append_eq_nil_iff] at hsnd
        exact hev hsnd.2.1
  obtain ⟨he2, hp2, hinv2⟩ := he2
  have hN2' : N s2 = N s := by unfold N prim; rw [hp2]
  have hF2' : Fails s2 = Fails s := by funext x; unfold Fails; rw [hp2]
  obtain ⟨t4, m1, _⟩ := (one_block g s2 hinv2 h0 hi b (by rw [hN2', hN]; exact hlb)).2.2
    (by rw [hF2']; exact hfb) (by rw [he2]; decide)
  exact ⟨t4, by rw [rxUbits_eq g s2 b hinv2, m1]⟩

/-- a V.110 frame, data bits 0 -/
def v110 : List Byte := List.replicate 8 0 ++ (List.replicate 9 [1, 0, 0, 0, 0, 0, 0, 0]).flatten

/-- uninitialised part of the history after the first alignment -/
private def tail (g : Nat → Nat → Byte) : List Byte := (List.range 1201).map fun i => g 0 (80 + i)

private def p5 : Pat := syncPatterns[5]'(by decide)

private def pats5 : List (Option Pat) := some p5 :: List.replicate 7 none

/-- state after a frame and three blocks of ones -/
private def lostSt (g : Nat → Nat → Byte) : St :=
  { hist := List.replicate 80 1 ++ tail g, idx := 0, pats := pats5, errs := 3, fsm := .lost, timer := true,
    nAlign := 1 }

/-- aligned states on the way -/
private def alSt (g : Nat → Nat → Byte) (h : List Byte) (e i : Nat) : St :=
  { hist := h ++ tail g, idx := i, pats := pats5, errs := e, fsm := .aligned, timer := false, nAlign := 1 }

private theorem lost_state (g : Nat → Nat → Byte) (s : St) (ha : alloc 5 = some s) :
    Inv s ∧ Inv (lostSt g) ∧ runB g s (v110 ++ List.replicate 240 1) =
      (lostSt g, [some v110, some (List.replicate 80 1), some (List.replicate 80 1), none]) := by
  have hp : syncPatterns[5]? = some p5 := by decide +kernel
  obtain ⟨hi, hf, hpr, hN, hring, he⟩ := alloc_facts ha hp
  have hna : s.nAlign = 0 := by obtain ⟨_, _, rfl⟩ := alloc_eq ha; rfl
  have hps : s.pats = pats5 := by
    obtain ⟨q, hq, rfl⟩ := alloc_eq ha
    rw [hp] at hq; cases hq; rfl
  have hnb : p5.nbits = 80 := by decide +kernel
  have hvl : v110.length = 80 := by decide +kernel
  have hacq := acquisition g s hi hf v110 80 (by decide) (by omega)
    (by
      rw [hpr, hN, hnb, window_eq s v110 80 80 (by omega) (by omega)]
      decide +kernel)
    (by
      intro j j1 j2
      rw [hpr, hN]
      exact fresh_early (List.mem_of_getElem? hp) hring v110 j (by omega) (by omega))
  rw [hN, hnb, window_eq s v110 80 80 (by omega) (by omega), List.take_of_length_le (by omega), hna] at hacq
  have hw : window v110 80 80 = v110 := by decide +kernel
  rw [hw] at hacq
  obtain ⟨a1, a2, a3, a4, a5, a6, a7, a8⟩ := hacq
  have i1 := runB_inv g v110 s hi
  have hcat : v110 ++ List.replicate 240 (1 : Byte) = v110 ++ (List.replicate 80 1 ++ (List.replicate 80 1 ++
      List.replicate 80 1)) := by simp [List.replicate_append_replicate]
  rw [hcat, runB_append]
  generalize hr : runB g s v110 = r at *
  obtain ⟨s1, e1⟩ := r
  simp only at a1 a2 a3 a4 a5 a6 a7 a8 i1
  have hs1 : s1 = { hist := v110 ++ tail g, idx := 0, pats := pats5, errs := 0, fsm := .aligned,
                    timer := false, nAlign := 1 } := by
    cases s1
    simp only at a2 a3 a4 a5 a6 a7 a8
    simp only [St.mk.injEq]
    exact ⟨a6, a3, by rw [a5, hps], by rw [a4, he], a2, a8, by omega⟩
  subst hs1
  subst a1
  have htl : (tail g).length = 1201 := by simp [tail]
  have hblk : ∀ (h : List Byte) (e : Nat) , h.length = 80 → ∃ b,
      put (h ++ tail g) 0 (List.replicate 80 1) = b ∧ b = List.replicate 80 1 ++ tail g := by
    intro h e hl
    refine ⟨_, rfl, ?_⟩
    unfold put
    simp [hl]
  have hfail : ¬ ∃ p ∈ pats5.filterMap id, Matches p (List.replicate 80 1) := by decide +kernel
  have hone : ∀ (h : List Byte) (e : Nat), h.length = 80 →
      runB g (alSt g h e 0) (List.replicate 80 1) = blockEnd (alSt g (List.replicate 80 1) e 80) := by
    intro h e hl
    have := runB_block g (List.replicate 80 1) (alSt g h e 0) rfl (by simp) (by
        show 0 + _ = p5.nbits
        rw [hnb]; simp) (by
        show p5.nbits ≤ (h ++ tail g).length
        rw [hnb]; simp [hl])
    rw [this]
    obtain ⟨b, b1, b2⟩ := hblk h e hl
    simp only [alSt, b1, b2, List.length_replicate, Nat.zero_add]
  have hend : ∀ e, blockEnd (alSt g (List.replicate 80 1) e 80) =
      if (e + 1) % 2 ^ 32 ≥ 3 then
        ({ alSt g (List.replicate 80 1) ((e + 1) % 2 ^ 32) 0 with fsm := .lost, timer := true }, [none])
      else (alSt g (List.replicate 80 1) ((e + 1) % 2 ^ 32) 0, [some (List.replicate 80 1)]) := by
    intro e
    have hNb : N (alSt g (List.replicate 80 1) e 80) = 80 := hnb
    have ht : (List.replicate 80 1 ++ tail g).take 80 = List.replicate 80 1 := by simp
    unfold blockEnd
    rw [hNb]
    simp only [alSt, ht]
    rw [if_neg hfail]
  have hst1 : ({ hist := v110 ++ tail g, idx := 0, pats := pats5, errs := 0, fsm := .aligned,
                 timer := false, nAlign := 1 } : St) = alSt g v110 0 0 := rfl
  rw [hst1]
  have i3 : Inv (lostSt g) :=
    { len := by simp [lostSt, htl, HIST], idx := (by decide : 0 < HIST), pats := by simp [lostSt, pats5]
      prim := ⟨p5, _, rfl⟩, ok := i1.ok, same := i1.same, al := by simp [lostSt]
      errs := (by decide : 3 < 2 ^ 32) }
  refine ⟨hi, i3, ?_⟩
  simp only [runB_append, hone v110 0 hvl, hend 0, hone _ 1 (List.length_replicate), hend 1,
    hone _ 2 (List.length_replicate), hend 2, show ¬ (0 + 1) % 2 ^ 32 ≥ 3 by decide,
    show ¬ (1 + 1) % 2 ^ 32 ≥ 3 by decide, show (2 + 1) % 2 ^ 32 ≥ 3 by decide,
    show (0 + 1) % 2 ^ 32 = 1 by decide, show (1 + 1) % 2 ^ 32 = 2 by decide,
    show (2 + 1) % 2 ^ 32 = 3 by decide, if_true, if_false]
  rfl

/-- Such histories exist: the call-backs for acquisition, three blocks of ones, re-acquisition and a single
block of ones. -/
theorem C21_history_exists : ∃ s s', alloc 5 = some s ∧
    rxUbits (fun _ _ => 1) s (v110 ++ List.replicate 240 1 ++ v110 ++ List.replicate 80 1)
      = .ok (s', [some v110, some (List.replicate 80 1), some (List.replicate 80 1), none, some v110, none]) := by
  obtain ⟨s, ha⟩ : ∃ s, alloc 5 = some s := ⟨_, rfl⟩
  obtain ⟨hi, i3, h3⟩ := lost_state (fun _ _ => 1) s ha
  have hp : syncPatterns[5]? = some p5 := by decide +kernel
  have hnb : p5.nbits = 80 := by decide +kernel
  have hvl : v110.length = 80 := by decide +kernel
  have hring : ring (lostSt fun _ _ => 1) = List.replicate 1201 1 ++ List.replicate 80 1 := by
    show ((List.replicate 80 1 ++ tail fun _ _ => 1).drop 0 ++ (List.replicate 80 1 ++ tail fun _ _ => 1).take 0)
      = _
    have : tail (fun _ _ => 1) = List.replicate 1201 1 := by simp [tail, List.map_const']
    rw [this]
    simp [List.replicate_append_replicate]
  have hNl : N (lostSt fun _ _ => 1) = 80 := hnb
  have hpl : prim (lostSt fun _ _ => 1) = p5 := rfl
  have hacq := acquisition (fun _ _ => 1) (lostSt fun _ _ => 1) i3 (by simp [lostSt]) v110 80 (by decide)
    (by omega)
    (by
      rw [hNl, hpl, window_eq _ v110 80 80 (by omega) (by omega)]
      decide +kernel)
    (by
      intro j j1 j2
      rw [hNl, hpl, hring, List.append_assoc, lastN_append_le _ _ (by simp)]
      have hone : ∀ j : Fin 80, (lastN 80 (List.replicate 80 1 ++ v110.take j.1))[0]? = some 1 := by
        decide +kernel
      intro hm
      have hok := table_ok p5 (List.mem_of_getElem? hp)
      have h0 := hm 0 (by have := hok.pos; omega) (by rw [hok.first]; decide)
      rw [hok.zero, hone ⟨j, j2⟩] at h0
      revert h0; decide)
  rw [hNl, window_eq _ v110 80 80 (by omega) (by omega), List.take_of_length_le (by omega)] at hacq
  have hw : window v110 80 80 = v110 := by decide +kernel
  rw [hw] at hacq
  obtain ⟨a1, a2, a3, a4, a5, _⟩ := hacq
  have i4 := runB_inv (fun _ _ => 1) v110 _ i3
  have hN4 : N (runB (fun _ _ => 1) (lostSt fun _ _ => 1) v110).1 = 80 := by
    unfold N prim; rw [a5]; exact hNl
  obtain ⟨s', o1, _⟩ := (one_block (fun _ _ => 1) _ i4 a2 a3 (List.replicate 80 1) (by rw [hN4]; simp)).2.2
    (by
      unfold Fails
      rw [a5]
      have : ∀ p ∈ pats5.filterMap id, ¬ Matches p (List.replicate 80 1) := by decide +kernel
      exact fun p hp => this p ((filterMap_id_mem _ _).2 hp))
    (by rw [a4]; decide)
  refine ⟨s, s', ha, ?_⟩
  rw [rxUbits_eq _ s _ hi, runB_append, runB_append, h3]
  simp only [a1, o1]
  rfl

/-- **C21 (partial)** The tolerance of three consecutive errored blocks is restored by one good block:
whatever happened before, in an aligned state at a block boundary a good block followed by blocks among
which no three consecutive fail keeps alignment, everything being delivered. -/
theorem C21_tolerance_partial (g : Nat → Nat → Byte) (s : St) (h : Reach g s) (hf : s.fsm = .aligned)
    (h0 : s.idx = 0) (p : Pat) (hp : s.pats[0]? = some (some p)) (good : List Byte) (bs : List (List Byte))
    (hl : ∀ b ∈ good :: bs, b.length = p.nbits) (hg : ¬ Fails s good) (hn : NoTriple (Fails s) bs) :
    ∃ s', rxUbits g s (good :: bs).flatten = .ok (s', (good :: bs).map some) ∧ s'.fsm = .aligned := by
  have hN := NF h.inv hp
  obtain ⟨s1, r1, r2, r3, r4, r5⟩ := (one_block g s h.inv hf h0 good (by rw [hN]; exact hl good (by simp))).1 hg
  have i1 : Inv s1 := by have := runB_inv g good s h.inv; rwa [r1] at this
  have hN1 : N s1 = N s := by unfold N prim; rw [r5]
  have hF1 : Fails s1 = Fails s := by funext x; unfold Fails; rw [r5]
  obtain ⟨s2, _, t1, t2, t3, _⟩ := keeps g bs s1 [] i1 r2 r3
    (by rw [hN1, hN]; exact fun b hb => hl b (by simp [hb])) (by rw [r4]; rfl) (by simp)
    (by rw [hF1]; simpa using hn)
  refine ⟨s2, ?_, t3⟩
  rw [rxUbits_eq g s _ h.inv, List.flatten_cons, runB_append, r1, t1]
  simp

/-! ### C22 -/

/-- Uninitialised memory of the example below: the sync bits of a V.110 frame with all data bits `v`,
placed at the end. -/
def stack (v : Byte) : Nat → Nat → Byte := fun _ i =>
  if i < 1210 then 0 else if (i - 1202) % 8 = 0 then 1 else v

/-- received bits: a V.110 frame, three blocks of ones, and a one -/
def rxBits : List Byte := v110 ++ List.replicate 240 1 ++ [1]

/-- the frame delivered last -/
def ghost (v : Byte) : List Byte := (List.range 79).map (fun i => stack v 0 (1202 + i)) ++ [1]

/-- the call-backs made -/
def calls (v : Byte) : List Ev :=
  [some v110, some (List.replicate 80 1), some (List.replicate 80 1), none, some (ghost v)]

/-- **C22 (violated)** After a loss, uninitialised stack memory is part of the history: for the same
sequence of received bits the frame delivered on re-acquisition depends on it, and the frame delivered is
no part of the received bits. -/
theorem C22_uninit_violated :
    ∃ s, alloc 5 = some s ∧
      (rxUbits (stack 1) s rxBits).map (·.2) = .ok (calls 1) ∧
      (rxUbits (stack 0) s rxBits).map (·.2) = .ok (calls 0) ∧
      ghost 1 ≠ ghost 0 ∧ ¬ ghost 1 <:+: rxBits := by
  obtain ⟨s, ha⟩ : ∃ s, alloc 5 = some s := ⟨_, rfl⟩
  have key : ∀ v, win { lostSt (stack v) with hist := (lostSt (stack v)).hist.set 0 1, idx := 1 } 80 = ghost v →
      Matches p5 (ghost v) → (rxUbits (stack v) s rxBits).map (·.2) = .ok (calls v) := by
    intro v hw hm
    have hnb : p5.nbits = 80 := by decide +kernel
    have hv : (runB (stack v) (lostSt (stack v)) [1]).2 = [some (ghost v)] := by
      simp only [runB, List.append_nil]
      rw [stepB_unaligned _ _ _ (by simp [lostSt])]
      unfold acquire
      have e1 : N { lostSt (stack v) with
          hist := (lostSt (stack v)).hist.set (lostSt (stack v)).idx 1
          idx := ((lostSt (stack v)).idx + 1) % HIST } = 80 := hnb
      have e2 : prim { lostSt (stack v) with
          hist := (lostSt (stack v)).hist.set (lostSt (stack v)).idx 1
          idx := ((lostSt (stack v)).idx + 1) % HIST } = p5 := rfl
      have e3 : ({ lostSt (stack v) with
          hist := (lostSt (stack v)).hist.set (lostSt (stack v)).idx 1
          idx := ((lostSt (stack v)).idx + 1) % HIST } : St) =
        { lostSt (stack v) with hist := (lostSt (stack v)).hist.set 0 1, idx := 1 } := rfl
      rw [e1, e2, e3, hw, if_pos hm]
    obtain ⟨hi, i3, h3⟩ := lost_state (stack v) s ha
    rw [rxUbits_eq _ s _ hi]
    unfold rxBits
    rw [runB_append, h3]
    simp only [Except.map, hv]
    rfl
  refine ⟨s, ha, key 1 ?_ ?_, key 0 ?_ ?_, ?_, ?_⟩
  · decide +kernel
  · decide +kernel
  · decide +kernel
  · decide +kernel
  · decide +kernel
  · rintro ⟨pre, post, hh⟩
    have hl := congrArg List.length hh
    have hg : (ghost 1).length = 80 := by simp [ghost]
    have hx : rxBits.length = 321 := by decide +kernel
    simp only [List.length_append, hg, hx] at hl
    have h1 : (rxBits.drop pre.length).take 80 = ghost 1 := by
      rw [← hh, List.append_assoc, List.drop_left, ← hg, List.take_left]
    have h2 : ∀ k : Fin 242, (rxBits.drop k.1).take 80 ≠ ghost 1 := by decide +kernel
    exact h2 ⟨pre.length, by omega⟩ h1

private theorem aligned_infix (g : Nat → Nat → Byte) : ∀ (n : Nat) (xs : List Byte), xs.length ≤ n →
    ∀ (s : St), Inv s → s.fsm = .aligned → s.idx = 0 → none ∉ (runB g s xs).2 →
    ∀ f, some f ∈ (runB g s xs).2 → f <:+: xs := by
  intro n
  induction n with
  | zero =>
    intro xs hx s _ _ _ _ f hf
    have : xs = [] := List.length_eq_zero_iff.1 (by omega)
    subst this
    simp [runB] at hf
  | succ n ih =>
    intro xs hx s hi hfsm h0 hnone f hf
    have hNl := N_le hi
    have hNp := N_pos hi
    have hlen := hi.len
    have hH : HIST = 1281 := rfl
    by_cases hlt : xs.length < N s
    · rw [runB_partial g xs s hfsm (by omega) (by omega)] at hf
      simp at hf
    · have hcat := List.take_append_drop (N s) xs
      have hbl : (xs.take (N s)).length = N s := by rw [List.length_take]; omega
      obtain ⟨o1, o2, o3⟩ := one_block g s hi hfsm h0 _ hbl
      have key : ∀ s1, runB g s (xs.take (N s)) = (s1, [some (xs.take (N s))]) → s1.fsm = .aligned →
          s1.idx = 0 → f <:+: xs := by
        intro s1 r1 r2 r3
        have i1 : Inv s1 := by have := runB_inv g (xs.take (N s)) s hi; rwa [r1] at this
        rw [← hcat, runB_append, r1] at hf hnone
        simp only [List.cons_append, List.nil_append, List.mem_cons, Option.some.injEq] at hf
        rcases hf with rfl | hf
        · exact ⟨[], xs.drop (N s), by simp⟩
        · have := ih (xs.drop (N s)) (by rw [List.length_drop]; omega) s1 i1 r2 r3
            (fun hh => hnone (by simp [hh])) f hf
          exact this.trans ⟨xs.take (N s), [], by simp⟩
      by_cases hfl : Fails s (xs.take (N s))
      · by_cases hc : (s.errs + 1) % 2 ^ 32 < 3
        · obtain ⟨z, z1, z2, z3, _⟩ := o2 hfl hc
          exact key z z1 z2 z3
        · obtain ⟨z, z1, _⟩ := o3 hfl (by omega)
          rw [← hcat, runB_append, z1] at hnone
          simp at hnone
      · obtain ⟨z, z1, z2, z3, _⟩ := o1 hfl
        exact key z z1 z2 z3

/-- **C22 (partial)** Up to the next loss of alignment all frames are contiguous parts of the bits
received, if in the given unaligned state the first `nbits - 1` bits do not complete a match … -/
theorem C22_received_bits_partial (g : Nat → Nat → Byte) (s s' : St) (h : Reach g s) (hf : s.fsm ≠ .aligned)
    (p : Pat) (hp : s.pats[0]? = some (some p)) (xs : List Byte) (es : List Ev)
    (hr : rxUbits g s xs = .ok (s', es)) (hnone : none ∉ es)
    (hlate : ∃ s1, rxUbits g s (xs.take (p.nbits - 1)) = .ok (s1, [])) :
    ∀ f, some f ∈ es → f <:+: xs := by
  have hi := h.inv
  have hN := NF hi hp
  have hNp := N_pos hi
  have hpr : prim s = p := by
    obtain ⟨p', ps, hps⟩ := hi.prim
    rw [hps] at hp; simp at hp; simp [prim, hps, hp]
  intro f hfm
  rw [rxUbits_eq g s xs hi] at hr
  have hr := Except.ok.inj hr
  have h2 : (runB g s xs).2 = es := by rw [hr]
  rcases first_match (fun k => Matches (prim s) (lastN (N s) (ring s ++ xs.take k))) xs.length with
    hh | ⟨k, k1, k2, k3, k4⟩
  · have := (search g xs s hi hf hh).1
    rw [h2] at this
    rw [this] at hfm; simp at hfm
  · obtain ⟨a, b, c, d, e', _⟩ := acquisition g s hi hf xs k k1 k2 k3 k4
    have hk : p.nbits ≤ k := by
      apply Classical.byContradiction
      intro hc
      obtain ⟨s1, hs1⟩ := hlate
      rw [rxUbits_eq g s _ hi] at hs1
      have hs1 := Except.ok.inj hs1
      have : xs.take (p.nbits - 1) = xs.take k ++ (xs.drop k).take (p.nbits - 1 - k) := by
        rw [← List.take_append_drop k (xs.take (p.nbits - 1)), List.take_take, Nat.min_eq_left (by omega),
          List.drop_take]
      rw [this, runB_append, a] at hs1
      have := congrArg Prod.snd hs1
      simp at this
    have hcat := List.take_append_drop k xs
    have iA := runB_inv g (xs.take k) s hi
    have hwin : lastN (N s) (ring s ++ xs.take k) = window xs p.nbits k := by
      rw [hN, window_eq s xs _ k k2 hk]
    rw [← hcat, runB_append, a] at h2
    rw [← h2] at hfm hnone
    simp only [List.cons_append, List.nil_append, List.mem_cons, Option.some.injEq] at hfm
    rcases hfm with rfl | hfm
    · rw [hwin]
      unfold window
      exact (List.drop_suffix _ _).isInfix.trans (List.take_prefix _ _).isInfix
    · have := aligned_infix g _ (xs.drop k) (Nat.le_refl _) _ iA b c (fun hh => hnone (by simp [hh])) f hfm
      exact this.trans (List.drop_suffix _ _).isInfix

/-- **C22 (partial)** … which is always the case in a fresh instance. -/
theorem C22_fresh_partial (g : Nat → Nat → Byte) (i : Nat) (s s' : St) (p : Pat) (ha : alloc i = some s)
    (hp : syncPatterns[i]? = some p) (xs : List Byte) (es : List Ev)
    (hr : rxUbits g s xs = .ok (s', es)) (hnone : none ∉ es) :
    ∀ f, some f ∈ es → f <:+: xs := by
  obtain ⟨hi, hf, hpr, hN, _, _⟩ := alloc_facts ha hp
  have hpos := N_pos hi
  refine C22_received_bits_partial g s s' (.alloc ha) hf p ?_ xs es hr hnone ?_
  · obtain ⟨p', ps, hps⟩ := hi.prim
    rw [hps]; simp [← hpr, prim, hps]
  · exact C17_full_frame_needed g i s p ha hp _ (by rw [List.length_take]; omega)

end Verif.TrauSync
