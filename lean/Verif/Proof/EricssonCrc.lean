import Verif.Proof.Ericsson
/-! Error detection: parity bits and the CRC of CS-1 blocks. -/
namespace Verif.Ericsson
open Verif Spec
open Verif.RaaPrime (bind_ok bind_err)
set_option maxRecDepth 10000

/-- the bits of `l` inverted where `e` has ones -/
def flip (l e : List Bool) : List Bool := l.zipWith (fun a b => a != b) e

theorem flip_length {l e : List Bool} (h : l.length = e.length) : (flip l e).length = e.length := by simp [flip, h]

theorem odd_cons (x : Bool) (l : List Bool) : odd (x :: l) = (x != odd l) := by
  unfold odd
  rcases Nat.mod_two_eq_zero_or_one (l.count true) with h | h <;> cases x <;> simp [h, Nat.add_mod]

theorem odd_flip : ∀ (l e : List Bool), l.length = e.length → odd (flip l e) = (odd l != !odd e)
  | [], [], _ => rfl
  | x :: l, y :: e, h => by
    have ih := odd_flip l e (by simpa using h)
    show odd ((x != y) :: flip l e) = _
    rw [odd_cons, odd_cons, odd_cons, ih]
    cases x <;> cases y <;> cases odd l <;> cases odd e <;> rfl

theorem addFront_flip_left (g : List Bool) : ∀ l e : List Bool, l.length = e.length →
    addFront g (flip l e) = flip (addFront g l) e := by
  induction g with
  | nil => intros; rfl
  | cons x g ih =>
    intro l e h
    match l, e, h with
    | [], [], _ => rfl
    | y :: l, z :: e, h =>
      show (x != (y != z)) :: addFront g (flip l e) = ((x != y) != z) :: flip (addFront g l) e
      rw [ih l e (by simpa using h)]
      cases x <;> cases y <;> cases z <;> rfl

theorem flip_comm (l e : List Bool) : flip l e = flip e l := by
  unfold flip
  rw [List.zipWith_comm]
  congr 1
  funext a b
  cases a <;> cases b <;> rfl

theorem addFront_addFront (g l : List Bool) : addFront g (addFront g l) = l := by
  induction g generalizing l with
  | nil => rfl
  | cons x g ih => cases l with
    | nil => rfl
    | cons y l => simp only [addFront, ih]; cases x <;> cases y <;> rfl

theorem longDiv_flip (n : Nat) : ∀ l e : List Bool, l.length = e.length →
    longDiv n (flip l e) = flip (longDiv n l) (longDiv n e) := by
  induction n with
  | zero => intros; simp only [longDiv]
  | succ n ih =>
    intro l e h
    match l, e, h with
    | [], [], _ => rfl
    | x :: l, y :: e, h =>
      have h' : l.length = e.length := by simpa using h
      show longDiv n (if (x != y) = true then addFront poly (flip l e) else flip l e) =
        flip (longDiv n (if x = true then addFront poly l else l)) (longDiv n (if y = true then addFront poly e else e))
      cases x <;> cases y
      · exact ih l e h'
      · show longDiv n (addFront poly (flip l e)) = flip (longDiv n l) (longDiv n (addFront poly e))
        rw [flip_comm, addFront_flip_left _ _ _ h'.symm, flip_comm, ih _ _ (by rw [addFront_length, h'])]
      · show longDiv n (addFront poly (flip l e)) = flip (longDiv n (addFront poly l)) (longDiv n e)
        rw [addFront_flip_left _ _ _ h', ih _ _ (by rw [addFront_length, h'])]
      · show longDiv n (flip l e) = flip (longDiv n (addFront poly l)) (longDiv n (addFront poly e))
        have e1 : flip (addFront poly l) (addFront poly e) = flip l e := by
          rw [← addFront_flip_left _ l _ (by rw [addFront_length, h']), flip_comm l, ← addFront_flip_left _ e l h'.symm,
            addFront_addFront, flip_comm]
        rw [← ih _ _ (by rw [addFront_length, addFront_length, h']), e1]

/-- the remainder, and the bits behind the division -/
theorem longDiv_append (d c : List Bool) (h : c.length = 16) : longDiv d.length (d ++ c) = flip (longDiv d.length (d ++ zeros 16)) c := by
  have e : d ++ c = flip (d ++ zeros 16) (zeros d.length ++ c) := by
    unfold flip
    rw [List.zipWith_append (by simp [zeros])]
    congr 1
    · apply List.ext_getElem <;> simp [zeros]
    · apply List.ext_getElem <;> simp [zeros, h, -List.reduceReplicate]
  have hz : ∀ n (l : List Bool), longDiv n (zeros n ++ l) = l := by
    intro n
    induction n with
    | zero => intro l; simp [longDiv, zeros]
    | succ n ih => intro l; exact ih l
  rw [e, longDiv_flip _ _ _ (by simp [zeros, h]), hz]

theorem longDiv_length (n : Nat) : ∀ l : List Bool, n ≤ l.length → (longDiv n l).length = l.length - n := by
  induction n with
  | zero => intro l _; simp [longDiv]
  | succ n ih =>
    intro l h
    cases l with
    | nil => simp at h
    | cons x l =>
      simp only [longDiv]
      rw [ih _ (by split <;> simp [addFront_length] at * <;> omega)]
      split <;> simp [addFront_length]

theorem flip_eq_iff : ∀ (r c : List Bool), r.length = c.length → (c = r.map not ↔ flip r c = ones r.length)
  | [], [], _ => by simp [flip, ones]
  | x :: r, y :: c, h => by
    have ih := flip_eq_iff r c (by simpa using h)
    show (y :: c = (!x) :: r.map not) ↔ ((x != y) :: flip r c = true :: ones r.length)
    rw [List.cons.injEq, List.cons.injEq, ih]
    cases x <;> cases y <;> simp

/-- a block with its CRC is valid iff its remainder is all ones -/
theorem crc_valid (d c : List Bool) (hc : c.length = 16) : c = crc d ↔ longDiv d.length (d ++ c) = ones 16 := by
  have hl : (longDiv d.length (d ++ zeros 16)).length = 16 := by
    rw [longDiv_length _ _ (by simp)]; simp [zeros]
  rw [longDiv_append d c hc]
  unfold crc
  rw [flip_eq_iff _ _ (by rw [hl, hc]), hl]

/-! #### bursts -/

theorem burst_step (r : List Bool) (h : r.length = 16) (n : Nat) : ∃ r', r'.length = 16 ∧
    longDiv (n + 1) (r ++ zeros (n + 1)) = longDiv n (r' ++ zeros n) ∧ (r' = zeros 16 → r = zeros 16) := by
  obtain ⟨f, rfl⟩ := exists_L' h
  have e : L 16 f ++ zeros (n + 1) = f 0 :: ([f 1, f 2, f 3, f 4, f 5, f 6, f 7, f 8, f 9, f 10, f 11, f 12, f 13, f 14, f 15, false] ++ zeros n) := rfl
  cases h0 : f 0 with
  | false =>
    refine ⟨[f 1, f 2, f 3, f 4, f 5, f 6, f 7, f 8, f 9, f 10, f 11, f 12, f 13, f 14, f 15, false], rfl, ?_, ?_⟩
    · rw [e, h0]; rfl
    · intro hz
      rw [show L 16 f = f 0 :: [f 1, f 2, f 3, f 4, f 5, f 6, f 7, f 8, f 9, f 10, f 11, f 12, f 13, f 14, f 15] from rfl, h0]
      have := congrArg (List.take 15) hz
      rw [show List.take 15 [f 1, f 2, f 3, f 4, f 5, f 6, f 7, f 8, f 9, f 10, f 11, f 12, f 13, f 14, f 15, false] =
        [f 1, f 2, f 3, f 4, f 5, f 6, f 7, f 8, f 9, f 10, f 11, f 12, f 13, f 14, f 15] from rfl] at this
      rw [this]; rfl
  | true =>
    refine ⟨addFront poly [f 1, f 2, f 3, f 4, f 5, f 6, f 7, f 8, f 9, f 10, f 11, f 12, f 13, f 14, f 15, false], rfl, ?_, ?_⟩
    · rw [e, h0]; rfl
    · intro hz
      have := congrArg (fun l => l.getLastD false) hz
      exact absurd this (by show ¬ (true != false) = false; decide)

theorem burst_nonzero (n : Nat) : ∀ r : List Bool, r.length = 16 → longDiv n (r ++ zeros n) = zeros 16 → r = zeros 16 := by
  induction n with
  | zero => intro r h e; simpa [longDiv, zeros] using e
  | succ n ih =>
    intro r h e
    obtain ⟨r', h', e', hz⟩ := burst_step r h n
    rw [e'] at e
    exact hz (ih r' h' e)

/-- an error burst of at most 16 bits leaves a remainder -/
theorem burst_detected (a : Nat) : ∀ (n : Nat) (r : List Bool), r.length = 16 → a ≤ n →
    longDiv n (zeros a ++ r ++ zeros (n - a)) = zeros 16 → r = zeros 16 := by
  induction a with
  | zero => intro n r h _ e; exact burst_nonzero n r h (by simpa [zeros] using e)
  | succ a ih =>
    intro n r h hn e
    obtain ⟨n, rfl⟩ : ∃ m, n = m + 1 := ⟨n - 1, by omega⟩
    refine ih n r h (by omega) ?_
    rw [show n + 1 - (a + 1) = n - a from by omega] at e
    exact e

/-! #### odd numbers of errors -/

theorem addFront_odd (g : List Bool) : ∀ l : List Bool, g.length ≤ l.length → odd (addFront g l) = (odd l != !odd g) := by
  induction g with
  | nil => intro l _; simp [addFront, odd]
  | cons x g ih =>
    intro l h
    cases l with
    | nil => simp at h
    | cons y l =>
      simp only [addFront]
      rw [odd_cons, odd_cons, odd_cons, ih l (by simpa using h)]
      cases x <;> cases y <;> cases odd l <;> cases odd g <;> rfl

theorem longDiv_odd (n : Nat) : ∀ l : List Bool, n + 16 ≤ l.length → odd (longDiv n l) = odd l := by
  induction n with
  | zero => intro l _; simp only [longDiv]
  | succ n ih =>
    intro l h
    cases l with
    | nil => simp at h
    | cons x l =>
      simp only [List.length_cons] at h
      simp only [longDiv]
      rw [odd_cons, ih _ (by split <;> (try rw [addFront_length]) <;> omega)]
      cases x
      · simp
      · simp only [if_true]
        rw [addFront_odd poly l (by show 16 ≤ _; omega)]
        rw [show odd poly = false from rfl]
        cases odd l <;> rfl

end Verif.Ericsson
