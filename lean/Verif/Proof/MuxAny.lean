import Verif.Proof.Mux
import Verif.Spec.MuxAny
/-! Proof infrastructure: the multiplexer with frames of any length. -/
namespace Verif.Mux
open Verif.Spec Verif.Spec.MuxAny
open Verif.RaaPrime (bind_ok bind_err)
set_option linter.unusedSimpArgs false
set_option maxRecDepth 4000

/-- the bits of the frames of a queue that have not been sent -/
def rest (q : List Entry) : List (List Bool) := q.map fun e => e.bits.drop e.nextBit

theorem blit_err {α : Type} {a : List α} {off : Nat} {src : List α} (h : a.length < off + src.length) : blit a off src = .error .oob :=
  if_neg (by omega)

/-- an entry without bits is skipped -/
theorem skip_empty (idle : List Bool) (off fuel nb : Nat) (sc : List (Option Bool)) (hsc : off + 2 ≤ sc.length) (hnb : nb < 2) (e : Entry) (r : List Entry)
    (hle : e.nextBit ≤ e.bits.length) (h : e.bits.drop e.nextBit = []) :
    getSubchBits idle off 2 (fuel + 1) sc (e :: r) nb = getSubchBits idle off 2 fuel sc r nb := by
  have h0 : e.bits.length - e.nextBit = 0 := by
    have := congrArg List.length h
    simpa using this
  rw [getSubchBits, if_pos hnb]
  simp only [List.isEmpty_cons, Bool.false_eq_true, if_false]
  simp only [h0, Nat.lt_irrefl, if_true, Nat.add_zero, show (0 : Nat) < 2 by omega]
  rw [slice_ok (by omega)]
  simp only [bind_ok, List.take_zero, List.map_nil]
  rw [blit_ok (by simp; omega)]
  simp only [bind_ok, List.length_nil, Nat.add_zero, List.append_nil, List.take_append_drop]
  rw [if_pos (by omega)]

/-- an entry with one bit left -/
theorem take_one (idle : List Bool) (off fuel nb : Nat) (sc : List (Option Bool)) (hsc : off + 2 ≤ sc.length) (hnb : nb < 2) (e : Entry) (r q : List Entry)
    (hq : (if q.isEmpty then enqueueQ q idle else q) = e :: r)
    (hle : e.nextBit ≤ e.bits.length) (b : Bool) (h : e.bits.drop e.nextBit = [b]) :
    getSubchBits idle off 2 (fuel + 1) sc q nb =
      getSubchBits idle off 2 fuel (sc.take (off + nb) ++ [some b] ++ sc.drop (off + nb + 1)) r (nb + 1) := by
  have h0 : e.bits.length - e.nextBit = 1 := by
    have := congrArg List.length h
    simpa using this
  rw [getSubchBits, if_pos hnb, hq]
  simp only [h0, if_true, show (1 : Nat) < 2 by omega]
  rw [slice_ok (by omega), h]
  simp only [bind_ok, List.take_succ_cons, List.take_zero, List.map_cons, List.map_nil]
  rw [blit_ok (by simp; omega)]
  simp only [bind_ok, List.length_cons, List.length_nil, Nat.zero_add]
  rw [if_pos (by omega)]

/-- an entry with two bits or more left -/
theorem take_two (idle : List Bool) (off fuel nb : Nat) (sc : List (Option Bool)) (hnb : nb < 2) (e : Entry) (r q : List Entry)
    (hq : (if q.isEmpty then enqueueQ q idle else q) = e :: r)
    (hle : e.nextBit ≤ e.bits.length) (b c : Bool) (f : List Bool) (h : e.bits.drop e.nextBit = b :: c :: f) :
    ∃ q', rest q' = keep f (rest r) ∧ (∀ x ∈ q', x.nextBit ≤ x.bits.length ∨ x ∈ r) ∧
      getSubchBits idle off 2 (fuel + 2) sc q nb = (blit sc (off + nb) [some b, some c] >>= fun s => .ok (s, q')) := by
  have h0 : e.bits.length - e.nextBit = f.length + 2 := by
    have := congrArg List.length h
    simpa using this
  refine ⟨if e.nextBit + 2 ≥ e.bits.length then r else ⟨e.bits, e.nextBit + 2⟩ :: r, ?_, ?_, ?_⟩
  · have hd : e.bits.drop (e.nextBit + 2) = f := by rw [← List.drop_drop, h]; rfl
    unfold keep
    by_cases hf : f = []
    · subst hf
      simp only [List.length_nil] at h0
      rw [if_pos (by omega), if_pos rfl]
    · have : 0 < f.length := List.length_pos_iff.2 hf
      rw [if_neg (by omega), if_neg hf]
      show e.bits.drop (e.nextBit + 2) :: rest r = _
      rw [hd]
  · intro x hx
    split at hx
    · exact .inr hx
    · rcases List.mem_cons.1 hx with rfl | hx
      · left; show e.nextBit + 2 ≤ e.bits.length; omega
      · exact .inr hx
  · rw [getSubchBits, if_pos hnb, hq]
    simp only [h0, show ¬ (f.length + 2 < 2) by omega, if_false]
    rw [slice_ok (by omega), h]
    simp only [bind_ok, List.take_succ_cons, List.take_zero, List.map_cons, List.map_nil]
    congr 1

/-- what the scratch array is afterwards -/
structure Got (off : Nat) (sc s : List (Option Bool)) (p : Pulled) : Prop where
  len : s.length = sc.length
  pre : s.take (off + 2) = sc.take off ++ [some p.fst, some p.snd]

/-- outcome of a stage of the loop -/
def Out (off : Nat) (sc : List (Option Bool)) (res : M (List (Option Bool) × List Entry)) (p : Pulled) : Prop :=
  ((p.lost = none ∨ off + 3 ≤ sc.length) → ∃ s q', res = .ok (s, q') ∧ rest q' = p.left ∧
    (∀ x ∈ q', x.nextBit ≤ x.bits.length) ∧ Got off sc s p) ∧
  (p.lost ≠ none → sc.length < off + 3 → res = .error .oob)

theorem take_snoc {α : Type} {l : List α} {n : Nat} (h : n ≤ l.length) (y : List α) (k : Nat) : (l.take n ++ y).take (n + k) = l.take n ++ y.take k := by
  have : (l.take n).length = n := by rw [List.length_take]; omega
  rw [List.take_append, this]
  rw [List.take_of_length_le (by omega)]
  congr 2; omega

theorem out3 {off : Nat} {sc : List (Option Bool)} {a b c : Bool} {f : List Bool} {r : List (List Bool)}
    (ha : sc.take (off + 1) = sc.take off ++ [some a]) {q' : List Entry} (hr : rest q' = keep f r) (hq : ∀ x ∈ q', x.nextBit ≤ x.bits.length)
    {res : M (List (Option Bool) × List Entry)} (h : res = (blit sc (off + 1) [some b, some c] >>= fun s => .ok (s, q'))) :
    Out off sc res ⟨a, b, some c, keep f r⟩ := by
  constructor
  · intro hc
    have hl : off + 3 ≤ sc.length := by rcases hc with hc | hc; cases hc; exact hc
    rw [blit_ok (by simp; omega)] at h
    refine ⟨_, q', h, hr, hq, ?_, ?_⟩
    · simp; omega
    · rw [List.append_assoc, show off + 2 = off + 1 + 1 by omega, take_snoc (by omega), ha]; simp
  · intro _ hl
    rw [h, blit_err (by simp; omega)]; rfl

theorem second (idle : List Bool) (hi : idle.length = 320) (off : Nat) (sc : List (Option Bool)) (hsc : off + 2 ≤ sc.length) (a : Bool)
    (ha : sc.take (off + 1) = sc.take off ++ [some a]) : ∀ (q : List Entry), (∀ e ∈ q, e.nextBit ≤ e.bits.length) → ∀ fuel, q.length ≤ fuel →
    Out off sc (getSubchBits idle off 2 (fuel + 2) sc q 1) (pull2 idle a (rest q)) := by
  intro q
  induction q with
  | nil =>
    intro _ fuel _
    match idle, hi with
    | b :: c :: f, hi =>
      have hp : pull2 (b :: c :: f) a (rest []) = ⟨a, b, some c, keep f []⟩ := rfl
      obtain ⟨q', h1, h2, h3⟩ := take_two (b :: c :: f) off fuel 1 sc (by omega) ⟨b :: c :: f, 0⟩ [] [] (by simp [enqueueQ_eq]) (by simp) b c f rfl
      rw [hp]
      exact out3 ha h1 (fun x hx => by rcases h2 x hx with h | h; exact h; cases h) h3
  | cons e r ih =>
    intro hq fuel hf
    have he := hq e List.mem_cons_self
    have hr : ∀ e ∈ r, e.nextBit ≤ e.bits.length := fun x hx => hq x (List.mem_cons_of_mem _ hx)
    simp only [List.length_cons] at hf
    obtain ⟨fuel, rfl⟩ : ∃ f, fuel = f + 1 := ⟨fuel - 1, by omega⟩
    match hd : e.bits.drop e.nextBit with
    | [] =>
      have hp : pull2 idle a (rest (e :: r)) = pull2 idle a (rest r) := by
        show pull2 idle a (e.bits.drop e.nextBit :: rest r) = _
        rw [hd]; rfl
      rw [hp, skip_empty idle off (fuel + 2) 1 sc hsc (by omega) e r he hd]
      exact ih hr fuel (by omega)
    | [b] =>
      have hp : pull2 idle a (rest (e :: r)) = ⟨a, b, none, rest r⟩ := by
        show pull2 idle a (e.bits.drop e.nextBit :: rest r) = _
        rw [hd]; rfl
      rw [hp, take_one idle off (fuel + 2) 1 sc hsc (by omega) e r (e :: r) (by simp) he b hd, getSubchBits_done _ _ _ _ _ _ (by omega)]
      refine ⟨fun _ => ⟨_, r, rfl, rfl, hr, ?_, ?_⟩, fun h => absurd rfl h⟩
      · simp; omega
      · rw [List.append_assoc, show off + 2 = off + 1 + 1 by omega, take_snoc (by omega), ha]; simp
    | b :: c :: f =>
      have hp : pull2 idle a (rest (e :: r)) = ⟨a, b, some c, keep f (rest r)⟩ := by
        show pull2 idle a (e.bits.drop e.nextBit :: rest r) = _
        rw [hd]; rfl
      obtain ⟨q', h1, h2, h3⟩ := take_two idle off (fuel + 1) 1 sc (by omega) e r (e :: r) (by simp) he b c f hd
      rw [hp]
      exact out3 ha h1 (fun x hx => by rcases h2 x hx with h | h; exact h; exact hr x h) h3

theorem first (idle : List Bool) (hi : idle.length = 320) (off : Nat) (sc : List (Option Bool)) (hsc : off + 2 ≤ sc.length) :
    ∀ (q : List Entry), (∀ e ∈ q, e.nextBit ≤ e.bits.length) → ∀ fuel, q.length ≤ fuel →
    Out off sc (getSubchBits idle off 2 (fuel + 2) sc q 0) (pull idle (rest q)) := by
  have two : ∀ (b c : Bool) (q' : List Entry) (l : List (List Bool)) (res : M (List (Option Bool) × List Entry)),
      rest q' = l → (∀ x ∈ q', x.nextBit ≤ x.bits.length) →
      res = (blit sc (off + 0) [some b, some c] >>= fun s => .ok (s, q')) → Out off sc res ⟨b, c, none, l⟩ := by
    intro b c q' l res h1 h2 h3
    rw [blit_ok (by simp; omega)] at h3
    refine ⟨fun _ => ⟨_, q', h3, h1, h2, ?_, ?_⟩, fun h => absurd rfl h⟩
    · simp; omega
    · rw [List.append_assoc]; simp only [Nat.add_zero]; rw [take_snoc (by omega)]; simp
  intro q
  induction q with
  | nil =>
    intro _ fuel _
    match idle, hi with
    | b :: c :: f, hi =>
      have hp : pull (b :: c :: f) (rest []) = ⟨b, c, none, keep f []⟩ := rfl
      obtain ⟨q', h1, h2, h3⟩ := take_two (b :: c :: f) off fuel 0 sc (by omega) ⟨b :: c :: f, 0⟩ [] [] (by simp [enqueueQ_eq]) (by simp) b c f rfl
      rw [hp]
      exact two _ _ _ _ _ h1 (fun x hx => by rcases h2 x hx with h | h; exact h; cases h) h3
  | cons e r ih =>
    intro hq fuel hf
    have he := hq e List.mem_cons_self
    have hr : ∀ e ∈ r, e.nextBit ≤ e.bits.length := fun x hx => hq x (List.mem_cons_of_mem _ hx)
    simp only [List.length_cons] at hf
    obtain ⟨fuel, rfl⟩ : ∃ f, fuel = f + 1 := ⟨fuel - 1, by omega⟩
    match hd : e.bits.drop e.nextBit with
    | [] =>
      have hp : pull idle (rest (e :: r)) = pull idle (rest r) := by
        show pull idle (e.bits.drop e.nextBit :: rest r) = _
        rw [hd]; rfl
      rw [hp, skip_empty idle off (fuel + 2) 0 sc hsc (by omega) e r he hd]
      exact ih hr fuel (by omega)
    | [a] =>
      have hp : pull idle (rest (e :: r)) = pull2 idle a (rest r) := by
        show pull idle (e.bits.drop e.nextBit :: rest r) = _
        rw [hd]; rfl
      rw [hp, take_one idle off (fuel + 2) 0 sc hsc (by omega) e r (e :: r) (by simp) he a hd]
      have hl : (sc.take (off + 0) ++ [some a] ++ sc.drop (off + 0 + 1)).length = sc.length := by simp; omega
      have hta : ∀ k, k ≤ off → (sc.take (off + 0) ++ [some a] ++ sc.drop (off + 0 + 1)).take k = sc.take k := by
        intro k hk
        rw [List.append_assoc, List.take_append_of_le_length (by simp; omega), List.take_take]
        congr 1; omega
      have hs := second idle hi off (sc.take (off + 0) ++ [some a] ++ sc.drop (off + 0 + 1)) (by rw [hl]; exact hsc) a (by
        rw [hta off (Nat.le_refl _), List.append_assoc, show off + 1 = off + 0 + 1 by omega, take_snoc (by omega)]; simp) r hr fuel (by omega)
      have ha : (pull2 idle a (rest r)).lost = none ∨ True := .inr trivial
      constructor
      · intro hc
        obtain ⟨s, q', h1, h2, h3, h4, h5⟩ := hs.1 (by rw [hl]; exact hc)
        refine ⟨s, q', h1, h2, h3, by rw [h4, hl], ?_⟩
        rw [h5, hta off (Nat.le_refl _)]
      · intro hn hlt
        exact hs.2 hn (by rw [hl]; exact hlt)
    | b :: c :: f =>
      have hp : pull idle (rest (e :: r)) = ⟨b, c, none, keep f (rest r)⟩ := by
        show pull idle (e.bits.drop e.nextBit :: rest r) = _
        rw [hd]; rfl
      obtain ⟨q', h1, h2, h3⟩ := take_two idle off (fuel + 1) 0 sc (by omega) e r (e :: r) (by simp) he b c f hd
      rw [hp]
      exact two _ _ _ _ _ h1 (fun x hx => by rcases h2 x hx with h | h; exact h; exact hr x h) h3

/-- every entry has at most as many bits sent as it has bits -/
def Sane (m : Mux) : Prop := ∀ c < 4, ∀ e ∈ m.queue c, e.nextBit ≤ e.bits.length

theorem outputByte_any (idle : List Bool) (hi : idle.length = 320) (m : Mux) (hm : Sane m) :
    ((pull idle (rest (m.queue 3))).lost = none → ∃ b m', muxOutputByte idle m = .ok (b, m') ∧ Sane m' ∧
      ∀ c < 4, chanBits c [b] = [(pull idle (rest (m.queue c))).fst, (pull idle (rest (m.queue c))).snd] ∧
        rest (m'.queue c) = (pull idle (rest (m.queue c))).left) ∧
    ((pull idle (rest (m.queue 3))).lost ≠ none → muxOutputByte idle m = .error .oob) := by
  obtain ⟨s0, q0, g0, r0, n0, l0, p0⟩ := (first idle hi 0 (List.replicate 8 none) (by simp) (m.queue 0) (hm 0 (by omega)) _ (Nat.le_refl _)).1 (.inr (by simp))
  have l0' : s0.length = 8 := l0
  obtain ⟨s1, q1, g1, r1, n1, l1, p1⟩ := (first idle hi 2 s0 (by omega) (m.queue 1) (hm 1 (by omega)) _ (Nat.le_refl _)).1 (.inr (by omega))
  obtain ⟨s2, q2, g2, r2, n2, l2, p2⟩ := (first idle hi 4 s1 (by omega) (m.queue 2) (hm 2 (by omega)) _ (Nat.le_refl _)).1 (.inr (by omega))
  have h3 := first idle hi 6 s2 (by omega) (m.queue 3) (hm 3 (by omega)) _ (Nat.le_refl _)
  have hstart : muxOutputByte idle m = (do
      let (s, q3) ← getSubchBits idle 6 2 ((m.queue 3).length + 2) s2 (m.queue 3) 0
      let b ← compactBits s
      .ok (b, setQ (setQ (setQ (setQ m 0 q0) 1 q1) 2 q2) 3 q3)) := by
    simp only [muxOutputByte, getBits2, Nat.mul_zero, g0, bind_ok]
    simp only [setQ, Nat.mul_one, show (1 : Nat) ≠ 0 by omega, if_false, g1, bind_ok,
      show (2 : Nat) ≠ 0 by omega, show (2 : Nat) ≠ 1 by omega, show 2 * 2 = 4 by rfl, g2,
      show (3 : Nat) ≠ 0 by omega, show (3 : Nat) ≠ 1 by omega, show (3 : Nat) ≠ 2 by omega,
      show 2 * 3 = 6 by rfl]
    cases getSubchBits idle 6 2 ((m.queue 3).length + 2) s2 (m.queue 3) 0 with
    | error e => rfl
    | ok r => rfl
  constructor
  · intro hn
    obtain ⟨s3, q3, g3, r3, n3, l3, p3⟩ := h3.1 (.inl hn)
    have t2 : s0.take 2 = [some (pull idle (rest (m.queue 0))).fst, some (pull idle (rest (m.queue 0))).snd] := p0
    have t4 : s1.take 4 = s0.take 2 ++ [some (pull idle (rest (m.queue 1))).fst, some (pull idle (rest (m.queue 1))).snd] := p1
    have t6 : s2.take 6 = s1.take 4 ++ [some (pull idle (rest (m.queue 2))).fst, some (pull idle (rest (m.queue 2))).snd] := p2
    have t8 : s3.take 8 = s2.take 6 ++ [some (pull idle (rest (m.queue 3))).fst, some (pull idle (rest (m.queue 3))).snd] := p3
    rw [List.take_of_length_le (by omega), t6, t4, t2] at t8
    obtain ⟨y, hy, y0, y1, y2, y3⟩ := compact_chan (pull idle (rest (m.queue 0))).fst (pull idle (rest (m.queue 0))).snd
      (pull idle (rest (m.queue 1))).fst (pull idle (rest (m.queue 1))).snd
      (pull idle (rest (m.queue 2))).fst (pull idle (rest (m.queue 2))).snd
      (pull idle (rest (m.queue 3))).fst (pull idle (rest (m.queue 3))).snd
    refine ⟨y, setQ (setQ (setQ (setQ m 0 q0) 1 q1) 2 q2) 3 q3, ?_, ?_, ?_⟩
    · rw [hstart, g3, bind_ok]
      simp only
      rw [t8]
      simp only [List.cons_append, List.nil_append]
      rw [hy]; rfl
    · intro c hc
      match c, hc with
      | 0, _ => exact n0
      | 1, _ => exact n1
      | 2, _ => exact n2
      | 3, _ => exact n3
    · intro c hc
      match c, hc with
      | 0, _ => exact ⟨y0, r0⟩
      | 1, _ => exact ⟨y1, r1⟩
      | 2, _ => exact ⟨y2, r2⟩
      | 3, _ => exact ⟨y3, r3⟩
  · intro hn
    rw [hstart, h3.2 hn (by omega)]; rfl

end Verif.Mux
