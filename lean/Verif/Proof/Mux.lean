import Verif.Mux
import Verif.Proof.Demux
/-! Proof infrastructure for the multiplexer (no property statements here). -/
namespace Verif.Mux
open Verif.Spec
open Verif.RaaPrime (bind_ok bind_err)
set_option linter.unusedSimpArgs false
set_option maxRecDepth 4000

/-- entry whose remaining bits come in pairs -/
structure Entry.Even (e : Entry) : Prop where
  len : e.bits.length % 2 = 0
  nxt : e.nextBit % 2 = 0
  le : e.nextBit ≤ e.bits.length

/-- bits still to be sent -/
def pend (q : List Entry) : List Bool := q.flatMap fun e => e.bits.drop e.nextBit

theorem evict_eq : ∀ (n : Nat) (q : List Entry), evict q n = q.drop n
  | 0, q => by simp [evict]
  | n + 1, [] => by simp [evict]
  | n + 1, e :: q => by simp [evict, evict_eq n q]

theorem enqueueQ_eq (q : List Entry) (f : List Bool) :
    enqueueQ q f = (q.drop (q.length - 2)) ++ [⟨f, 0⟩] := by
  unfold enqueueQ
  simp only [evict_eq]
  split
  · rfl
  · rw [show q.length - 2 = 0 by omega]; simp

theorem getSubchBits_done (idle : List Bool) (off fuel : Nat) (sc : List (Option Bool)) (q : List Entry)
    (nb : Nat) (h : 2 ≤ nb) : getSubchBits idle off 2 (fuel + 1) sc q nb = .ok (sc, q) := by
  rw [getSubchBits, if_neg (by omega)]

/-- taking two bits from a non-exhausted entry -/
theorem get2_entry (idle : List Bool) (off : Nat) (sc : List (Option Bool)) (hsc : off + 2 ≤ sc.length)
    (e : Entry) (rest : List Entry) (he : e.Even) (hlt : e.nextBit < e.bits.length)
    (q : List Entry) (hq : (if q.isEmpty then enqueueQ q idle else q) = e :: rest) (fuel : Nat) :
    ∃ b0 b1 q', getSubchBits idle off 2 (fuel + 2) sc q 0
        = (do let s ← blit sc off [some b0, some b1]; .ok (s, q')) ∧
      pend (e :: rest) = b0 :: b1 :: pend q' ∧
      ((∀ x ∈ rest, x.Even) → ∀ x ∈ q', x.Even) ∧ q'.length ≤ rest.length + 1 := by
  obtain ⟨h1, h2, h3⟩ := he
  have hleft : ¬ (e.bits.length - e.nextBit < 2) := by omega
  have hd : e.bits.drop e.nextBit = e.bits[e.nextBit] :: e.bits[e.nextBit + 1]'(by omega) ::
      e.bits.drop (e.nextBit + 2) := by
    rw [List.drop_eq_getElem_cons hlt, List.drop_eq_getElem_cons (by omega : e.nextBit + 1 < _)]
  refine ⟨e.bits[e.nextBit], e.bits[e.nextBit + 1]'(by omega),
    if e.nextBit + 2 ≥ e.bits.length then rest else ⟨e.bits, e.nextBit + 2⟩ :: rest, ?_, ?_, ?_, ?_⟩
  · rw [getSubchBits, if_pos (by omega), hq]
    simp only [hleft, if_false]
    rw [slice_ok (by omega), hd]
    simp only [bind_ok, List.take_succ_cons, List.take_zero, List.map_cons, List.map_nil, Nat.add_zero]
    rw [blit_ok (by simpa using hsc)]
    simp only [bind_ok]
    rw [getSubchBits_done _ _ _ _ _ _ (by omega)]
  · simp only [pend, List.flatMap_cons, hd, List.cons_append]
    split
    · rw [List.drop_of_length_le (by omega)]; rfl
    · simp
  · intro hr x hx
    split at hx
    · exact hr x hx
    · rcases List.mem_cons.1 hx with rfl | hx
      · exact ⟨h1, by show (e.nextBit + 2) % 2 = 0; omega, by show e.nextBit + 2 ≤ e.bits.length; omega⟩
      · exact hr x hx
  · split <;> simp

theorem get2 (idle : List Bool) (hi : idle.length = 320) (off : Nat) (sc : List (Option Bool))
    (hsc : off + 2 ≤ sc.length) : ∀ (q : List Entry), (∀ e ∈ q, e.Even) → ∀ fuel, q.length ≤ fuel →
    ∃ b0 b1 q' k, getSubchBits idle off 2 (fuel + 2) sc q 0
        = (do let s ← blit sc off [some b0, some b1]; .ok (s, q')) ∧
      pend q ++ (List.replicate k idle).flatten = b0 :: b1 :: pend q' ∧
      (k = 0 ∨ k = 1 ∧ pend q = []) ∧ (∀ x ∈ q', x.Even) ∧
      q'.length ≤ max q.length 1 := by
  intro q
  induction q with
  | nil =>
    intro _ fuel _
    obtain ⟨b0, b1, q', a1, a2, a3, a4⟩ := get2_entry idle off sc hsc ⟨idle, 0⟩ []
      ⟨by simp [hi], rfl, by simp⟩ (by simp [hi]) [] (by simp [enqueueQ_eq]) fuel
    refine ⟨b0, b1, q', 1, a1, ?_, Or.inr ⟨rfl, rfl⟩, a3 (by simp), by simpa using a4⟩
    rw [← a2]; simp [pend]
  | cons e rest ih =>
    intro hev fuel hf
    have he := hev e (by simp)
    have hr : ∀ x ∈ rest, x.Even := fun x hx => hev x (by simp [hx])
    by_cases hlt : e.nextBit < e.bits.length
    · obtain ⟨b0, b1, q', a1, a2, a3, a4⟩ := get2_entry idle off sc hsc e rest he hlt (e :: rest)
        (by simp) fuel
      refine ⟨b0, b1, q', 0, a1, ?_, Or.inl rfl, a3 hr, ?_⟩
      · rw [← a2]; simp
      · simp only [List.length_cons]; omega
    · have hle := he.le
      simp only [List.length_cons] at hf
      obtain ⟨fuel, rfl⟩ : ∃ f, fuel = f + 1 := ⟨fuel - 1, by omega⟩
      obtain ⟨b0, b1, q', k, a1, a2, a3, a4, a5⟩ := ih hr fuel (by omega)
      have hpe : pend (e :: rest) = pend rest := by
        simp only [pend, List.flatMap_cons]
        rw [List.drop_of_length_le (by omega)]; rfl
      refine ⟨b0, b1, q', k, ?_, by rw [hpe]; exact a2, by rw [hpe]; exact a3, a4, ?_⟩
      · rw [← a1, getSubchBits, if_pos (by omega)]
        simp only [List.isEmpty_cons, Bool.false_eq_true, if_false]
        have h0 : e.bits.length - e.nextBit = 0 := by omega
        simp only [h0, Nat.lt_irrefl, if_true, Nat.add_zero, show (0 : Nat) < 2 by omega]
        rw [slice_ok (by omega)]
        simp only [bind_ok, List.take_zero, List.map_nil]
        rw [blit_ok (by simp; omega)]
        simp only [bind_ok, List.length_nil, Nat.add_zero, List.append_nil, List.take_append_drop]
        rw [if_pos (by omega)]
      · simp only [List.length_cons]; omega

/-- relation between the state of one sub-channel before and after `n` octets -/
structure Sent (idle : List Bool) (q q' : List Entry) (bits : List Bool) (k : Nat) : Prop where
  eq : bits ++ pend q' = pend q ++ (List.replicate k idle).flatten
  bound : 0 < k → (pend q).length + 320 * (k - 1) < bits.length
  even : ∀ x ∈ q', x.Even
  len : q'.length ≤ max q.length 1

theorem compact_chan (b0 b1 b2 b3 b4 b5 b6 b7 : Bool) : ∃ y,
    compactBits [some b0, some b1, some b2, some b3, some b4, some b5, some b6, some b7] = .ok y ∧
    chanBits 0 [y] = [b0, b1] ∧ chanBits 1 [y] = [b2, b3] ∧ chanBits 2 [y] = [b4, b5] ∧
    chanBits 3 [y] = [b6, b7] := by
  refine ⟨_, rfl, ?_⟩
  revert b0 b1 b2 b3 b4 b5 b6 b7
  decide +kernel

theorem outputByte (idle : List Bool) (hi : idle.length = 320) (m : Mux)
    (he : ∀ c < 4, ∀ e ∈ m.queue c, e.Even) :
    ∃ b m', muxOutputByte idle m = .ok (b, m') ∧
      ∀ c < 4, ∃ k, Sent idle (m.queue c) (m'.queue c) (chanBits c [b]) k := by
  obtain ⟨a0, a1, q0, k0, g0, p0, z0, e0, l0⟩ := get2 idle hi 0 (List.replicate 8 none) (by simp)
    (m.queue 0) (he 0 (by omega)) _ (Nat.le_refl _)
  obtain ⟨b0, b1, q1, k1, g1, p1, z1, e1, l1⟩ := get2 idle hi 2
    [some a0, some a1, none, none, none, none, none, none] (by simp)
    (m.queue 1) (he 1 (by omega)) _ (Nat.le_refl _)
  obtain ⟨c0, c1, q2, k2, g2, p2, z2, e2, l2⟩ := get2 idle hi 4
    [some a0, some a1, some b0, some b1, none, none, none, none] (by simp)
    (m.queue 2) (he 2 (by omega)) _ (Nat.le_refl _)
  obtain ⟨d0, d1, q3, k3, g3, p3, z3, e3, l3⟩ := get2 idle hi 6
    [some a0, some a1, some b0, some b1, some c0, some c1, none, none] (by simp)
    (m.queue 3) (he 3 (by omega)) _ (Nat.le_refl _)
  obtain ⟨y, hy, y0, y1, y2, y3⟩ := compact_chan a0 a1 b0 b1 c0 c1 d0 d1
  have f0 : blit (List.replicate 8 none) 0 [some a0, some a1]
      = .ok [some a0, some a1, none, none, none, none, none, none] := rfl
  have f1 : blit [some a0, some a1, none, none, none, none, none, none] 2 [some b0, some b1]
      = .ok [some a0, some a1, some b0, some b1, none, none, none, none] := rfl
  have f2 : blit [some a0, some a1, some b0, some b1, none, none, none, none] 4 [some c0, some c1]
      = .ok [some a0, some a1, some b0, some b1, some c0, some c1, none, none] := rfl
  have f3 : blit [some a0, some a1, some b0, some b1, some c0, some c1, none, none] 6 [some d0, some d1]
      = .ok [some a0, some a1, some b0, some b1, some c0, some c1, some d0, some d1] := rfl
  rw [f0] at g0; rw [f1] at g1; rw [f2] at g2; rw [f3] at g3
  simp only [bind_ok] at g0 g1 g2 g3
  refine ⟨y, setQ (setQ (setQ (setQ m 0 q0) 1 q1) 2 q2) 3 q3, ?_, ?_⟩
  · simp only [muxOutputByte, getBits2, Nat.mul_zero, g0, bind_ok]
    simp only [setQ, Nat.mul_one, show (1 : Nat) ≠ 0 by omega, if_false, g1, bind_ok,
      show (2 : Nat) ≠ 0 by omega, show (2 : Nat) ≠ 1 by omega, show 2 * 2 = 4 by rfl, g2,
      show (3 : Nat) ≠ 0 by omega, show (3 : Nat) ≠ 1 by omega, show (3 : Nat) ≠ 2 by omega,
      show 2 * 3 = 6 by rfl, g3, hy]
  · intro c hc
    have key : ∀ (q q' : List Entry) (x0 x1 : Bool) (k : Nat),
        pend q ++ (List.replicate k idle).flatten = x0 :: x1 :: pend q' →
        (k = 0 ∨ k = 1 ∧ pend q = []) → (∀ x ∈ q', x.Even) → q'.length ≤ max q.length 1 →
        Sent idle q q' [x0, x1] k := by
      intro q q' x0 x1 k h1 h2 h3 h4
      refine ⟨by rw [h1]; rfl, ?_, h3, h4⟩
      intro hk
      rcases h2 with h2 | ⟨h2, h2'⟩
      · omega
      · rw [h2', h2]; simp
    match c, hc with
    | 0, _ => exact ⟨k0, by rw [y0]; simpa [setQ] using key _ _ _ _ _ p0 z0 e0 l0⟩
    | 1, _ => exact ⟨k1, by rw [y1]; simpa [setQ] using key _ _ _ _ _ p1 z1 e1 l1⟩
    | 2, _ => exact ⟨k2, by rw [y2]; simpa [setQ] using key _ _ _ _ _ p2 z2 e2 l2⟩
    | 3, _ => exact ⟨k3, by rw [y3]; simpa [setQ] using key _ _ _ _ _ p3 z3 e3 l3⟩

theorem outLoop (idle : List Bool) (hi : idle.length = 320) : ∀ (n : Nat) (m : Mux),
    (∀ c < 4, ∀ e ∈ m.queue c, e.Even) →
    ∃ bs m', muxOutLoop idle m n = .ok (bs, m') ∧ bs.length = n ∧
      ∀ c < 4, ∃ k, Sent idle (m.queue c) (m'.queue c) (chanBits c bs) k := by
  intro n
  induction n with
  | zero =>
    intro m he
    refine ⟨[], m, rfl, rfl, ?_⟩
    intro c hc
    exact ⟨0, by simp [chanBits], by omega, he c hc, by omega⟩
  | succ n ih =>
    intro m he
    obtain ⟨b, m1, h1, h2⟩ := outputByte idle hi m he
    obtain ⟨bs, m2, g1, g2, g3⟩ := ih m1 (fun c hc => by obtain ⟨k, hk⟩ := h2 c hc; exact hk.even)
    refine ⟨b :: bs, m2, ?_, by simp [g2], ?_⟩
    · rw [muxOutLoop, h1]; simp only [bind_ok, g1]
    · intro c hc
      obtain ⟨k1, s1⟩ := h2 c hc
      obtain ⟨k2, s2⟩ := g3 c hc
      have hcb : chanBits c (b :: bs) = chanBits c [b] ++ chanBits c bs := by simp [chanBits]
      have hl1 : (chanBits c [b]).length = 2 := by simp [chanBits]
      have hlen : ∀ k, ((List.replicate k idle).flatten).length = 320 * k := by
        intro k; simp [List.length_flatten, hi]; omega
      have e1 := congrArg List.length s1.eq
      simp only [List.length_append, hlen, hl1] at e1
      refine ⟨k1 + k2, ?_, ?_, s2.even, ?_⟩
      · rw [hcb, List.append_assoc, s2.eq, ← List.append_assoc, s1.eq, ← List.replicate_append_replicate,
          List.flatten_append, List.append_assoc]
      · intro hk
        rw [hcb, List.length_append, hl1]
        have b1 := s1.bound
        have b2 := s2.bound
        by_cases hk2 : 0 < k2
        · have := b2 hk2; omega
        · have := b1 (by omega); omega
      · have := s1.len; have := s2.len; omega

theorem idle_ok : ∃ idle, OldTrau.trauIdleFrame = .ok idle ∧ idle.length = 320 ∧
    IsCleanFrame idle := by
  have h : ∃ idle, OldTrau.trauIdleFrame = .ok idle ∧ idle.length = 320 ∧
      idle.take 17 = List.replicate 16 false ++ [true] ∧
      ∀ i : Fin 303, ∃ j : Fin 9, idle[i.1 + 17 - 1 - j.1]? = some true := by
    refine ⟨List.replicate 16 false ++ [true, false, true, true, true, false, false, false, false,
      false, false, false, true, true, true, true] ++ List.replicate 288 true, ?_, ?_, ?_, ?_⟩
    · decide +kernel
    · decide +kernel
    · decide +kernel
    · decide +kernel
  obtain ⟨idle, h1, h2, h3, h4⟩ := h
  refine ⟨idle, h1, h2, ⟨h2, h3⟩, ?_⟩
  intro i hi
  obtain ⟨a, b, c⟩ := hi
  have hlt : i < 320 := by rw [← h2]; exact (List.getElem?_eq_some_iff.1 b).1
  by_cases h16 : i = 16
  · exact h16
  · exfalso
    obtain ⟨j, hj⟩ := h4 ⟨i - 17, by omega⟩
    simp only at hj
    have := c (i - 17 + 17 - 1 - j.1) (by have := j.2; omega) (by omega)
    rw [this] at hj
    cases hj

theorem muxOut_spec (n : Nat) (m : Mux) (he : ∀ c < 4, ∀ e ∈ m.queue c, e.Even) (idle : List Bool)
    (hid : OldTrau.trauIdleFrame = .ok idle) (hi : idle.length = 320) :
    ∃ bs m', muxOut m n = .ok (bs, m') ∧ bs.length = n ∧
      ∀ c < 4, ∃ k, Sent idle (m.queue c) (m'.queue c) (chanBits c bs) k := by
  obtain ⟨bs, m', h1, h2⟩ := outLoop idle hi n m he
  exact ⟨bs, m', by rw [muxOut, hid]; exact h1, h2⟩

end Verif.Mux
