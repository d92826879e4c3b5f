import Verif.Proof.IpAccess
/-!
# Transmission by the ip.access BSC
-/
namespace Verif.IpAccess.Bsc

/-- the number of messages queued on a time slot -/
def pend (l t : Nat) : List SLink → Nat
  | [] => 0
  | k :: ks => (if k.line = l ∧ k.ts = t then k.q.length else 0) + pend l t ks

theorem pend_le (l t : Nat) (ks : List SLink) : pend l t ks ≤ queued ks := by
  induction ks with
  | nil => simp [pend]
  | cons k ks ih =>
    simp only [queued, List.map_cons, List.sum_cons, pend] at *
    split <;> omega

theorem txFirst_none {l t : Nat} {ks : List SLink} (h : txFirst l t ks = none) : pend l t ks = 0 := by
  induction ks with
  | nil => rfl
  | cons k ks ih =>
    simp only [txFirst] at h
    split at h
    · simp at h
    · rename_i hno
      simp only [Option.map_eq_none_iff] at h
      simp only [pend, ih h]
      split
      · rename_i hk
        cases hq : k.q with
        | nil => rfl
        | cons m q => exact absurd hq (hno m q (by simp [hk]))
      · rfl

theorem known_iff (k : SLink) : known k = true ↔ (k.type = 1 ∨ k.type = 2 ∨ k.type = 3) := by
  unfold known; exact decide_eq_true_iff

theorem burst_cons (l t c : Nat) (k : SLink) (ks : List SLink) :
    burst l t c (k :: ks) = (if k.line = l ∧ k.ts = t then k.q.flatMap (sendMsg k c) else []) ++ burst l t c ks := by
  simp only [burst]
  congr 1
  by_cases h : k.line = l ∧ k.ts = t
  · rw [if_pos h]
    by_cases hk : known k = true
    · have h2 : k.line = l ∧ k.ts = t ∧ (k.type = 1 ∨ k.type = 2 ∨ k.type = 3) := ⟨h.1, h.2, (known_iff k).1 hk⟩
      rw [if_pos h2]
      induction k.q with
      | nil => rfl
      | cons m q ih => rw [List.map_cons, List.flatMap_cons, ih]; simp [sendMsg, hk, framed]
    · have h2 : ¬ (k.line = l ∧ k.ts = t ∧ (k.type = 1 ∨ k.type = 2 ∨ k.type = 3)) := fun h => hk ((known_iff k).2 h.2.2)
      rw [if_neg h2]
      induction k.q with
      | nil => rfl
      | cons m q ih => simp [sendMsg, hk] at ih ⊢
  · rw [if_neg h, if_neg (fun h2 => h ⟨h2.1, h2.2.1⟩)]

theorem txFirst_some {l t : Nat} (c : Nat) {ks ks' : List SLink} {k : SLink} {m : List Byte} (h : txFirst l t ks = some (k, m, ks')) :
    pend l t ks = pend l t ks' + 1 ∧ flush l t ks' = flush l t ks ∧ burst l t c ks = sendMsg k c m ++ burst l t c ks' := by
  induction ks generalizing ks' k m with
  | nil => simp [txFirst] at h
  | cons a ks ih =>
    simp only [txFirst] at h
    split at h
    · rename_i m0 q0 hd hq
      simp only [decide_eq_true_eq] at hd
      simp only [Option.some.injEq, Prod.mk.injEq] at h
      obtain ⟨rfl, rfl, rfl⟩ := h
      refine ⟨?_, ?_, ?_⟩
      · simp only [pend, hd, hq, and_self, if_true, List.length_cons]; omega
      · simp [flush, hd]
      · rw [burst_cons, burst_cons]
        simp only [hd, hq, and_self, if_true, List.flatMap_cons, List.append_assoc]
        rfl
    · simp only [Option.map_eq_some_iff] at h
      obtain ⟨⟨k1, m1, ks1⟩, h1, h2⟩ := h
      simp only [Prod.mk.injEq] at h2
      obtain ⟨rfl, rfl, rfl⟩ := h2
      obtain ⟨e1, e2, e3⟩ := ih h1
      rename_i hno
      have hz : (if a.line = l ∧ a.ts = t then a.q.flatMap (sendMsg a c) else []) = [] := by
        split
        · rename_i ha
          cases hq : a.q with
          | nil => rfl
          | cons m q => exact absurd hq (hno m q (by simp [ha]))
        · rfl
      refine ⟨?_, ?_, ?_⟩
      · simp only [pend]; omega
      · simp only [flush, List.map_cons] at e2 ⊢; rw [e2]
      · rw [burst_cons, burst_cons, hz, e3]; rfl

theorem flush_id {l t : Nat} {ks : List SLink} (h : pend l t ks = 0) : flush l t ks = ks := by
  induction ks with
  | nil => rfl
  | cons k ks ih =>
    simp only [pend] at h
    have h1 : pend l t ks = 0 := by omega
    have h2 : (if k.line = l ∧ k.ts = t then k.q.length else 0) = 0 := by omega
    have := ih h1
    simp only [flush, List.map_cons] at this ⊢
    rw [this]
    congr 1
    split
    · rename_i hk
      rw [if_pos hk] at h2
      have := List.length_eq_zero_iff.1 h2
      cases k; simp only at this; subst this; rfl
    · rfl

theorem burst_nil {l t c : Nat} {ks : List SLink} (h : pend l t ks = 0) : burst l t c ks = [] := by
  induction ks with
  | nil => rfl
  | cons k ks ih =>
    simp only [pend] at h
    rw [burst_cons, ih (by omega)]
    split
    · rename_i hk
      rw [if_pos hk] at h
      have := List.length_eq_zero_iff.1 (show k.q.length = 0 by omega)
      rw [this]; rfl
    · rfl

theorem drain_eq (l t c : Nat) (fuel : Nat) (ks : List SLink) (h : pend l t ks ≤ fuel) :
    drain l t c fuel ks = (flush l t ks, burst l t c ks) := by
  induction fuel generalizing ks with
  | zero =>
    have h0 : pend l t ks = 0 := by omega
    rw [flush_id h0, burst_nil h0]; rfl
  | succ n ih =>
    simp only [drain]
    split
    · rename_i hn
      have h0 := txFirst_none hn
      rw [flush_id h0, burst_nil h0]
    · rename_i k m ks' hs
      obtain ⟨e1, e2, e3⟩ := txFirst_some c hs
      rw [ih ks' (by omega), e2, e3]

theorem writeCb_eq {w : W} {l t c : Nat} (hc : (w.ts l t).conn = some c) (hs : (w.ts l t).sign = true) :
    writeCb w l t = .ok (⟨w.lines, w.ts, w.conns, flush l t w.links, w.next, w.kap, w.pcap⟩, burst l t c w.links) := by
  simp only [writeCb, hc, hs, if_true, drain_eq l t c _ _ (pend_le l t w.links)]

theorem writeCb_ok {w w' : W} {l t : Nat} {a : List Act} (h : writeCb w l t = .ok (w', a)) :
    ((w.ts l t).conn = none ∧ w' = w ∧ a = []) ∨
    ∃ c, (w.ts l t).conn = some c ∧ (w.ts l t).sign = true ∧ w' = ⟨w.lines, w.ts, w.conns, flush l t w.links, w.next, w.kap, w.pcap⟩ ∧
      a = burst l t c w.links := by
  cases hc : (w.ts l t).conn with
  | none =>
    simp only [writeCb, hc, Except.ok.injEq, Prod.mk.injEq] at h
    exact .inl ⟨rfl, h.1.symm, h.2.symm⟩
  | some c =>
    cases hs : (w.ts l t).sign with
    | false => simp [writeCb, hc, hs] at h
    | true =>
      rw [writeCb_eq hc hs] at h
      cases h
      exact .inr ⟨c, rfl, rfl, rfl, rfl⟩

theorem sentOn_append (k : Nat) (a b : List Act) : sentOn k (a ++ b) = sentOn k a ++ sentOn k b := by
  induction a with
  | nil => rfl
  | cons x a ih =>
    cases x <;> simp only [List.cons_append, sentOn, ih]
    split <;> simp

theorem asked_append (k : Nat) (a b : List Op) : asked k (a ++ b) = asked k a ++ asked k b := by
  induction a with
  | nil => rfl
  | cons x a ih =>
    cases x <;> simp only [List.cons_append, asked, ih]
    split <;> simp

theorem sentOn_sends (k c j : Nat) (ms : List (List Byte)) (f : List Byte → List Byte) :
    sentOn k (ms.map (fun m => Act.send c j (f m))) = if j = k then ms.map f else [] := by
  induction ms with
  | nil => simp [sentOn]
  | cons m ms ih =>
    simp only [List.map_cons, sentOn, ih]
    split <;> simp

theorem sentOn_burst_none {j l t c : Nat} {ks : List SLink} (h : ∀ k ∈ ks, k.id ≠ j) : sentOn j (burst l t c ks) = [] := by
  induction ks with
  | nil => rfl
  | cons k ks ih =>
    simp only [burst, sentOn_append, ih (fun x hx => h x (List.mem_cons_of_mem _ hx)), List.append_nil]
    split
    · rw [sentOn_sends, if_neg (h k List.mem_cons_self)]
    · rfl

theorem sentOn_burst {l t c : Nat} {ks : List SLink} (hn : (ks.map SLink.id).Nodup) {k : SLink} (hk : k ∈ ks) (hy : known k = true) :
    sentOn k.id (burst l t c ks) = if k.line = l ∧ k.ts = t then k.q.map (framed k) else [] := by
  induction ks with
  | nil => simp at hk
  | cons a ks ih =>
    simp only [List.map_cons, List.nodup_cons] at hn
    simp only [burst, sentOn_append]
    rcases List.mem_cons.1 hk with rfl | hk'
    · have hno : ∀ x ∈ ks, x.id ≠ k.id := fun x hx e => hn.1 (List.mem_map.2 ⟨x, hx, e⟩)
      rw [sentOn_burst_none hno, List.append_nil]
      by_cases h : k.line = l ∧ k.ts = t
      · rw [if_pos h, if_pos ⟨h.1, h.2, (known_iff k).1 hy⟩, sentOn_sends, if_pos rfl]
      · rw [if_neg h, if_neg (fun h2 => h ⟨h2.1, h2.2.1⟩)]; rfl
    · rw [ih hn.2 hk']
      have hne : a.id ≠ k.id := fun h => hn.1 (h ▸ List.mem_map_of_mem hk')
      have : sentOn k.id (if a.line = l ∧ a.ts = t ∧ (a.type = 1 ∨ a.type = 2 ∨ a.type = 3) then a.q.map (fun m => Act.send c a.id (framed a m)) else []) = [] := by
        split
        · rw [sentOn_sends, if_neg hne]
        · rfl
      rw [this]; rfl

end Verif.IpAccess.Bsc
