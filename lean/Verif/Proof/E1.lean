import Verif.Spec.E1
import Verif.Proof.Mux
import Verif.Proof.Demux
/-! Proof infrastructure for `Verif.E1Input` (no property statements here). -/
set_option maxRecDepth 10000
namespace Verif.E1

theorem bind_ok {α β : Type} (x : α) (f : α → M β) : (Except.ok x >>= f) = f x := rfl
theorem bind_err {α β : Type} (e : Fault) (f : α → M β) : ((Except.error e : M α) >>= f) = .error e := rfl
theorem map_ok {α β : Type} (x : α) (f : α → β) : (Except.ok x : M α).map f = .ok (f x) := rfl

/-! ### use counts -/

theorem cnt_nil (u : Nat) : cnt [] u = 0 := rfl

theorem cnt_cons (v : Nat) (c : Int) (r : List (Nat × Int)) (u : Nat) :
    cnt ((v, c) :: r) u = (if v = u then c else 0) + cnt r u := by
  unfold cnt
  by_cases h : v = u
  · simp [List.filter_cons, h]
  · simp [List.filter_cons, h]

theorem total_cons (v : Nat) (c : Int) (r : List (Nat × Int)) : total ((v, c) :: r) = c + total r := by
  simp [total]

theorem cnt_addUse (uses : List (Nat × Int)) (u : Nat) (d : Int) (v : Nat) :
    cnt (addUse uses u d) v = cnt uses v + if v = u then d else 0 := by
  induction uses with
  | nil =>
    unfold addUse
    split
    · subst_vars; simp [cnt]
    · rw [cnt_cons, cnt_nil]
      by_cases h : u = v
      · simp [h]
      · simp [h, Ne.symm h]
  | cons e r ih =>
    obtain ⟨w, c⟩ := e
    unfold addUse
    split
    · subst_vars
      split
      · rw [cnt_cons]
        by_cases h : w = v
        · simp [h]; omega
        · simp [h, Ne.symm h]
      · rw [cnt_cons, cnt_cons]
        by_cases h : w = v
        · simp [h]; omega
        · simp [h, Ne.symm h]
    · rw [cnt_cons, cnt_cons, ih]; omega

theorem total_addUse (uses : List (Nat × Int)) (u : Nat) (d : Int) :
    total (addUse uses u d) = total uses + d := by
  induction uses with
  | nil =>
    unfold addUse
    split
    · subst_vars; simp [total]
    · rw [total_cons]; omega
  | cons e r ih =>
    obtain ⟨w, c⟩ := e
    unfold addUse
    split
    · split
      · rw [total_cons]; omega
      · rw [total_cons, total_cons]; omega
    · rw [total_cons, total_cons, ih]; omega

/-- all counts are positive and belong to different uses -/
structure UsesOk (uses : List (Nat × Int)) : Prop where
  pos : ∀ e ∈ uses, 0 < e.2
  nodup : (uses.map (·.1)).Nodup

theorem UsesOk.tail {e : Nat × Int} {r : List (Nat × Int)} (h : UsesOk (e :: r)) : UsesOk r :=
  ⟨fun x hx => h.pos x (by simp [hx]), (List.nodup_cons.1 h.nodup).2⟩

theorem cnt_absent {uses : List (Nat × Int)} {u : Nat} (h : u ∉ uses.map (·.1)) : cnt uses u = 0 := by
  unfold cnt
  rw [List.filter_eq_nil_iff.2]
  · rfl
  · intro e he hh
    apply h
    simp only [List.mem_map]
    exact ⟨e, he, by simpa using hh⟩

theorem cnt_nonneg {uses : List (Nat × Int)} (h : UsesOk uses) (u : Nat) : 0 ≤ cnt uses u := by
  induction uses with
  | nil => simp [cnt]
  | cons e r ih =>
    have := ih h.tail
    have hp := h.pos e (by simp)
    rw [show e = (e.1, e.2) from rfl, cnt_cons]
    split <;> omega

theorem total_pos_iff {uses : List (Nat × Int)} (h : UsesOk uses) :
    0 < total uses ↔ ∃ u, 0 < cnt uses u := by
  induction uses with
  | nil => simp [total, cnt]
  | cons e r ih =>
    obtain ⟨w, c⟩ := e
    have hp := h.pos _ (List.mem_cons_self)
    simp only at hp
    have h0 : 0 ≤ total r := by
      have : ∀ (r : List (Nat × Int)), (∀ e ∈ r, 0 < e.2) → 0 ≤ total r := by
        intro r
        induction r with
        | nil => intro _; simp [total]
        | cons x r ih =>
          intro hx
          have := ih (fun e he => hx e (by simp [he]))
          have := hx x (by simp)
          rw [show x = (x.1, x.2) from rfl, total_cons]; omega
      exact this r h.tail.pos
    constructor
    · intro _
      refine ⟨w, ?_⟩
      have := cnt_nonneg h.tail w
      rw [cnt_cons, if_pos rfl]; omega
    · intro _
      rw [total_cons]; omega

theorem addUse_names (uses : List (Nat × Int)) (u : Nat) (d : Int) (v : Nat) :
    v ∈ (addUse uses u d).map (·.1) → v ∈ uses.map (·.1) ∨ v = u := by
  induction uses with
  | nil =>
    unfold addUse
    split
    · simp
    · simp
  | cons e r ih =>
    obtain ⟨w, c⟩ := e
    unfold addUse
    split
    · split
      · intro h; left; simp only [List.map_cons, List.mem_cons]; exact .inr h
      · intro h; left; simpa using h
    · intro h
      simp only [List.map_cons, List.mem_cons] at h ⊢
      rcases h with h | h
      · exact .inl (.inl h)
      · rcases ih h with h | h
        · exact .inl (.inr h)
        · exact .inr h

theorem UsesOk.add {uses : List (Nat × Int)} (h : UsesOk uses) (u : Nat) (d : Int)
    (hd : 0 ≤ cnt uses u + d) : UsesOk (addUse uses u d) := by
  induction uses with
  | nil =>
    unfold addUse
    split
    · exact ⟨by simp, by simp⟩
    · rw [cnt_nil] at hd
      refine ⟨?_, by simp⟩
      intro e he
      simp only [List.mem_singleton] at he
      subst he; simp; omega
  | cons e r ih =>
    obtain ⟨w, c⟩ := e
    have hn := List.nodup_cons.1 h.nodup
    unfold addUse
    split
    · rename_i hw
      subst hw
      rw [cnt_cons, if_pos rfl, cnt_absent hn.1] at hd
      split
      · exact h.tail
      · refine ⟨?_, h.nodup⟩
        intro e he
        simp only [List.mem_cons] at he
        rcases he with rfl | he
        · simp; omega
        · exact h.pos e (by simp [he])
    · rename_i hw
      rw [cnt_cons, if_neg hw] at hd
      have hr := ih h.tail (by omega)
      refine ⟨?_, ?_⟩
      · intro e he
        simp only [List.mem_cons] at he
        rcases he with rfl | he
        · exact h.pos _ (by simp)
        · exact hr.pos e he
      · simp only [List.map_cons, List.nodup_cons]
        refine ⟨?_, hr.nodup⟩
        intro hm
        rcases addUse_names _ _ _ _ hm with h' | h'
        · exact hn.1 h'
        · exact hw h'

/-! ### counting links -/

theorem countP_update {n : Nat} {p q : Nat → Bool} {k : Nat} (hk : k < n)
    (h : ∀ j, j ≠ k → q j = p j) :
    (List.range n).countP q + (if p k then 1 else 0) = (List.range n).countP p + (if q k then 1 else 0) := by
  induction n with
  | zero => omega
  | succ n ih =>
    simp only [List.range_succ, List.countP_append, List.countP_singleton]
    by_cases hkn : k = n
    · subst hkn
      have : (List.range k).countP q = (List.range k).countP p := by
        apply List.countP_congr
        intro j hj
        rw [h j (by have := List.mem_range.1 hj; omega)]
      rw [this]; omega
    · rw [h n (Ne.symm hkn)]
      have := ih (by omega)
      omega

theorem countP_same {n : Nat} {p q : Nat → Bool} (h : ∀ j, j < n → q j = p j) :
    (List.range n).countP q = (List.range n).countP p := by
  apply List.countP_congr
  intro j hj
  rw [h j (List.mem_range.1 hj)]

theorem linksOn_zero {st : St} {l : Nat} (h : linksOn st l = 0) (hlt : ∀ k x, st.link k = some x → k < st.nextLink)
    {k : Nat} {x : Link} (hx : st.link k = some x) : x.ts.1 ≠ l := by
  unfold linksOn at h
  rw [List.countP_eq_zero] at h
  have := h k (List.mem_range.2 (hlt k x hx))
  simpa [hx] using this

end Verif.E1
