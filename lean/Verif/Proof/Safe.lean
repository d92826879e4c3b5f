import Verif.Base
/-! Proof infrastructure: "returns without a fault and the result satisfies `P`". -/
namespace Verif

/-- `x` returns (no fault) and the value satisfies `P` -/
def Safe {α : Type} (P : α → Prop) (x : M α) : Prop := ∃ a, x = .ok a ∧ P a

namespace Safe
variable {α β : Type} {P : α → Prop} {Q : β → Prop}

theorem ok {a : α} (h : P a) : Safe P (.ok a) := ⟨a, rfl, h⟩
theorem bind {x : M α} {f : α → M β} (h : Safe P x) (hf : ∀ a, P a → Safe Q (f a)) : Safe Q (x >>= f) := by
  obtain ⟨a, rfl, ha⟩ := h
  exact hf a ha
theorem mono {P P' : α → Prop} {x : M α} (h : Safe P x) (hp : ∀ a, P a → P' a) : Safe P' x := by
  obtain ⟨a, rfl, ha⟩ := h
  exact ⟨a, rfl, hp a ha⟩
theorem ite {c : Prop} [Decidable c] {x y : M α} (h1 : c → Safe P x) (h2 : ¬ c → Safe P y) : Safe P (if c then x else y) := by
  by_cases h : c
  · rw [if_pos h]; exact h1 h
  · rw [if_neg h]; exact h2 h

theorem rd {l : List α} {i : Nat} (h : i < l.length) : Safe (fun _ => True) (Verif.rd l i) := ⟨_, rd_ok h, trivial⟩
theorem wr {l : List α} {i n : Nat} {x : α} (hn : l.length = n) (h : i < n) : Safe (fun l' : List α => l'.length = n) (Verif.wr l i x) := by
  unfold Verif.wr
  rw [if_pos (by omega)]
  exact ok (by simp [hn])
theorem slice {l : List α} {o n : Nat} (h : o + n ≤ l.length) : Safe (fun l' : List α => l'.length = n) (Verif.slice l o n) := by
  rw [slice_ok h]
  exact ok (by simp; omega)
theorem blit {l src : List α} {o n : Nat} (hn : l.length = n) (h : o + src.length ≤ n) :
    Safe (fun l' : List α => l'.length = n) (Verif.blit l o src) := by
  have h' : o + src.length ≤ l.length := by omega
  exact ⟨_, blit_ok h', (blit_length (blit_ok h')).trans hn⟩

end Safe
end Verif
