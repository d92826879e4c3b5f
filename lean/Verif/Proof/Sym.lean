import Verif.Base
import Verif.KernelRfl
/-!
Symbolic bit lists: a list of known length `n` is `L n f` for some `f`, on which the kernel can
evaluate the (data independent) bit shuffling of a codec.
-/
namespace Verif

/-- the list `[f 0, …, f (n-1)]` -/
def L {α : Type} (n : Nat) (f : Nat → α) : List α := (List.range n).map f

@[simp] theorem L_length {α : Type} (n : Nat) (f : Nat → α) : (L n f).length = n := by simp [L]

theorem exists_L {α : Type} [Inhabited α] (l : List α) : ∃ f, l = L l.length f := by
  refine ⟨fun i => l.getD i default, ?_⟩
  apply List.ext_getElem (by simp)
  intro i h1 h2
  simp [L, List.getD_eq_getElem?_getD, h1]

theorem exists_L' {α : Type} [Inhabited α] {l : List α} {n : Nat} (h : l.length = n) :
    ∃ f, l = L n f := by subst h; exact exists_L l

theorem exists_cons_L {α : Type} [Inhabited α] {l p : List α} {k n : Nat} (h : l.length = k + n)
    (hp : l.take k = p) : ∃ f, l = p ++ L n f := by
  obtain ⟨f, hf⟩ := exists_L' (l := l.drop k) (n := n) (by simp [h])
  exact ⟨f, by rw [← hf, ← hp, List.take_append_drop]⟩

theorem L_getElem? {α : Type} (n : Nat) (f : Nat → α) (i : Nat) (h : i < n) :
    (L n f)[i]? = some (f i) := by simp [L, h]

end Verif
