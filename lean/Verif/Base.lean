/-!
# Common ground of all models

C memory accesses are modelled by checked accesses to lists: an access outside the object, a failed
`OSMO_ASSERT` or the use of an uninitialised object is an explicit `Fault`, i.e. a distinct outcome
of the modelled function.  Nothing in this file models a particular function of the library.
-/
namespace Verif

/-- Outcomes of a C program that are not a regular return. -/
inductive Fault where
  /-- read or write outside of an object -/
  | oob
  /-- `OSMO_ASSERT()` / `osmo_panic()`, i.e. `abort()` -/
  | assert
  /-- use of an indeterminate (uninitialised) value -/
  | uninit
  /-- use of a freed object / NULL dereference -/
  | badptr
  /-- other undefined behaviour: signed overflow, shift by a negative amount -/
  | ub
  deriving DecidableEq, Repr, Inhabited

/-- A computation that either returns or runs into a `Fault`. -/
abbrev M := Except Fault

instance {ε α : Type} [DecidableEq ε] [DecidableEq α] : DecidableEq (Except ε α)
  | .ok a, .ok b => if h : a = b then isTrue (h ▸ rfl) else isFalse (fun h' => h (Except.ok.inj h'))
  | .error a, .error b =>
      if h : a = b then isTrue (h ▸ rfl) else isFalse (fun h' => h (Except.error.inj h'))
  | .ok _, .error _ => isFalse (fun h => by cases h)
  | .error _, .ok _ => isFalse (fun h => by cases h)

/-- An octet (`uint8_t`). -/
abbrev Byte := BitVec 8

/-- errno values returned (negated) by the library (Linux numbering). -/
def EINVAL : Int := 22
def ENOSPC : Int := 28
def ENODEV : Int := 19
def EEXIST : Int := 17
def EIO : Int := 5
def ENOENT : Int := 2
def ENOTSUP : Int := 95
def ENOMSG : Int := 42
def EBADMSG : Int := 74

/-- `a[i]` (read). -/
def rd {α : Type} (a : List α) (i : Nat) : M α :=
  match a[i]? with
  | some x => .ok x
  | none => .error .oob

/-- source operand of `memcpy(_, a + off, n)`: the `n` elements starting at `off`. -/
def slice {α : Type} (a : List α) (off n : Nat) : M (List α) :=
  if off + n ≤ a.length then .ok ((a.drop off).take n) else .error .oob

/-- destination operand of `memcpy(a + off, src, |src|)`. -/
def blit {α : Type} (a : List α) (off : Nat) (src : List α) : M (List α) :=
  if off + src.length ≤ a.length then
    .ok (a.take off ++ src ++ a.drop (off + src.length))
  else .error .oob

/-- `a[i] = x` (write). -/
def wr {α : Type} (a : List α) (i : Nat) (x : α) : M (List α) :=
  if i < a.length then .ok (a.set i x) else .error .oob

/-- `OSMO_ASSERT(c)`. -/
def cassert (c : Bool) : M Unit := if c then .ok () else .error .assert

/-! ### Facts about the primitives -/

theorem rd_ok {α : Type} {a : List α} {i : Nat} (h : i < a.length) : rd a i = .ok a[i] := by
  simp [rd, List.getElem?_eq_getElem h]

theorem slice_ok {α : Type} {a : List α} {off n : Nat} (h : off + n ≤ a.length) :
    slice a off n = .ok ((a.drop off).take n) := by simp [slice, h]

theorem blit_ok {α : Type} {a : List α} {off : Nat} {src : List α}
    (h : off + src.length ≤ a.length) :
    blit a off src = .ok (a.take off ++ src ++ a.drop (off + src.length)) := by simp [blit, h]

theorem blit_length {α : Type} {a a' : List α} {off : Nat} {src : List α}
    (h : blit a off src = .ok a') : a'.length = a.length := by
  unfold blit at h
  split at h
  · rename_i hle
    cases h
    simp only [List.length_append, List.length_take, List.length_drop]
    omega
  · cases h

/-- Sequential write: appending right behind the part written so far. -/
theorem blit_seq {α : Type} (w src : List α) (x : α) (r : Nat) (h : src.length ≤ r) :
    blit (w ++ List.replicate r x) w.length src
      = .ok ((w ++ src) ++ List.replicate (r - src.length) x) := by
  rw [blit_ok (by simp; omega)]
  congr 1
  simp [List.drop_append]

theorem rd_append_right {α : Type} (a b : List α) (i : Nat) :
    rd (a ++ b) (a.length + i) = rd b i := by
  simp [rd, List.getElem?_append_right]

end Verif
