import Verif.E1d
/-!
# What a user expects of the osmo-e1d driver
-/
namespace Verif.E1d

/-- the time slots that are open, and in which mode -/
abbrev Opened := Nat → Nat → Option Mode

def Opened.set (s : Opened) (l t : Nat) (m : Option Mode) : Opened := fun a b => if a = l ∧ b = t then m else s a b

/-- opening and closing of descriptors is balanced: a time slot is opened only if it is not open, closed only if it is; `s` is what is
open before, `s'` what is open after the actions -/
def Balanced : Opened → List Act → Opened → Prop
  | s, [], s' => s = s'
  | s, .opened l t m :: as, s' => s l t = none ∧ Balanced (s.set l t (some m)) as s'
  | s, .closed l t :: as, s' => s l t ≠ none ∧ Balanced (s.set l t none) as s'
  | s, .write _ _ _ _ :: as, s' => Balanced s as s'
  | s, .rx _ _ _ :: as, s' => Balanced s as s'
  | s, .lapd _ _ _ _ :: as, s' => Balanced s as s'
  | s, .free _ _ _ :: as, s' => Balanced s as s'
  | s, .leak _ _ :: as, s' => Balanced s as s'

/-- what is open in a state -/
def openIn (w : W) : Opened := fun l t => (w.ts l t).fd.map (·.2)

/-- the daemon always reports all the time slots -/
def Complete (E : Env) : Prop := ∀ n num mode, E.query n = some (num, mode) → 32 ≤ num

/-- the daemon answers all requests -/
def Works (E : Env) : Prop :=
  ∀ n, (∃ num mode, E.query n = some (num, mode) ∧ 32 ≤ num) ∧ ∀ t, E.open_ n t = true ∧ E.reg n t = true

/-- a time slot is as configured: not open without a use, else open in the mode of the use and watched by the select loop; LAPD for
signalling only -/
def AsConfigured (x : Ts) : Prop :=
  match x.ty with
  | .none => x.fd = none ∧ x.reg = false ∧ x.lapd = false
  | .sign => (∃ f, x.fd = some (f, .hdlc)) ∧ x.reg = true ∧ x.lapd = true
  | .hdlc => (∃ f, x.fd = some (f, .hdlc)) ∧ x.reg = true ∧ x.lapd = false
  | .trau => (∃ f, x.fd = some (f, .raw)) ∧ x.reg = true ∧ x.lapd = false
  | .i460 => (∃ f, x.fd = some (f, .raw)) ∧ x.reg = true ∧ x.lapd = false
  | .raw => (∃ f, x.fd = some (f, .raw)) ∧ x.reg = true ∧ x.lapd = false

/-- the messages that were sent on a time slot -/
def sent (l t : Nat) : List Op → List (List Byte)
  | [] => []
  | .send l' t' m :: ops => if l' = l ∧ t' = t then m :: sent l t ops else sent l t ops
  | _ :: ops => sent l t ops

/-- the messages that were given to `write()` on a time slot -/
def written (l t : Nat) : List Act → List (List Byte)
  | [] => []
  | .write l' t' d _ :: as => if l' = l ∧ t' = t then d :: written l t as else written l t as
  | _ :: as => written l t as

/-- the messages that were received on a time slot -/
def received (l t : Nat) : List Act → List (List Byte)
  | [] => []
  | .rx l' t' d :: as => if l' = l ∧ t' = t then d :: received l t as else received l t as
  | _ :: as => received l t as

/-- the time slot is not configured in a history -/
def Unchanged (l t : Nat) (ops : List Op) : Prop := ∀ op ∈ ops, ∀ ty, op ≠ .config l t ty

end Verif.E1d
