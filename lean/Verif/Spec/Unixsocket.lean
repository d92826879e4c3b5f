import Verif.Unixsocket
/-!
# Specification: descriptors and packets of the unix socket driver
-/
namespace Verif.Us

/-- the descriptors that are open, after a trace of actions; `none` if a descriptor that is not open is written to,
registered or closed (it may belong to another part of the program) -/
def fds : List Nat → List Act → Option (List Nat)
  | o, [] => some o
  | o, .opened n :: as => if n ∈ o then none else fds (n :: o) as
  | o, .registered n :: as => if n ∈ o then fds o as else none
  | o, .unregistered n :: as => if n ∈ o then fds o as else none
  | o, .write n _ :: as => if n ∈ o then fds o as else none
  | o, .close n :: as => if n ∈ o then fds (o.erase n) as else none
  | o, .rx _ :: as => fds o as

/-- a connection exists -/
def connected (st : St) : Bool := match st.cfg with | some c => c.reg | none => false

/-- how the driver must be used: the line is (re)configured only while not connected, and something is sent only while
connected -/
def Adm (st : St) : Op → Prop
  | .update _ => connected st = false
  | .altc _ _ _ => connected st = true ∨ st.cfg = none
  | .tx _ _ _ => connected st = true
  | .read _ _ _ => True
  | .want => st.cfg ≠ none
  | .writable _ => True

def AdmRun (st : St) : List Op → Prop
  | [] => True
  | op :: ops => Adm st op ∧ ∀ st' a, step st op = .ok (st', a) → AdmRun st' ops

/-- after every successful connection the first packet turns the super channel off -/
def AltcFirst (as : List Act) : Prop :=
  ∀ pre post n, as = pre ++ .registered n :: post → ∃ post', post = .write n [1, 1, 0x23, 0, 0x42, 0, 0] :: post'

end Verif.Us
