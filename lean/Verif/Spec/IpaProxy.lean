import Verif.IpaProxy
/-!
# Specification: what the configuration of the proxy means
-/
namespace Verif.IpaProxy

/-- there is a configured route from stream `s` of instance `a` to stream `d` of instance `b` -/
def HasRoute (w : W) (a b : Nat) (s d : Byte) : Prop :=
  ∃ r ∈ w.routes, ∃ x ∈ w.shs, x.id = r.sh ∧ x.src = a ∧ x.dst = b ∧ r.s = s ∧ r.d = d

/-- the number of routes that use an instance -/
def uses (w : W) (i : Nat) : Nat :=
  w.routes.countP (fun r => match sh? w r.sh with | some x => x.src == i | none => false) +
  w.routes.countP (fun r => match sh? w r.sh with | some x => x.dst == i | none => false)

/-- commands that do not use a stream twice between the same instances, and do not delete the last route between two
instances -/
def Adm (w : W) : Op → Prop
  | .routeAdd sn s dn d _ => ∀ a b, args w sn s dn d = some (a, b) → ∀ s' d', HasRoute w a.id b.id s' d' →
      s' ≠ BitVec.ofNat 8 s ∧ d' ≠ BitVec.ofNat 8 d
  | .routeDel sn s dn d => ∀ a b, args w sn s dn d = some (a, b) →
      ∃ s' d', HasRoute w a.id b.id s' d' ∧ (s' ≠ BitVec.ofNat 8 s ∨ d' ≠ BitVec.ofNat 8 d)
  | .instDel n => ∃ i ∈ w.insts, nameEq i.name n = true
  | .accept rid => ∃ r ∈ w.routes, r.id = rid
  | _ => True

def AdmRun (w : W) : List Op → Prop
  | [] => True
  | op :: ops => Adm w op ∧ ∀ w', step w op = .ok w' → AdmRun w' ops

end Verif.IpaProxy
