import Verif.IpaKeepalive
/-!
# Specification: keepalive
-/
namespace Verif.Ipa

/-- splitting a stream of IPA messages: two octets of length, the protocol, the payload -/
def splitIpa : Nat → List Byte → Option (List (Byte × List Byte))
  | _, [] => some []
  | 0, _ => none
  | n + 1, h :: l :: p :: r =>
    let len := h.toNat * 256 + l.toNat
    if len ≤ r.length then (splitIpa n (r.drop len)).map ((p, r.take len) :: ·) else none
  | _, _ => none

namespace Ka

def Ev.isPing : Ev → Bool
  | .ping _ _ => true
  | _ => false

/-- What may happen: no use after termination; there is a way to send the PING; the timer expires when it is due;
`cbReturn` is the return of a running callback -/
def Adm (f : Fsm) : Op → Prop
  | .start => f.gone = false ∧ (f.peer = .generic → f.sendFn = true)
  | .stop => f.gone = false
  | .pong => f.gone = false
  | .fire => f.gone = false ∧ f.inCb = false ∧ (f.peer = .generic → f.sendFn = true) ∧ ∃ e t, f.timer = some (e, t) ∧ e ≤ f.now
  | .cbReturn _ => f.inCb = true
  | .elapse _ => True
  | .setSend _ => f.gone = false
  | .setTimeout _ => f.gone = false

def AdmRun (f : Fsm) : List Op → Prop
  | [] => True
  | op :: ops => Adm f op ∧ ∀ f' a, step f op = .ok (f', a) → AdmRun f' ops

/-- what an observer knows from the events so far (most recent first): not running; a PING sent at `t` was not answered
(`late`: and the timeout was reported); the PING was answered at `t` -/
inductive Know where
  | stopped | asked (t : Nat) (late : Bool) | answered (t : Nat)
  deriving DecidableEq, Repr

def Know.next : Know → Nat × Ev → Know
  | _, (t, .ping _ _) => .asked t false
  | .asked _ _, (t, .pong) => .answered t
  | .asked t _, (_, .timeout) => .asked t true
  | _, (_, .stop) => .stopped
  | k, _ => k

def know (tr : List (Nat × Ev)) : Know := tr.foldl Know.next .stopped

end Ka
end Verif.Ipa
