import Verif.IpaProxyPair
/-!
# Specification for C169: what a proxied connection forwards
-/
namespace Verif.IpaProxy.Pair
open Verif.Ipa (Msg)

/-- what becomes of a message: its protocol octet is looked up and replaced; without route it is dropped -/
def forward (map : Byte → Bool) (id : Byte → Byte) (m : Msg) : Option Msg :=
  match m.data with
  | a :: b :: p :: rest => if map p then some ⟨m.id, a :: b :: id p :: rest⟩ else none
  | _ => none

/-- the messages received from the peer that connected to the proxy -/
def fromSrc (acts : List Act) : List Msg := acts.filterMap fun a => match a with | .src (.deliver m) => some m | _ => none

/-- the messages received from the destination -/
def fromDst (acts : List Act) : List Msg := acts.filterMap fun a => match a with | .dst (.deliver m) => some m | _ => none

/-- the messages handed to the socket of the destination -/
def toDst (acts : List Act) : List Msg := acts.filterMap fun a => match a with | .dst (.sendTo _ m) => some m | _ => none

/-- the messages handed to the socket of the peer that connected to the proxy -/
def toSrc (acts : List Act) : List Msg := acts.filterMap fun a => match a with | .src (.sendTo _ m _) => some m | _ => none

/-- What may happen: events come for registered descriptors with the interest enabled and for the running timer; messages have a header -/
def Adm (p : Pair) : Op → Prop
  | .src _ wr rcv _ => p.src.reg = true ∧ (wr = true → p.src.wr = true) ∧ ∀ m, rcv = .msg m → 3 ≤ m.data.length
  | .dst _ wr _ rcv _ => p.dst.reg = true ∧ (wr = true → p.dst.wr = true) ∧ ∀ m, rcv = .msg m → 3 ≤ m.data.length
  | .timeout => p.dst.timer = true

def AdmRun (p : Pair) : List Op → Prop
  | [] => True
  | op :: ops => Adm p op ∧ ∀ p' a, step p op = .ok (p', a) → AdmRun p' ops

/-- the destination sends a message with a route although the peer is gone -/
def Orphan (p : Pair) : Op → Prop
  | .dst true _ _ (.msg m) _ => p.src.gone = true ∧ p.dst.state = .connected ∧ (forward p.tab.dmap p.tab.sid m).isSome = true
  | _ => False

def NoOrphan (p : Pair) : List Op → Prop
  | [] => True
  | op :: ops => ¬ Orphan p op ∧ ∀ p' a, step p op = .ok (p', a) → NoOrphan p' ops

end Verif.IpaProxy.Pair
