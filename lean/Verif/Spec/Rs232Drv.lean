import Verif.Rs232Drv
/-!
# Specification: transmission on the serial line
-/
namespace Verif.Rs232.Drv

/-- the messages given to `abis_sendmsg()` for link `k`, in order -/
def sentTo (k : Nat) (ops : List Op) : List (List Byte) :=
  ops.filterMap fun o => match o with | .send j m => if j = k then some m else none | _ => none

/-- the messages of link `k` given to `write()`, in order -/
def writtenOf (k : Nat) (acts : List Act) : List (List Byte) :=
  acts.filterMap fun a => match a with | .tx j m _ => if j = k then some m else none | _ => none

/-- the number of messages given to `write()` -/
def writes (acts : List Act) : Nat := acts.countP fun a => match a with | .tx _ _ _ => true | _ => false

/-- neither a message is sent nor the line set up again -/
def Quiet (ops : List Op) : Prop := ∀ o ∈ ops, (∀ k m, o ≠ .send k m) ∧ ∀ y, o ≠ .update y

/-- a history of a line in operation: messages are sent, and the descriptor is found writable -/
inductive TxOp where
  | send (k : Nat) (m : List Byte)
  | ready (n : Int)
  deriving DecidableEq, Repr

def TxOp.op : TxOp → Op
  | .send k m => .send k m
  | .ready n => .event none (some n)

def isSend : TxOp → Bool
  | .send _ _ => true
  | .ready _ => false

/-- how often the descriptor is writable for the first time after a message was sent (`p`: one was sent) -/
def turns : Bool → List TxOp → Nat
  | _, [] => 0
  | _, .send _ _ :: r => turns true r
  | true, .ready _ :: r => 1 + turns false r
  | false, .ready _ :: r => turns false r

/-- the calls of a set-up that succeed -/
def okSys (fd : Nat) : Sys := ⟨some fd, true, true, true, true⟩

/-- a line with `n` links that was set up -/
def up (cb : Bool) (fd n : Nat) : W := ⟨List.replicate n [], some (Rs232.init cb), cb, false, true, some fd, [fd]⟩

end Verif.Rs232.Drv
