import Verif.IpaCcm
import Verif.Spec.IpaClient
/-!
# Specification vocabulary: CCM messages on an IPA client connection
-/
namespace Verif.IpaCcm
open Verif Verif.IpAccess

/-- a connection that has the socket `f`, after some history the client API allows -/
def Live (c : Ipa.Cli.Conn) (f : Nat) : Prop :=
  c.fd = some f ∧ ∃ u r ops tr, Ipa.Cli.AdmRun (Ipa.Cli.create u r) ops ∧ Ipa.Cli.run (Ipa.Cli.create u r) ops = .ok (c, tr)

/-- a CCM message: header (two octets of length, the protocol), message type, payload -/
def ccm (a b ty : Byte) (req : List Byte) : List Byte := a :: b :: 0xfe :: ty :: req

/-- the TRX of a connection: its `priv_nr` is 1 for OML, 2 + the number of the TRX for RSL -/
def trxOf (priv : Nat) : Nat := if priv < 2 then 0 else (priv - 2) % 65536

/-- libosmocore reports a failure: it rejects the message, or (ID GET) makes no response, or does not send all of it, or does not send the ID ACK -/
def Failure (e : Env) (x : Ext) (ty : Byte) (req : List Byte) : Prop :=
  x.base < 0 ∨ (ty = 0x04 ∧ ((x.resp { e.dev with trx := trxOf e.priv } req = none) ∨
    (∃ r, x.resp { e.dev with trx := trxOf e.priv } req = some r ∧ x.sent ≠ r.length) ∨ x.acked ≤ 0))

/-- the PONG of a connection with a line that has no keepalive FSM for it -/
def NoFsm (e : Env) (ty : Byte) : Prop :=
  ty = 0x01 ∧ ∃ ka, e.line = some ka ∧ ∀ t, lineTs e.priv = some t → ka t = none

end Verif.IpaCcm
