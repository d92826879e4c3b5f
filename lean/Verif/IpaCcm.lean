import Verif.IpAccess
import Verif.IpaClient
/-!
# Model of `ipaccess_bts_handle_ccm` (`src/input/ipaccess.c`), the public handler of CCM messages of an IPA client connection

`ipa_msg_recv_buffered()` of libosmocore sets `l2h` of a message behind the IPA header of three octets.  What
`ipa_ccm_rcvmsg_bts_base()`, `ipa_send()` and `ipa_ccm_send_id_ack()` of libosmocore return, and which ID RESP
`ipa_ccm_make_id_resp_from_req()` makes, is part of the operation (`Ext`).

Not modelled: logging; what `ipa_ccm_rcvmsg_bts_base()` sends (PONG, ID ACK).
-/
namespace Verif.IpaCcm
open Verif Verif.IpAccess

/-- `struct ipaccess_unit` of libosmocore; `rest`: names, versions, addresses.  The numbers are 16 bit. -/
structure Dev where
  site : Nat
  bts : Nat
  trx : Nat
  rest : List Byte
  deriving DecidableEq, Repr

/-- what libosmocore returns: `base`: `ipa_ccm_rcvmsg_bts_base()`; `resp`: the ID RESP for a unit and the payload of an ID GET, or NULL; `sent`: `ipa_send()` of this ID RESP; `acked`: `ipa_ccm_send_id_ack()` -/
structure Ext where
  base : Int
  resp : Dev → List Byte → Option (List Byte)
  sent : Int
  acked : Int

/-- the connection, its `ofd->priv_nr`, the keepalive FSM of each time slot of its line (if it has one), and the unit -/
structure Env where
  conn : Ipa.Cli.Conn
  priv : Nat
  line : Option (Nat → Option Nat)
  dev : Dev

inductive Act where
  /-- a keepalive FSM is told that a PONG was received -/
  | pong (fsm : Nat)
  /-- `ipa_send(fd, …)` of an ID RESP -/
  | idResp (fd : Option Nat) (m : List Byte)
  /-- `ipa_ccm_send_id_ack(fd)` -/
  | idAck (fd : Option Nat)
  /-- `ipa_client_conn_close(link)` -/
  | close (a : List Ipa.Cli.Act)
  deriving DecidableEq, Repr

/-- `IPAC_PROTO_IPACCESS`, `IPAC_MSGT_PONG`, `IPAC_MSGT_ID_GET` -/
def PROTO_IPACCESS : Byte := 0xfe
def MSGT_PONG : Byte := 0x01
def MSGT_ID_GET : Byte := 0x04

/-- ipaccess.c:842-844 `err:` -/
def fail (e : Env) (a : List Act) : M (Env × Int × List Act) := do
  let (c, b) ← Ipa.Cli.close e.conn
  .ok ({ e with conn := c }, -1, a ++ [.close b])

/-- ipaccess.c:792-796: the keepalive FSM of the time slot of the connection is told of a PONG -/
def pong (e : Env) (ty : Byte) : M (List Act) :=
  if ty = MSGT_PONG then
    match e.line with
    | none => .ok []
    | some ka =>
      match lineTs e.priv with
      | none => .error .badptr
      | some t => match ka t with | none => .error .badptr | some f => .ok [.pong f]
  else .ok []

/-- ipaccess.c:805-817: the ID RESP, made while `dev->trx_id` is patched; the unit with the stored number again.  `trx_id` has 16 bits. -/
def mkResp (e : Env) (x : Ext) (req : List Byte) : Env × Option (List Byte) :=
  let store := e.dev.trx
  let e := { e with dev := { e.dev with trx := if e.priv ≥ SIGN_RSL then (e.priv - SIGN_RSL) % 65536 else 0 } }
  let r := x.resp e.dev req
  ({ e with dev := { e.dev with trx := store } }, r)

/-- ipaccess.c:804-839: an ID GET -/
def idGet (e : Env) (x : Ext) (a : List Act) (req : List Byte) : M (Env × Int × List Act) :=
  match mkResp e x req with
  | (e, none) => fail e a
  | (e, some r) =>
    let a := a ++ [.idResp e.conn.fd r]
    if x.sent ≠ r.length then fail e a else
    let a := a ++ [.idAck e.conn.fd]
    if x.acked ≤ 0 then fail e a else .ok (e, 1, a)

/-- ipaccess.c:775-845 `ipaccess_bts_handle_ccm` -/
def handleCcm (e : Env) (x : Ext) (msg : List Byte) : M (Env × Int × List Act) :=
  match msg[2]? with
  | none => .error .oob
  | some p =>
    if p ≠ PROTO_IPACCESS then .ok (e, 0, []) else
    match msg.drop 3 with
    | [] => .error .assert
    | ty :: req => do
      Ipa.Cli.use e.conn
      let a ← pong e ty
      if x.base < 0 then fail e a else
      if ty = MSGT_ID_GET then idGet e x a req else .ok (e, 1, a)

end Verif.IpaCcm
