import Verif.Base
import Verif.IpaKeepalive
/-!
# Model of `src/input/ipaccess.c`: time slots, and the BSC role

libosmo-netif's `osmo_stream_srv` is external: `osmo_stream_srv_destroy()` calls the `closed_cb`, frees the connection and
closes its socket; `osmo_stream_srv_send()` transmits a message on its connection.  What `ipa_ccm_rcvmsg_base()` and
`ipa_parse_unitid()` of libosmocore find in a message, and what the callbacks of the application return, is part of the
operation.  What the application does inside of `sign_link_up()` and `sign_link_down()` are operations of their own, before
and after the event.  A keepalive FSM is identified with the connection it was allocated for, whose memory it shares
(talloc context): it is freed when that connection is freed.

Not modelled: logging, statistics, allocation failures, TCP keepalive options (ipaccess.c:614-663), and the names.
-/
namespace Verif.IpAccess

/-- e1_input.h `NUM_E1_TS` -/
def NUM_TS : Nat := 32
/-- e1_input.h:25-30 -/
def SIGN_OML : Nat := 1
def SIGN_RSL : Nat := 2
def SIGN_OSMO : Nat := 3

/-! ### Time slots -/

/-- e1_input.h:252 `e1inp_line_ipa_oml_ts`: index of the time slot -/
def omlTs : Nat := 0

/-- e1_input.h:253 `e1inp_line_ipa_rsl_ts`: index of the time slot, or NULL -/
def rslTs (trx : Nat) : Option Nat := if 1 + trx < NUM_TS then some (1 + trx) else none

/-- e1_input.c: `line->ts[i].num = i + 1` -/
def tsNum (i : Nat) : Nat := i + 1

/-- ipaccess.c:171-177 `ipaccess_e1i_ts_sign_type` -/
def signType (num : Nat) : M Nat := if num = 0 then .error .assert else if num = 1 then .ok SIGN_OML else .ok SIGN_RSL

/-- ipaccess.c:179-187 `ipaccess_e1i_ts_trx_nr` -/
def trxNr (num : Nat) : M Nat := do
  let s ← signType num
  if s = SIGN_OML then .ok 0
  else if s ≠ SIGN_RSL then .error .assert
  else .ok (num - 2)

/-- ipaccess.c:73-79 `ipaccess_line_ts`; the subtraction is unsigned (32 bit) -/
def lineTs (priv : Nat) : Option Nat :=
  if priv = SIGN_OML then some omlTs else rslTs ((priv + (4294967296 - SIGN_RSL)) % 4294967296)

/-- ipaccess.c:1152, 1212: is the TRX number refused? -/
def trxRefused (trx : Nat) : Bool := decide (SIGN_RSL + trx - 1 ≥ NUM_TS)

/-! ### The BSC -/
namespace Bsc

/-- `struct e1inp_ts`: `conn` is `driver.ipaccess.fd.data`, `priv` is `fd.priv_nr`, `ka` is `driver.ipaccess.ka_fsm`,
`sign`: the type is `E1INP_TS_TYPE_SIGN` (else NONE) -/
structure Ts where
  conn : Option Nat
  priv : Nat
  ka : Option Nat
  sign : Bool
  deriving DecidableEq, Repr

/-- `struct osmo_stream_srv`: its `data` is the time slot `ts` of `line` -/
structure Conn where
  id : Nat
  line : Nat
  ts : Nat
  deriving DecidableEq, Repr

/-- `struct e1inp_sign_link` with its `tx_list` -/
structure SLink where
  id : Nat
  line : Nat
  ts : Nat
  type : Nat
  tei : Byte
  sapi : Byte
  q : List (List Byte)
  deriving DecidableEq, Repr

/-- `lines`: the allocated `struct e1inp_line`, with their use counts "ipa_bfd" and "e1inp_sign_link"; `ts`: the time
slots of each line; `links`: the signalling links, those of one time slot in the order of its list;
`next`: the next identity; `kap`: `line->ipa_kap` of the configured line is set; `pcap`: `line->pcap_fd` of the configured
line is a file -/
structure W where
  lines : Nat → Option (Int × Int)
  ts : Nat → Nat → Ts
  conns : List Conn
  links : List SLink
  next : Nat
  kap : Bool
  pcap : Bool

inductive Act where
  /-- a message of a signalling link is given to `osmo_stream_srv_send()` -/
  | send (conn link : Nat) (m : List Byte)
  /-- a PING is sent by a new keepalive FSM -/
  | ping (conn : Nat)
  /-- a message is given to `sign_link()` of the application -/
  | deliver (link : Nat) (m : List Byte)
  /-- the connection is destroyed, its socket closed -/
  | closed (conn : Nat)
  /-- `sign_link_down()` of the application is called -/
  | down (line : Nat)
  /-- a line is freed -/
  | freed (line : Nat)
  deriving DecidableEq, Repr

def noTs : Ts := ⟨none, 0, none, false⟩

def setTs (w : W) (l t : Nat) (x : Ts) : W :=
  { w with ts := fun a b => if a = l ∧ b = t then x else w.ts a b }

/-- access to a line through a pointer -/
def getLine (w : W) (l : Nat) : M (Int × Int) :=
  match w.lines l with | some x => .ok x | none => .error .badptr

def setLine (w : W) (l : Nat) (x : Option (Int × Int)) : W := { w with lines := fun a => if a = l then x else w.lines a }

def getConn (w : W) (c : Nat) : M Conn :=
  match w.conns.find? (fun x => x.id == c) with | some x => .ok x | none => .error .badptr

def getLink (w : W) (k : Nat) : M SLink :=
  match w.links.find? (fun x => x.id == k) with | some x => .ok x | none => .error .badptr

/-- `e1inp_line_get2()` and `e1inp_line_put2()`: the use counts are changed, and the line is freed if none is left -/
def use (w : W) (l : Nat) (db du : Int) : M (W × List Act) := do
  let (b, u) ← getLine w l
  if (b + db) + (u + du) = 0 then .ok (setLine w l none, [.freed l])
  else .ok (setLine w l (some (b + db, u + du)), [])

/-- ipaccess.c:81-90 `ipaccess_keepalive_fsm_cleanup` -/
def kaCleanup (w : W) (l t : Nat) : M W :=
  match (w.ts l t).ka with
  | none => .ok w
  | some c => do
    let _ ← getConn w c
    .ok (setTs w l t { w.ts l t with ka := none })

/-- ipaccess.c:105-124 `ipaccess_bsc_keepalive_fsm_alloc` -/
def kaAlloc (w : W) (l t c : Nat) : M (W × List Act) := do
  let w ← kaCleanup w l t
  if w.kap then .ok (setTs w l t { w.ts l t with ka := some c }, [.ping c]) else .ok (w, [])

/-- `osmo_stream_srv_destroy()`, which calls ipaccess.c:593-612 `ipaccess_bsc_conn_closed_cb` -/
def destroy (w : W) (c : Nat) : M (W × List Act) := do
  let x ← getConn w c
  let (w, _) ← use w x.line 0 1
  let (w, a1) ← use w x.line (-1) 0
  let w ← kaCleanup w x.line x.ts
  let w := setTs w x.line x.ts { w.ts x.line x.ts with conn := none }
  let w := { w with conns := w.conns.filter (fun y => !(y.id == c)) }
  let (w, a2) ← use w x.line 0 (-1)
  .ok (w, a1 ++ [.down x.line] ++ a2 ++ [.closed c])

/-- e1_input.c:984-995 `e1inp_tx_ts` for a signalling time slot: the first message of the first link that has one -/
def txFirst (l t : Nat) : List SLink → Option (SLink × List Byte × List SLink)
  | [] => none
  | k :: ks =>
    match decide (k.line = l ∧ k.ts = t), k.q with
    | true, m :: q => some (k, m, { k with q := q } :: ks)
    | _, _ => (txFirst l t ks).map (fun r => (r.1, r.2.1, k :: r.2.2))

/-- ipaccess.c:460-483 `ipaccess_bsc_send_msg`: messages of links of unknown type are dropped -/
def known (k : SLink) : Bool := decide (k.type = SIGN_OML ∨ k.type = SIGN_RSL ∨ k.type = SIGN_OSMO)

/-- ipaccess.c:460-483 -/
def sendMsg (k : SLink) (c : Nat) (m : List Byte) : List Act :=
  if known k then [.send c k.id (Ipa.pushHeader m k.tei)] else []

/-- ipaccess.c:502-509, the loop of `ipaccess_bsc_write_cb`; `fuel`: an upper bound of the number of rounds -/
def drain (l t c : Nat) : Nat → List SLink → List SLink × List Act
  | 0, ks => (ks, [])
  | fuel + 1, ks =>
    match txFirst l t ks with
    | none => (ks, [])
    | some (k, m, ks) =>
      let r := drain l t c fuel ks
      (r.1, sendMsg k c m ++ r.2)

def queued (ks : List SLink) : Nat := (ks.map (fun k => k.q.length)).sum

/-- ipaccess.c:487-511 `ipaccess_bsc_write_cb`; the list of links of a time slot that is not a signalling time slot is not
initialised -/
def writeCb (w : W) (l t : Nat) : M (W × List Act) :=
  match (w.ts l t).conn with
  | none => .ok (w, [])
  | some c =>
    if (w.ts l t).sign then
      let r := drain l t c (queued w.links) w.links
      .ok ({ w with links := r.1 }, r.2)
    else .error .badptr

/-- ipaccess.c:666-719 `ipaccess_bsc_oml_accept_cb`; `ok`: the ID GET could be sent -/
def omlAccept (w : W) (ok : Bool) : M (W × List Act) :=
  let l := w.next
  let c := w.next + 1
  let w := { w with lines := fun a => if a = l then some (1, 0) else w.lines a, conns := w.conns ++ [⟨c, l, omlTs⟩], next := w.next + 2,
                    ts := fun a b => if a = l then (if b = omlTs then ⟨some c, SIGN_OML, none, true⟩ else noTs) else w.ts a b }
  if ok then .ok (w, []) else destroy w c

/-- ipaccess.c:721-773 `ipaccess_bsc_rsl_accept_cb`: `e1inp_line_ipa_rsl_ts(line, 0)` is the time slot with index 1 -/
def rslAccept (w : W) (ok : Bool) : M (W × List Act) :=
  let l := w.next
  let c := w.next + 1
  let w := { w with lines := fun a => if a = l then some (1, 0) else w.lines a, conns := w.conns ++ [⟨c, l, 1⟩], next := w.next + 2,
                    ts := fun a b => if a = l then (if b = 1 then ⟨some c, SIGN_RSL, none, false⟩
                                                    else if b = omlTs then ⟨none, 0, none, true⟩ else noTs) else w.ts a b }
  if ok then .ok (w, []) else destroy w c

/-- ipaccess.c:312-350: the connection `c` of the time slot `(l, t)` is attached to the time slot of a TRX on another line -/
def attach (w : W) (c l t nl trx : Nat) : M (W × List Act) := do
  let (w, _) ← use w nl 1 0
  match rslTs trx with
  | none => .error .badptr
  | some nt => do
    let w := setTs w nl nt { w.ts nl nt with conn := some c, priv := SIGN_RSL + trx }
    let w := { w with conns := w.conns.map (fun y => if y.id == c then ⟨c, nl, nt⟩ else y) }
    if (w.ts l t).conn ≠ some c then .error .assert else do
    let w := setTs w l t { w.ts l t with conn := none }
    let (w, a1) ← use w l (-1) 0
    let (w, a2) ← kaAlloc w nl nt c
    let (w, a3) ← writeCb w nl nt
    .ok (w, a1 ++ a2 ++ a3)

/-- ipaccess.c:216-360 `ipaccess_bsc_rcvmsg` for an ID RESP with a unit id; `trx`: the TRX number of the unit id; `up`: the
line of the signalling link returned by `sign_link_up()`, if any -/
def idResp (w : W) (c trx : Nat) (up : Option Nat) : M (W × List Act) := do
  let x ← getConn w c
  let _ ← getLine w x.line
  let p := (w.ts x.line x.ts).priv
  if p = SIGN_OML then
    match up with
    | none => destroy w c
    | some _ => kaAlloc w x.line x.ts c
  else if p = SIGN_RSL then
    match up with
    | none => destroy w c
    | some nl => if nl = x.line then .ok (w, []) else attach w c x.line x.ts nl trx
  else .ok (w, [])

/-- ipaccess.c:538-591 `ipaccess_bsc_conn_read_cb` for a message of another protocol -/
def rx (w : W) (c : Nat) (proto : Byte) (m : List Byte) : M (W × List Act) := do
  let x ← getConn w c
  let _ ← getLine w x.line
  if (w.ts x.line x.ts).sign then
    match w.links.find? (fun k => decide (k.line = x.line ∧ k.ts = x.ts ∧ k.sapi = 0 ∧ k.tei = proto)) with
    | none => destroy w c
    | some k => .ok (w, [.deliver k.id m])
  else destroy w c

/-- the application configures a time slot for signalling: e1_input.c:455-471 -/
def config (w : W) (l t : Nat) : M (W × List Act) := do
  let _ ← getLine w l
  .ok (setTs w l t { w.ts l t with sign := true }, [])

/-- e1_input.c:782-807 `e1inp_sign_link_create` -/
def linkCreate (w : W) (l t type : Nat) (tei sapi : Byte) : M (W × List Act) := do
  let _ ← getLine w l
  if (w.ts l t).sign then do
    let (w, a) ← use w l 0 1
    .ok ({ w with links := w.links ++ [⟨w.next, l, t, type, tei, sapi, []⟩], next := w.next + 1 }, a)
  else .ok (w, [])

/-- ipaccess.c:371-373: the FSM of the time slot is stopped -/
def kaStop (w : W) (l t : Nat) : M Unit :=
  match (w.ts l t).ka with
  | none => .ok ()
  | some c => do
    let _ ← getConn w c
    .ok ()

/-- ipaccess.c:362-405 `ipaccess_close` -/
def ipaClose (w : W) (l t : Nat) : M (W × List Act) := do
  kaStop w l t
  match (w.ts l t).conn with
  | none => .ok (w, [])
  | some c => destroy w c

/-- e1_input.c:809-837 `e1inp_sign_link_destroy` -/
def linkDestroy (w : W) (k : Nat) : M (W × List Act) := do
  let x ← getLink w k
  let w := { w with links := w.links.filter (fun y => !(y.id == k)) }
  let _ ← getLine w x.line
  let (w, a) ← ipaClose w x.line x.ts
  let (w, b) ← use w x.line 0 (-1)
  .ok (w, a ++ b)

/-- e1_input.c:294-327 `abis_sendmsg`, which calls ipaccess.c:513-536 `ts_want_write`; then the message is
written to the pcap file, which is an access to a freed object if `ipaccess_bsc_send_msg()` dropped it -/
def sendmsg (w : W) (k : Nat) (m : List Byte) : M (W × List Act) := do
  let x ← getLink w k
  let w := { w with links := w.links.map (fun y => if y.id == k then { y with q := y.q ++ [m] } else y) }
  let _ ← getLine w x.line
  let r ← writeCb w x.line x.ts
  if w.pcap ∧ (w.ts x.line x.ts).conn ≠ none ∧ known x = false then .error .badptr else .ok r

/-- the timer of the FSM of a time slot expires without a PONG: ipa_keepalive.c:149-159 calls ipaccess.c:98-103
`ipa_bsc_keepalive_timeout_cb`, which destroys the connection and returns 1; then libosmocore terminates the FSM, see
`Ipa.Ka.cbReturn`: if it was freed meanwhile, that is an access to a freed object -/
def kaTimeout (w : W) (l t : Nat) : M (W × List Act) :=
  match (w.ts l t).ka with
  | none => .ok (w, [])
  | some c => do
    let _ ← getConn w c
    let (w, a) ← destroy w c
    -- `return 1`
    let _ ← getConn w c
    .ok (w, a)

inductive Op where
  | omlAccept (ok : Bool)
  | rslAccept (ok : Bool)
  | idResp (c trx : Nat) (up : Option Nat)
  /-- the peer closes the connection, or sends a message that is an error according to ipaccess.c:235-275, 351-360, 544-547 -/
  | closed (c : Nat)
  | rx (c : Nat) (proto : Byte) (m : List Byte)
  | config (l t : Nat)
  | linkCreate (l t type : Nat) (tei sapi : Byte)
  | linkDestroy (k : Nat)
  | sendmsg (k : Nat) (m : List Byte)
  | kaTimeout (l t : Nat)
  deriving DecidableEq, Repr

def step (w : W) : Op → M (W × List Act)
  | .omlAccept ok => omlAccept w ok
  | .rslAccept ok => rslAccept w ok
  | .idResp c trx up => idResp w c trx up
  | .closed c => destroy w c
  | .rx c p m => rx w c p m
  | .config l t => config w l t
  | .linkCreate l t ty tei sapi => linkCreate w l t ty tei sapi
  | .linkDestroy k => linkDestroy w k
  | .sendmsg k m => sendmsg w k m
  | .kaTimeout l t => kaTimeout w l t

def run (w : W) : List Op → M (W × List Act)
  | [] => .ok (w, [])
  | op :: ops => do
    let (w, a) ← step w op
    let (w, b) ← run w ops
    .ok (w, a ++ b)

def init (kap pcap : Bool) : W := ⟨fun _ => none, fun _ _ => noTs, [], [], 0, kap, pcap⟩

end Bsc
end Verif.IpAccess
