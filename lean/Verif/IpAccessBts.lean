import Verif.IpAccess
/-!
# Model of `src/input/ipaccess.c`: the BTS role

libosmo-netif's `osmo_stream_cli` is external.  It is assumed that: `osmo_stream_cli_open()` leaves the client CONNECTING,
or fails; `osmo_stream_cli_close()` of a client that is not CLOSED closes its socket and calls the `disconnect_cb` if it was
CONNECTED, and, depending on the version of the library (`W.cf`), also if it was CONNECTING (reconnect is disabled by
ipaccess.c:1105, 1183); `osmo_stream_cli_destroy()` does the same and frees the client with all that has it as
talloc context; `osmo_stream_cli_send()` frees the message if the client is not CONNECTED, and else sends it.

What `ipa_ccm_rcvmsg_bts_base()` and `ipa_ccm_make_id_resp_from_req()` of libosmocore return, and what the callbacks of the
application return, is part of the operation.  What the application does inside of its callbacks are operations of their own
after the event.

Not modelled: logging, statistics, allocation failures, the use count of the line, names.
-/
namespace Verif.IpAccess.Bts
open Verif.IpAccess

/-- state of a client: `STREAM_CLI_STATE_CLOSED`, `_CONNECTING`, `_CONNECTED` -/
inductive St where
  | closed
  | connecting
  | connected
  deriving DecidableEq, Repr

/-- `struct osmo_stream_cli`; its `data` is the time slot `ts` -/
structure Cli where
  id : Nat
  ts : Nat
  st : St
  deriving DecidableEq, Repr

/-- keepalive FSM with its client, which is also its talloc context; `run`: it was started and not stopped since -/
structure Fsm where
  id : Nat
  cli : Nat
  run : Bool
  deriving DecidableEq, Repr

/-- `struct e1inp_sign_link` with its `tx_list` -/
structure SLink where
  id : Nat
  ts : Nat
  type : Nat
  tei : Byte
  sapi : Byte
  q : List (List Byte)
  deriving DecidableEq, Repr

/-- `il`: `line->driver_data` is allocated; `slot`: `il->ipa_cli`; `clis`, `fsms`: what is allocated; `ka`: the
`driver.ipaccess.ka_fsm` of each time slot; `sign`: the type of the time slot is `E1INP_TS_TYPE_SIGN`; `links`: the
signalling links, those of one time slot in the order of its list; `next`: the next identity; `kap`: `line->ipa_kap` is set;
`pcap`: `line->pcap_fd` is a file -/
structure W where
  il : Bool
  slot : Nat → Option Nat
  clis : List Cli
  fsms : List Fsm
  ka : Nat → Option Nat
  sign : Nat → Bool
  links : List SLink
  next : Nat
  kap : Bool
  pcap : Bool
  cf : Bool

inductive Act where
  /-- a client is opened -/
  | opened (cli : Nat)
  /-- its socket is closed -/
  | closed (cli : Nat)
  /-- `sign_link_down()` of the application is called -/
  | down
  /-- `sign_link_up()` of the application is called with this number -/
  | up (n : Nat)
  /-- a message of a signalling link is sent on a client that is connected -/
  | send (cli link : Nat) (m : List Byte)
  /-- a message of a signalling link is freed -/
  | drop (link : Nat)
  /-- an ID RESP that says this TRX number is sent, followed by an ID ACK -/
  | idResp (cli trx : Nat)
  /-- a keepalive FSM sends a PING -/
  | ping (cli : Nat)
  /-- a message is given to `sign_link()` of the application -/
  | deliver (link : Nat) (m : List Byte)
  deriving DecidableEq, Repr

def setF {α : Type} (f : Nat → α) (i : Nat) (x : α) : Nat → α := fun j => if j = i then x else f j

def getCli (w : W) (c : Nat) : M Cli :=
  match w.clis.find? (fun x => x.id == c) with | some x => .ok x | none => .error .badptr

def getFsm (w : W) (f : Nat) : M Fsm :=
  match w.fsms.find? (fun x => x.id == f) with | some x => .ok x | none => .error .badptr

def getLink (w : W) (k : Nat) : M SLink :=
  match w.links.find? (fun x => x.id == k) with | some x => .ok x | none => .error .badptr

def setSt (w : W) (c : Nat) (s : St) : W :=
  { w with clis := w.clis.map (fun x => if x.id == c then { x with st := s } else x) }

def setRun (w : W) (f : Nat) (b : Bool) : W :=
  { w with fsms := w.fsms.map (fun x => if x.id == f then { x with run := b } else x) }

/-- ipaccess.c:81-90 `ipaccess_keepalive_fsm_cleanup` -/
def kaCleanup (w : W) (t : Nat) : M W :=
  match w.ka t with
  | none => .ok w
  | some f => do
    let _ ← getFsm w f
    .ok { w with fsms := w.fsms.filter (fun x => !(x.id == f)), ka := setF w.ka t none }

/-- ipaccess.c:131-139 `_ipaccess_bts_down_cb`, 1005-1009 `ipaccess_bts_disconnect_cb` -/
def downCb (w : W) (c : Nat) : M (W × List Act) := do
  let x ← getCli w c
  let w ← kaCleanup w x.ts
  .ok (w, [.down])

/-- `osmo_stream_cli_close()` -/
def cliClose (w : W) (c : Nat) : M (W × List Act) := do
  let x ← getCli w c
  if x.st = .closed then .ok (w, []) else do
  let w := setSt w c .closed
  if x.st = .connected ∨ w.cf = true then do
    let (w, a) ← downCb w c
    .ok (w, .closed c :: a)
  else .ok (w, [.closed c])

/-- `osmo_stream_cli_destroy()` -/
def cliDestroy (w : W) (c : Nat) : M (W × List Act) := do
  let (w, a) ← cliClose w c
  .ok ({ w with clis := w.clis.filter (fun x => !(x.id == c)), fsms := w.fsms.filter (fun x => !(x.cli == c)) }, a)

/-- ipaccess.c:147-166 `ipaccess_bts_keepalive_fsm_alloc` -/
def kaAlloc (w : W) (t c : Nat) : M W :=
  if w.ka t ≠ none then .error .assert
  else if w.kap = false then .ok w
  else .ok { w with fsms := w.fsms ++ [⟨w.next, c, false⟩], ka := setF w.ka t (some w.next), next := w.next + 1 }

/-- ipaccess.c:1092-1128 and 1160-1202: the time slot is configured, a client is created and opened (`ok`), the FSM is
allocated and the client is stored -/
def openCli (w : W) (t : Nat) (ok : Bool) : M (W × Int × List Act) := do
  let w := { w with sign := setF w.sign t true }
  let c := w.next
  let w := { w with next := w.next + 1, clis := w.clis ++ [⟨c, t, .closed⟩] }
  if ok = false then do
    let (w, a) ← cliDestroy w c
    .ok (w, -5, a)
  else do
  let w := setSt w c .connecting
  let w ← kaAlloc w t c
  .ok ({ w with slot := setF w.slot t (some c) }, 0, [.opened c])

/-- ipaccess.c:1082-1089: the previous OML client is dropped -/
def dropOml (w : W) : M (W × List Act) :=
  match w.slot omlTs with
  | none => .ok (w, [])
  | some c => do
    let (w, a) ← cliClose w c
    let w ← kaCleanup w omlTs
    let (w, b) ← cliDestroy w c
    .ok ({ w with slot := setF w.slot omlTs none }, a ++ b)

/-- ipaccess.c:1011-1017, 1073-1133 `ipaccess_line_update`, BTS -/
def lineUpdate (w : W) (ok : Bool) : M (W × Int × List Act) := do
  let w := { w with il := true }
  let (w, a) ← dropOml w
  let (w, rc, b) ← openCli w omlTs ok
  .ok (w, rc, a ++ b)

/-- ipaccess.c:1206-1232 `e1inp_ipa_bts_rsl_close_n` -/
def rslClose (w : W) (trx : Nat) : M (W × Int × List Act) :=
  match trxRefused trx, rslTs trx with
  | true, _ => .ok (w, -22, [])
  | false, none => .error .badptr
  | false, some t =>
    if w.il = false then .ok (w, 0, []) else do
    let w ← kaCleanup w t
    match w.slot t with
    | none => .ok (w, 0, [])
    | some c => do
      let (w, a) ← cliDestroy w c
      .ok ({ w with slot := setF w.slot t none }, 0, a)

/-- ipaccess.c:1142-1203 `e1inp_ipa_bts_rsl_connect_n`; if the TRX number is refused, the log message (LOGPITS) follows the
null pointer (line 1153) -/
def rslConnect (w : W) (trx : Nat) (ok : Bool) : M (W × Int × List Act) :=
  match trxRefused trx, rslTs trx with
  | true, none => .error .badptr
  | true, some _ => .ok (w, -22, [])
  | false, none => .error .badptr
  | false, some t => do
    let (w, rc, a) ← rslClose w trx
    if rc < 0 then .ok (w, rc, a) else do
    let w := { w with il := true }
    let (w, rc, b) ← openCli w t ok
    .ok (w, rc, a ++ b)

/-- the client is connected: ipaccess.c:993-1003 `ipaccess_bts_connect_cb`; an FSM that is started in state INIT sends a PING
(ipa_keepalive.c:80-122), in other states the event is ignored -/
def connected (w : W) (c : Nat) : M (W × List Act) := do
  let x ← getCli w c
  if x.st ≠ .connecting then .ok (w, []) else do
  let w := setSt w c .connected
  match w.ka x.ts with
  | none => .ok (w, [])
  | some f => do
    let y ← getFsm w f
    if w.kap = true ∧ y.run = false then do
      let _ ← getCli w y.cli
      .ok (setRun w f true, [.ping y.cli])
    else .ok (w, [])

/-- what a CCM message is, and what the functions of libosmocore and the application return for it -/
inductive Ccm where
  /-- `base`: result of `ipa_ccm_rcvmsg_bts_base()` is not negative -/
  | pong (base : Bool)
  /-- `resp`: an ID RESP could be made; `up`: `sign_link_up()` returns a link; -/
  | idGet (base resp up : Bool)
  | other (base : Bool)
  /-- a message without a message type -/
  | empty
  deriving DecidableEq, Repr

/-- ipaccess.c:861-920 `_ipaccess_bts_handle_ccm` and its part of 922-964 `ipaccess_bts_read_cb`; `sign_link_up` is set -/
def rxCcm (w : W) (c : Nat) (m : Ccm) : M (W × List Act) := do
  let x ← getCli w c
  match m with
  | .empty => .error .assert
  | .pong base =>
    match w.ka x.ts with
    | none => .error .badptr
    | some f => do
      let _ ← getFsm w f
      if base then .ok (w, []) else cliClose w c
  | .other base => if base then .ok (w, []) else cliClose w c
  | .idGet base resp up =>
    if base = false then cliClose w c else do
    let trx ← trxNr (tsNum x.ts)
    let s ← signType (tsNum x.ts)
    if resp = false then cliClose w c else
    let a : List Act := [.idResp c trx, .up (s + trx)]
    if up then .ok (w, a) else do
    let (w, b) ← cliClose w c
    .ok (w, a ++ b)

/-- ipaccess.c:966-991 `ipaccess_bts_read_cb` for a message of another protocol -/
def rx (w : W) (c : Nat) (proto : Byte) (m : List Byte) : M (W × List Act) := do
  let x ← getCli w c
  match (if w.sign x.ts then w.links.find? (fun k => decide (k.ts = x.ts ∧ k.sapi = 0 ∧ k.tei = proto)) else none) with
  | none => cliClose w c
  | some k => .ok (w, [.deliver k.id m])

/-- the timer of a running FSM expires without a PONG: ipa_keepalive.c:149-159 calls ipaccess.c:141-145
`ipa_bts_keepalive_timeout_cb`, which returns 1; then libosmocore terminates the FSM -/
def kaTimeout (w : W) (f : Nat) : M (W × List Act) := do
  let y ← getFsm w f
  if y.run = false then .ok (w, []) else do
  let (w, a) ← downCb w y.cli
  -- `return 1`
  let _ ← getFsm w f
  .ok (w, a)

/-- the timer of a running FSM expires, and the next PING is sent: ipa_keepalive.c:143-147, ipaccess.c:126-129 -/
def kaPing (w : W) (f : Nat) : M (W × List Act) := do
  let y ← getFsm w f
  let x ← getCli w y.cli
  if y.run = true ∧ x.st = .connected then .ok (w, [.ping y.cli]) else .ok (w, [])

/-- e1_input.c:782-807 `e1inp_sign_link_create` -/
def linkCreate (w : W) (t type : Nat) (tei sapi : Byte) : M (W × List Act) :=
  if w.sign t then .ok ({ w with links := w.links ++ [⟨w.next, t, type, tei, sapi, []⟩], next := w.next + 1 }, [])
  else .ok (w, [])

/-- ipaccess.c:189-197 `ipaccess_bts_e1i_ts_stream_cli` -/
def tsCli (w : W) (t : Nat) : M Nat :=
  if w.il = false then .error .assert
  else match w.slot t with | none => .error .assert | some c => .ok c

/-- ipaccess.c:371-373: the FSM of the time slot is stopped -/
def kaStop (w : W) (t : Nat) : M W :=
  match w.ka t with
  | none => .ok w
  | some f => do
    let _ ← getFsm w f
    .ok (setRun w f false)

/-- e1_input.c:809-837 `e1inp_sign_link_destroy`, with ipaccess.c:362-386 `ipaccess_close` -/
def linkDestroy (w : W) (k : Nat) : M (W × List Act) := do
  let x ← getLink w k
  let w := { w with links := w.links.filter (fun y => !(y.id == k)) }
  let w ← kaStop w x.ts
  let c ← tsCli w x.ts
  cliClose w c

/-- e1_input.c:984-995 `e1inp_tx_ts` for a signalling time slot: the first message of the first link that has one -/
def txFirst (t : Nat) : List SLink → Option (SLink × List Byte × List SLink)
  | [] => none
  | k :: ks =>
    match decide (k.ts = t), k.q with
    | true, m :: q => some (k, m, { k with q := q } :: ks)
    | _, _ => (txFirst t ks).map (fun r => (r.1, r.2.1, k :: r.2.2))

/-- ipaccess.c:422-430: types of links whose messages are sent -/
def known (k : SLink) : Bool := decide (k.type = SIGN_OML ∨ k.type = SIGN_RSL ∨ k.type = SIGN_OSMO)

/-- ipaccess.c:417-438 `ipaccess_bts_send_msg`; `x`: the client -/
def sendMsg (k : SLink) (x : Cli) (m : List Byte) : List Act :=
  if known k = true ∧ x.st = .connected then [.send x.id k.id (Ipa.pushHeader m k.tei)] else [.drop k.id]

/-- ipaccess.c:448-456, the loop of `ipaccess_bts_write_cb`; `fuel`: an upper bound of the number of rounds -/
def drain (t : Nat) (x : Cli) : Nat → List SLink → List SLink × List Act
  | 0, ks => (ks, [])
  | fuel + 1, ks =>
    match txFirst t ks with
    | none => (ks, [])
    | some (k, m, ks) =>
      let r := drain t x fuel ks
      (r.1, sendMsg k x m ++ r.2)

def queued (ks : List SLink) : Nat := (ks.map (fun k => k.q.length)).sum

/-- ipaccess.c:442-457 `ipaccess_bts_write_cb` -/
def writeCb (w : W) (t : Nat) : M (W × List Act) := do
  let c ← tsCli w t
  let x ← getCli w c
  let r := drain t x (queued w.links) w.links
  .ok ({ w with links := r.1 }, r.2)

/-- e1_input.c:294-327 `abis_sendmsg`, which calls ipaccess.c:513-536 `ts_want_write`; then the message is written to the
pcap file, which is an access to a freed object if the message was dropped -/
def sendmsg (w : W) (k : Nat) (m : List Byte) : M (W × List Act) := do
  let x ← getLink w k
  let w := { w with links := w.links.map (fun y => if y.id == k then { y with q := y.q ++ [m] } else y) }
  let (w, a) ← writeCb w x.ts
  if w.pcap = true ∧ Act.drop k ∈ a then .error .badptr else .ok (w, a)

inductive Op where
  | lineUpdate (ok : Bool)
  | rslConnect (trx : Nat) (ok : Bool)
  | rslClose (trx : Nat)
  | connected (c : Nat)
  /-- connecting fails, the peer closes the connection, or reading fails (ipaccess.c:930-933) -/
  | lost (c : Nat)
  | rxCcm (c : Nat) (m : Ccm)
  | rx (c : Nat) (proto : Byte) (m : List Byte)
  | kaTimeout (f : Nat)
  | kaPing (f : Nat)
  | linkCreate (t type : Nat) (tei sapi : Byte)
  | linkDestroy (k : Nat)
  | sendmsg (k : Nat) (m : List Byte)
  /-- the keepalive is configured or not (e1_input_vty.c) -/
  | setKap (b : Bool)
  deriving DecidableEq, Repr

def noRc (r : M (W × Int × List Act)) : M (W × List Act) :=
  match r with | .ok (w, _, a) => .ok (w, a) | .error e => .error e

def step (w : W) : Op → M (W × List Act)
  | .lineUpdate ok => noRc (lineUpdate w ok)
  | .rslConnect trx ok => noRc (rslConnect w trx ok)
  | .rslClose trx => noRc (rslClose w trx)
  | .connected c => connected w c
  | .lost c => cliClose w c
  | .rxCcm c m => rxCcm w c m
  | .rx c p m => rx w c p m
  | .kaTimeout f => kaTimeout w f
  | .kaPing f => kaPing w f
  | .linkCreate t ty tei sapi => linkCreate w t ty tei sapi
  | .linkDestroy k => linkDestroy w k
  | .sendmsg k m => sendmsg w k m
  | .setKap b => .ok ({ w with kap := b }, [])

def run (w : W) : List Op → M (W × List Act)
  | [] => .ok (w, [])
  | op :: ops => do
    let (w, a) ← step w op
    let (w, b) ← run w ops
    .ok (w, a ++ b)

def init (kap pcap cf : Bool) : W := ⟨false, fun _ => none, [], [], fun _ => none, fun _ => false, [], 0, kap, pcap, cf⟩

end Verif.IpAccess.Bts
