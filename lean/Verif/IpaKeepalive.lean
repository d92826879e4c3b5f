import Verif.Base
/-!
# Model of `src/input/ipa_keepalive.c` and of `ipa_msg_push_header` (`src/input/ipa.c`)

The FSM framework is libosmocore's: an event is passed to the all-state action, to the action of the state if the state
permits it, and is dropped otherwise; a state change is refused if the state does not permit it, otherwise it stops the
timer, starts it if the timeout is not 0, and calls `onenter`; if the timer callback returns 1 the FSM is terminated.
Time is counted in microseconds; a timer expires at any moment not before it is due.
-/
namespace Verif.Ipa

/-- ipa.c:32-40 `ipa_msg_push_header` (and `ipa_prepend_header` of libosmocore): `struct ipaccess_head` is the length of
the payload in network order (16 bits) and the protocol -/
def pushHeader (data : List Byte) (proto : Byte) : List Byte :=
  BitVec.ofNat 8 (data.length / 256) :: BitVec.ofNat 8 data.length :: proto :: data

/-- IPAC_PROTO_IPACCESS -/
def PROTO_IPACCESS : Byte := 0xfe
/-- IPAC_MSGT_PING -/
def MSGT_PING : Byte := 0x00

namespace Ka

/-- ipa_keepalive.c:33-44 `gen_ipa_ping` -/
def genPing : List Byte := pushHeader [MSGT_PING] PROTO_IPACCESS

/-- ipa_keepalive.c:46-50 -/
inductive KState where
  | init | idle | waitResp
  deriving DecidableEq, Repr

/-- ipa_keepalive.c:65-68 -/
inductive T where
  | nextPing | noPong
  deriving DecidableEq, Repr

/-- whom the FSM was allocated for: ipa_keepalive.c:242-296 -/
inductive Peer where
  | server | client | generic
  deriving DecidableEq, Repr

/-- ipa_keepalive.c:70-78 `struct ipa_fsm_priv` and what is used of `struct osmo_fsm_inst`; `inCb`: `timeout_cb` is
running; `gone`: the FSM was terminated -/
structure Fsm where
  interval : Nat
  wait : Nat
  peer : Peer
  sendFn : Bool
  timeoutCb : Bool
  state : KState
  timer : Option (Nat × T)
  now : Nat
  inCb : Bool
  gone : Bool
  deriving DecidableEq, Repr

/-- what is observed: calls of the application and what the FSM does -/
inductive Ev where
  | start | stop | pong
  /-- a PING is passed to the send function of the application (`custom`) or of the connection -/
  | ping (custom : Bool) (msg : List Byte)
  /-- the timeout is reported (to `timeout_cb` if there is one) -/
  | timeout
  /-- the FSM is terminated -/
  | term
  deriving DecidableEq, Repr

/-- microseconds per second -/
def SEC : Nat := 1000000

def use (f : Fsm) : M Unit := if f.gone then .error .badptr else .ok ()

/-- ipa_keepalive.c:217-235 `__ipa_conn_alloc_keepalive_fsm` -/
def alloc (interval wait : Nat) (peer : Peer) (now : Nat) : Fsm :=
  { interval := interval, wait := wait, peer := peer, sendFn := false, timeoutCb := false, state := .init, timer := none,
    now := now, inCb := false, gone := false }

/-- ipa_keepalive.c:95-122 `ipa_ka_wait_resp_onenter` -/
def onenter (f : Fsm) : M (List Ev) :=
  if f.sendFn then .ok [.ping true genPing]
  else if f.peer = .generic then .error .assert
  else .ok [.ping false genPing]

/-- the `out_state_mask` of ipa_keepalive.c:179-198 -/
def permitted : KState → KState → Bool
  | .init, .waitResp => true
  | .init, .init => true
  | .idle, .waitResp => true
  | .idle, .init => true
  | .waitResp, .idle => true
  | .waitResp, .init => true
  | _, _ => false

/-- `osmo_fsm_inst_state_chg` -/
def stateChg (f : Fsm) (s : KState) (secs : Nat) (t : T) : M (Fsm × List Ev) :=
  if permitted f.state s then do
    let f := { f with state := s, timer := if secs > 0 then some (f.now + secs * SEC, t) else none }
    if s = .waitResp then do
      let a ← onenter f
      .ok (f, a)
    else .ok (f, [])
  else .ok (f, [])

/-- ipa_keepalive.c:322-329 `ipa_keepalive_fsm_start`, :80-93 `ipa_ka_init`; START is permitted only in INIT -/
def start (f : Fsm) : M (Fsm × List Ev) := do
  use f
  match f.state with
  | .init => stateChg f .waitResp f.wait .noPong
  | _ => .ok (f, [])

/-- ipa_keepalive.c:332-337 `ipa_keepalive_fsm_stop`, :167-177 `ipa_ka_allstate_action` -/
def stop (f : Fsm) : M (Fsm × List Ev) := do
  use f
  stateChg f .init 0 .nextPing

/-- ipa_keepalive.c:315-319 `ipa_keepalive_fsm_pong_received`, :124-136 `ipa_ka_wait_resp`; PONG is permitted only in
WAIT_RESP -/
def pong (f : Fsm) : M (Fsm × List Ev) := do
  use f
  match f.state with
  | .waitResp => stateChg f .idle f.interval .nextPing
  | _ => .ok (f, [])

/-- the timer expires; ipa_keepalive.c:138-165 `ipa_ka_fsm_timer_cb` -/
def fire (f : Fsm) : M (Fsm × List Ev) := do
  use f
  match f.timer with
  | none => .error .ub
  | some (_, .nextPing) => stateChg { f with timer := none } .waitResp f.wait .noPong
  | some (_, .noPong) =>
    if f.timeoutCb then .ok ({ f with timer := none, inCb := true }, [.timeout])
    else .ok ({ f with timer := none, gone := true }, [.timeout, .term])

/-- `timeout_cb` returns `rc`: the FSM is terminated if it is 1 -/
def cbReturn (f : Fsm) (rc : Int) : M (Fsm × List Ev) :=
  if f.inCb then
    if rc = 1 then do
      use f
      .ok ({ f with inCb := false, timer := none, gone := true }, [.term])
    else .ok ({ f with inCb := false }, [])
  else .error .ub

inductive Op where
  | start | stop | pong | fire
  | cbReturn (rc : Int)
  /-- time passes -/
  | elapse (d : Nat)
  /-- ipa_keepalive.c:299-304, 307-312: the callbacks are set (or cleared) -/
  | setSend (b : Bool) | setTimeout (b : Bool)
  deriving DecidableEq

/-- one operation: what the application called, and what the FSM did -/
def step (f : Fsm) : Op → M (Fsm × List Ev)
  | .start => (start f).map fun p => (p.1, .start :: p.2)
  | .stop => (stop f).map fun p => (p.1, .stop :: p.2)
  | .pong => (pong f).map fun p => (p.1, .pong :: p.2)
  | .fire => fire f
  | .cbReturn rc => cbReturn f rc
  | .elapse d => .ok ({ f with now := f.now + d }, [])
  | .setSend b => do use f; .ok ({ f with sendFn := b }, [])
  | .setTimeout b => do use f; .ok ({ f with timeoutCb := b }, [])

/-- a history, with the events and when they happened -/
def run (f : Fsm) : List Op → M (Fsm × List (Nat × Ev))
  | [] => .ok (f, [])
  | op :: ops => do
    let (f', a) ← step f op
    let (f'', b) ← run f' ops
    .ok (f'', a.map (fun e => (f'.now, e)) ++ b)

end Ka
end Verif.Ipa
