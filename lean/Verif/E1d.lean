import Verif.Base
/-!
# Model of `src/input/e1d.c`: the driver for osmo-e1d

The client library of osmo-e1d is external: what it returns is given by `Env` (one answer per line update, and per time slot in it),
or is part of the operation (whether the daemon can be connected).  A descriptor is identified by the number of descriptors opened
before it.  The state machine is libosmocore's: an event that the state does not permit is ignored; entering a state runs its
`onenter` after the state has changed; leaving a state stops its timer.  Unregistering a descriptor that is not registered corrupts
the list of the select loop.

There is one line object per line number, lines are never freed; time slots are those numbered 1 to 31 (e1d.c:181, 704: `ts < num_ts`).
LAPD (`Verif.Lapd`), multiplexers (`Verif.Mux`, `Verif.Demux`) and the signalling links (`Verif.E1Input`) are not repeated here: the
operations say what they produce.

Not modelled: logging, allocation failures, `set_sa_bits` (e1d.c:837-845), the return values of the event callbacks.
-/
namespace Verif.E1d

/-- internal.h:7 `D_BCHAN_TX_GRAN`, the size of a block of a raw time slot -/
def GRAN : Nat := 160
/-- e1d.c:311: `TS_SIGN_ALLOC_SIZE - 16` -/
def SIGN_READ : Nat := 284
/-- e1d.c:545 `TSX_ALLOC_SIZE` -/
def HDLC_READ : Nat := 4096

/-- e1_input.h:70-78 `enum e1inp_ts_type` -/
inductive Ty where
  | none | sign | trau | raw | hdlc | i460
  deriving DecidableEq, Repr

/-- osmo-e1d's `enum osmo_e1dp_ts_mode` -/
inductive Mode where
  | off | raw | hdlc
  deriving DecidableEq, Repr

/-- a time slot: `fd` is `driver.e1d.fd.fd` (`none` = -1) with the mode it was opened in, `reg`: it is registered in the select loop,
`wr`: its interest in write events, `lapd`: there is a LAPD instance, `q`: the messages to be transmitted (RAW and HDLC) -/
structure Ts where
  ty : Ty
  fd : Option (Nat × Mode)
  reg : Bool
  wr : Bool
  lapd : Bool
  q : List (List Byte)
  deriving DecidableEq, Repr

/-- e1d.c:49-50, 61 and all time slots: `fsm`: the FSM exists, `conn`: it is in ST_CONNECTED, `cli`: `g_e1d`, `timer`: the timer of
the FSM runs, `used`: `lines[]`; `opened`: the open descriptors; `upd`: number of line updates so far (selects the answers) -/
structure W where
  fsm : Bool
  conn : Bool
  cli : Bool
  timer : Bool
  used : Nat → Bool
  ts : Nat → Nat → Ts
  opened : List Nat
  next : Nat
  upd : Nat

/-- the answers of the daemon and of the select loop: to the query of the `n`-th update (`none`: error; else the number of time slots
and their modes), to the opening, and to the registration of a time slot in it -/
structure Env where
  query : Nat → Option (Nat × (Nat → Mode))
  open_ : Nat → Nat → Bool
  reg : Nat → Nat → Bool

inductive Act where
  | opened (l t : Nat) (m : Mode)
  | closed (l t : Nat)
  /-- octets given to `write()` on a time slot, and its result -/
  | write (l t : Nat) (d : List Byte) (n : Int)
  /-- a received message is given to `e1inp_rx_ts()` or `e1inp_rx_ts_lapd()` -/
  | rx (l t : Nat) (d : List Byte)
  /-- a LAPD frame is given to `write()`, with its result, or is dropped (`none`) -/
  | lapd (l t : Nat) (d : List Byte) (n : Option Int)
  /-- a message of the queue is freed -/
  | free (l t : Nat) (d : List Byte)
  /-- a message buffer allocated for reading is neither given to anybody nor freed -/
  | leak (l t : Nat)
  deriving DecidableEq, Repr

def noTs : Ts := ⟨.none, none, false, false, false, []⟩

/-- e1d.c:822-835 `e1d_line_create`, for all lines -/
def init : W := ⟨false, false, false, false, fun _ => false, fun _ _ => noTs, [], 0, 0⟩

def setTs (w : W) (l t : Nat) (x : Ts) : W :=
  { w with ts := fun a b => if a = l ∧ b = t then x else w.ts a b }

/-- the numbers of the time slots -/
def slots : List Nat := List.range' 1 31

/-- `close()` of a descriptor -/
def closeFd (w : W) (f : Nat) : W := { w with opened := w.opened.filter (fun g => g ≠ f) }

/-- e1d.c:181-194: the loop of `terminate_line` -/
def termTs (w : W) (l t : Nat) : M (W × List Act) :=
  match (w.ts l t).fd with
  | none => .ok (w, [])
  | some (f, _) =>
    if (w.ts l t).reg then .ok (closeFd (setTs w l t { w.ts l t with fd := none, reg := false }) f, [.closed l t])
    else .error .badptr

/-- e1d.c:174-195 `terminate_line`, for a list of time slots -/
def termTss (w : W) (l : Nat) : List Nat → M (W × List Act)
  | [] => .ok (w, [])
  | t :: ts => do
    let (w, a) ← termTs w l t
    let (w, b) ← termTss w l ts
    .ok (w, a ++ b)

/-- e1d.c:236-247, for a list of line numbers -/
def termLines (w : W) : List Nat → M (W × List Act)
  | [] => .ok (w, [])
  | l :: ls =>
    if w.used l then do
      let (w, a) ← termTss w l slots
      let (w, b) ← termLines w ls
      .ok (w, a ++ b)
    else termLines w ls

/-- e1d.c:221-255 `fsm_e1d_client_connected_cb`: EV_CONN_LOST; in ST_DISCONNECTED the event is not permitted -/
def connLost (w : W) : M (W × List Act) :=
  if w.conn then do
    let (w, a) ← termLines { w with cli := false } (List.range 256)
    .ok ({ w with conn := false, timer := true }, a)
  else .ok (w, [])

/-- the mode in which time slots of a type are opened (e1d.c:733-739, 764-770, 789-795) -/
def need : Ty → Option Mode
  | .none => none
  | .sign => some .hdlc
  | .hdlc => some .hdlc
  | .trau => some .raw
  | .i460 => some .raw
  | .raw => some .raw

/-- what is left of a line update -/
inductive Res where
  | next | openFailed | regFailed
  deriving DecidableEq, Repr

/-- e1d.c:721-731: an open descriptor is closed -/
def updNone (w : W) (l t : Nat) : W × List Act :=
  match (w.ts l t).fd with
  | none => (setTs w l t { w.ts l t with reg := false, lapd := false }, [])
  | some (f, _) => (closeFd (setTs w l t { w.ts l t with reg := false, lapd := false, fd := none }) f, [.closed l t])

/-- e1d.c:733-736, 758-767, 783-792: it is closed if the daemon says that the mode is another one; the LAPD instance is released
unless the time slot is of type SIGN -/
def updClose (w : W) (l t : Nat) (m : Mode) (info : Mode) : W × List Act :=
  let x := { w.ts l t with reg := false, lapd := (w.ts l t).lapd && decide ((w.ts l t).ty = Ty.sign) }
  match x.fd with
  | none => (setTs w l t x, [])
  | some (f, _) => if info = m then (setTs w l t x, []) else (closeFd (setTs w l t { x with fd := none }) f, [.closed l t])

/-- e1d.c:737-740, 768-771, 793-796: it is opened unless it is open -/
def updOpen (w : W) (l t : Nat) (m : Mode) (ok : Bool) : W × List Act × Bool :=
  match (w.ts l t).fd with
  | some _ => (w, [], true)
  | none =>
    if ok then
      ({ setTs w l t { w.ts l t with fd := some (w.next, m) } with next := w.next + 1, opened := w.opened ++ [w.next] }, [.opened l t m], true)
    else (w, [], false)

/-- e1d.c:747-755, 778, 803, 807-815: only read events are enabled, a LAPD instance is created for SIGN, the descriptor is registered -/
def updReg (w : W) (l t : Nat) (ok : Bool) : W × List Act × Res :=
  let x := { w.ts l t with wr := false, lapd := decide ((w.ts l t).ty = Ty.sign) }
  if ok then (setTs w l t { x with reg := true }, [], .next)
  else
    match x.fd with
    | none => (setTs w l t x, [], .regFailed)
    | some (f, _) => (closeFd (setTs w l t { x with fd := none }) f, [.closed l t], .regFailed)

/-- e1d.c:704-816: one round of the loop of `e1d_line_update`; `num`, `mode`: answer of the daemon -/
def updTs (w : W) (l t num : Nat) (mode : Nat → Mode) (openOk regOk : Bool) : W × List Act × Res :=
  if (w.ts l t).ty ≠ .none ∧ num ≤ t then (setTs w l t { w.ts l t with reg := false }, [], .next)
  else
    match need (w.ts l t).ty with
    | none => let r := updNone w l t; (r.1, r.2, .next)
    | some m =>
      let r := updClose w l t m (mode t)
      let o := updOpen r.1 l t m openOk
      if o.2.2 then
        let g := updReg o.1 l t regOk
        (g.1, r.2 ++ o.2.1 ++ g.2.1, g.2.2)
      else (o.1, r.2 ++ o.2.1, .openFailed)

/-- the loop of `e1d_line_update`; e1d.c:741-746, 772-777, 797-802: if a time slot cannot be opened the connection is given up -/
def updTss (E : Env) (n : Nat) (w : W) (l num : Nat) (mode : Nat → Mode) : List Nat → M (W × List Act × Int)
  | [] => .ok (w, [], 0)
  | t :: ts =>
    match updTs w l t num mode (E.open_ n t) (E.reg n t) with
    | (w, a, .next) => do
      let (w, b, rc) ← updTss E n w l num mode ts
      .ok (w, a ++ b, rc)
    | (w, a, .openFailed) => do
      let (w, b) ← connLost w
      .ok (w, a ++ b, -EIO)
    | (w, a, .regFailed) => .ok (w, a, -9)

/-- e1d.c:660-820 `e1d_line_update` when the FSM exists -/
def updCore (E : Env) (w : W) (l : Nat) : M (W × List Act × Int) :=
  let w := { w with used := fun a => if a = l then true else w.used a }
  if w.conn = false then .ok (w, [], 0)
  else
    let n := w.upd
    let w := { w with upd := n + 1 }
    match E.query n with
    | none => do
      let (w, a) ← connLost w
      .ok (w, a, 0)
    | some (num, mode) => updTss E n w l num mode slots

/-- e1d.c:197-219 `fsm_e1d_client_connected_onenter_cb` for a list of line numbers -/
def updLines (E : Env) (w : W) : List Nat → M (W × List Act)
  | [] => .ok (w, [])
  | l :: ls =>
    if w.used l then do
      let (w, a, _) ← updCore E w l
      let (w, b) ← updLines E w ls
      .ok (w, a ++ b)
    else updLines E w ls

/-- e1d.c:151-172 `fsm_e1d_client_disconnected_cb`: EV_CONNECT; `ok`: the daemon can be connected -/
def connect (E : Env) (w : W) (ok : Bool) : M (W × List Act) :=
  if w.conn then .ok (w, [])
  else if w.cli || ok then updLines E { w with cli := true, conn := true, timer := false } (List.range 256)
  else .ok ({ w with timer := true }, [])

/-- e1d.c:660-820 `e1d_line_update`; the FSM is allocated by the first one -/
def lineUpdate (E : Env) (w : W) (l : Nat) (ok : Bool) : M (W × List Act × Int) := do
  let w := { w with used := fun a => if a = l then true else w.used a }
  if w.fsm then updCore E w l
  else do
    let (w, a) ← connect E { w with fsm := true } ok
    let (w, b, rc) ← updCore E w l
    .ok (w, a ++ b, rc)

/-- libosmocore `osmo_revbytebits_8`: the bits of an octet in the reverse order -/
def rev (b : Byte) : Byte := BitVec.ofNat 8 ((List.range 8).foldl (fun s i => s + (if b.getLsbD i then 2 ^ (7 - i) else 0)) 0)

/-- what `read()` returns: an error (`none`), or octets, not more than asked for -/
def readRes (max : Nat) (r : Option (List Byte)) : Option (List Byte) := r.map (fun d => d.take max)

/-- e1d.c:300-322 `handle_ts_sign_read` -/
def signRead (w : W) (l t : Nat) (r : Option (List Byte)) : M (W × List Act) :=
  match readRes SIGN_READ r with
  | some (b :: d) => .ok (w, [.rx l t (b :: d)])
  | _ => do
    let (w, a) ← connLost w
    .ok (w, .leak l t :: a)

/-- e1d.c:362-394 `handle_ts_trau_write`; `m`: what `subchan_mux_out` produces; a result of `write()` below 0 or 0 is an error -/
def trauWrite (w : W) (l t : Nat) (m : List Byte) (n : Int) : M (W × List Act) :=
  if n ≤ 0 then do
    let (w, a) ← connLost w
    .ok (w, .write l t (m.map rev) n :: a)
  else .ok (w, [.write l t (m.map rev) n])

/-- e1d.c:396-436 `handle_ts_trau_read` -/
def trauRead (w : W) (l t : Nat) (r : Option (List Byte)) (m : List Byte) (n : Int) : M (W × List Act) :=
  match readRes GRAN r with
  | none => do
    let (w, a) ← connLost w
    .ok (w, .leak l t :: a)
  | some d =>
    if d.length = GRAN then do
      let (w, a) ← trauWrite w l t m n
      .ok (w, .rx l t (d.map rev) :: a)
    else if d.length = 0 then do
      let (w, a) ← connLost w
      .ok (w, .leak l t :: a)
    else .ok (w, [.leak l t])

/-- e1d.c:484-515 `handle_ts_raw_read` -/
def rawRead (w : W) (l t : Nat) (r : Option (List Byte)) : M (W × List Act) :=
  match readRes GRAN r with
  | none => connLost w
  | some d =>
    if d.length = GRAN then .ok (w, [.rx l t d])
    else if d.length = 0 then connLost w
    else .ok (w, [])

/-- e1d.c:548-574 `handle_ts_hdlc_read` -/
def hdlcRead (w : W) (l t : Nat) (r : Option (List Byte)) : M (W × List Act) :=
  match readRes HDLC_READ r with
  | some (b :: d) => .ok (w, [.rx l t (b :: d)])
  | _ => connLost w

/-- e1d.c:439-482 `handle_ts_raw_write`; `n`: what `write()` returns -/
def rawWrite (w : W) (l t : Nat) (n : Int) : M (W × List Act) :=
  match (w.ts l t).q with
  | [] => .ok (setTs w l t { w.ts l t with wr := false }, [])
  | m :: q => do
    let w := setTs w l t { w.ts l t with q := q }
    if n < m.length ∧ n ≤ 0 then do
      let (w, a) ← connLost w
      .ok (w, .write l t m n :: a ++ [.free l t m])
    else .ok (w, [.write l t m n, .free l t m])

/-- e1d.c:518-543 `handle_ts_hdlc_write` -/
def hdlcWrite (w : W) (l t : Nat) (n : Int) : M (W × List Act) :=
  match (w.ts l t).q with
  | [] => .ok (setTs w l t { w.ts l t with wr := false }, [])
  | m :: q => do
    let w := setTs w l t { w.ts l t with q := q }
    if n < m.length then do
      let (w, a) ← connLost w
      .ok (w, .write l t m n :: a ++ [.free l t m])
    else .ok (w, [.write l t m n, .free l t m])

/-- e1d.c:332-358 `handle_ts_sign_write`: what LAPD then sends is an operation of its own (`lapdTx`) -/
def signWrite (w : W) (l t : Nat) : M (W × List Act) := .ok (setTs w l t { w.ts l t with wr := false }, [])

/-- what the select loop finds for a descriptor, and what the calls in the event callback return -/
structure Ev where
  rd : Bool
  wr : Bool
  data : Option (List Byte)
  mux : List Byte
  n : Int
  deriving DecidableEq, Repr

/-- the reading part of the event callback, by type -/
def evRead (w : W) (l t : Nat) (e : Ev) : M (W × List Act) :=
  match (w.ts l t).ty with
  | .sign => signRead w l t e.data
  | .trau => trauRead w l t e.data e.mux e.n
  | .raw => rawRead w l t e.data
  | .hdlc => hdlcRead w l t e.data
  | .i460 => .ok (w, [])
  | .none => .ok (w, [])

/-- the writing part of the event callback, by type -/
def evWrite (w : W) (l t : Nat) (e : Ev) : M (W × List Act) :=
  match (w.ts l t).ty with
  | .sign => signWrite w l t
  | .raw => rawWrite w l t e.n
  | .hdlc => hdlcWrite w l t e.n
  | .trau => .ok (w, [])
  | .i460 => .ok (w, [])
  | .none => .ok (w, [])

/-- a part of the callback that is run or not -/
def opt (b : Bool) (w : W) (f : W → M (W × List Act)) : M (W × List Act) := if b then f w else .ok (w, [])

/-- e1d.c:597-641 `e1d_fd_cb` -/
def fdCb (w : W) (l t : Nat) (e : Ev) : M (W × List Act) :=
  if w.conn then do
    let (w, a) ← opt e.rd w (fun w => evRead w l t e)
    let (w, b) ← opt e.wr w (fun w => evWrite w l t e)
    .ok (w, a ++ b)
  else .ok (w, [])

/-- e1d.c:643-658 `e1d_want_write` -/
def wantWrite (w : W) (l t : Nat) : W :=
  if w.conn = false then w
  else if (w.ts l t).ty = .trau ∨ (w.ts l t).ty = .i460 then w
  else setTs w l t { w.ts l t with wr := true }

/-- e1_input.c:334-366 `e1inp_ts_send_raw`, `e1inp_ts_send_hdlc`: they abort if the type is another one -/
def send (w : W) (l t : Nat) (m : List Byte) : M (W × List Act) :=
  if (w.ts l t).ty = .raw ∨ (w.ts l t).ty = .hdlc then
    let w := wantWrite w l t
    .ok (setTs w l t { w.ts l t with q := (w.ts l t).q ++ [m] }, [])
  else .error .assert

/-- e1d.c:576-595 `e1d_write_msg`: LAPD sends a frame -/
def lapdTx (w : W) (l t : Nat) (d : List Byte) (n : Int) : M (W × List Act) :=
  if w.conn = false then .ok (w, [.lapd l t d none])
  else if n < 0 then do
    let (w, a) ← connLost w
    .ok (w, .lapd l t d (some n) :: a)
  else .ok (w, [.lapd l t d (some n)])

/-- e1_input.c:366-518 `e1inp_ts_config_*`: the messages of the queue are freed if the type changes -/
def config (w : W) (l t : Nat) (ty : Ty) : W × List Act :=
  if (w.ts l t).ty = ty then (w, [])
  else (setTs w l t { w.ts l t with ty := ty, q := [] }, (w.ts l t).q.map (.free l t))

inductive Op where
  | config (l t : Nat) (ty : Ty)
  | update (l : Nat) (ok : Bool)
  /-- the timer of the FSM expires (e1d.c:145-149) -/
  | timer (ok : Bool)
  /-- the select loop reports an event -/
  | event (l t : Nat) (e : Ev)
  | send (l t : Nat) (m : List Byte)
  | want (l t : Nat)
  | lapdTx (l t : Nat) (d : List Byte) (n : Int)
  deriving DecidableEq, Repr

/-- there are 256 lines with 31 time slots each -/
def Op.valid : Op → Bool
  | .config l t _ => decide (l < 256) && decide (t ∈ slots)
  | .update l _ => decide (l < 256)
  | .timer _ => true
  | .event l t _ => decide (l < 256) && decide (t ∈ slots)
  | .send l t _ => decide (l < 256) && decide (t ∈ slots)
  | .want l t => decide (l < 256) && decide (t ∈ slots)
  | .lapdTx l t _ _ => decide (l < 256) && decide (t ∈ slots)

/-- events are reported for registered descriptors only, write events only if they are enabled, and the timer expires only if it runs;
LAPD sends only if there is an instance -/
def step (E : Env) (w : W) : Op → M (W × List Act)
  | .config l t ty => .ok (config w l t ty)
  | .update l ok => (lineUpdate E w l ok).map (fun r => (r.1, r.2.1))
  | .timer ok => if w.timer then connect E { w with timer := false } ok else .ok (w, [])
  | .event l t e => if (w.ts l t).reg then fdCb w l t { e with wr := e.wr && (w.ts l t).wr } else .ok (w, [])
  | .send l t m => send w l t m
  | .want l t => .ok (wantWrite w l t, [])
  | .lapdTx l t d n => if (w.ts l t).lapd then lapdTx w l t d n else .ok (w, [])

def run (E : Env) (w : W) : List Op → M (W × List Act)
  | [] => .ok (w, [])
  | op :: ops => do
    let (w, a) ← step E w op
    let (w, b) ← run E w ops
    .ok (w, a ++ b)

/-! ### Alarms -/

/-- osmo-e1d's `enum osmo_e1dp_msg_type`, the events -/
inductive Alarm where
  | losOn | losOff | aisOn | aisOff | raiOn | raiOff | lofOn | lofOff | sabits | other
  deriving DecidableEq, Repr

/-- e1_input.h: the signals -/
inductive Sig where
  | los | nolos | ais | noais | rai | norai | lof | nolof | saBits
  deriving DecidableEq, Repr

/-- e1d.c:79-89 `e1inp_port_find`: `ports`: the line numbers and port numbers of all lines, whatever their driver, in the order of the
list -/
def portFind (ports : List (Nat × Nat)) (p : Nat) : Option Nat := (ports.find? (fun x => x.2 == p)).map (·.1)

/-- e1d.c:106-140: the signal, with the Sa bits -/
def sigOf (ev : Alarm) (data : List Byte) : Option (Sig × Byte) :=
  match ev with
  | .losOn => some (.los, 0)
  | .losOff => some (.nolos, 0)
  | .aisOn => some (.ais, 0)
  | .aisOff => some (.noais, 0)
  | .raiOn => some (.rai, 0)
  | .raiOff => some (.norai, 0)
  | .lofOn => some (.lof, 0)
  | .lofOff => some (.nolof, 0)
  | .sabits => data.head?.map (fun b => (.saBits, b))
  | .other => none

/-- e1d.c:91-143 `e1d_client_event_cb`: the line, the signal and the Sa bits; `(intf << 4) | line` is passed as `uint8_t` -/
def eventCb (ports : List (Nat × Nat)) (ev : Alarm) (intf line : Byte) (data : List Byte) : Option (Nat × Sig × Byte) :=
  match portFind ports ((intf <<< 4 ||| line).toNat) with
  | none => none
  | some l => (sigOf ev data).map (fun s => (l, s.1, s.2))

/-- e1d.c:667-668, 841-842: the interface and the line of a port -/
def intfOf (port : Byte) : Byte := (port >>> 4) &&& 0xf
def lineOf (port : Byte) : Byte := port &&& 0xf

end Verif.E1d
