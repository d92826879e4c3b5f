import Verif.Base
/-!
# Model of `src/input/dahdi.c`: the driver for DAHDI cards

The kernel driver is external: what it answers is given by `Env` (one answer per line update, and per time slot in it), or is part of
the operation (what is read, the result of `write()`, the events).  Each time slot has a state of its own (`Slot`); a line update goes
over the time slots of a line.

A descriptor field is the integer of the C code: 0 = not opened, negative = the error of a failed `open()`.  Signalling links
(`Verif.E1Input`), LAPD (`Verif.Lapd`) and multiplexers (`Verif.Mux`, `Verif.Demux`) are not repeated here: a signalling time slot has
one queue of messages for LAPD, and the operations say what LAPD and the multiplexers produce.  When the type of a time slot is changed, its signalling
links have been destroyed before, as the API demands (e1_input.c:370-372).

Not modelled: logging, allocation failures, `dahdi_vty_show` (it checks its index), the return values of the event callbacks.  Messages on HDLC time slots and LAPD frames have
room for two more octets (`msgb_put` aborts otherwise).
-/
namespace Verif.Dahdi

/-- internal.h:7 `D_BCHAN_TX_GRAN`, the size of a block -/
def GRAN : Nat := 160
/-- dahdi.c:177, 316: `TS1_ALLOC_SIZE - 16` -/
def READ_MAX : Nat := 284
/-- dahdi/user.h `DAHDI_MAX_SPANS`: the size of `span_cfgs[]` -/
def MAX_SPANS : Nat := 128
/-- e1_input.h:16 `NUM_E1_TS`: the size of `line->ts[]` -/
def NUM_TS : Nat := 32

/-- e1_input.h:70-78 `enum e1inp_ts_type` -/
inductive Ty where
  | none | sign | trau | raw | hdlc | i460
  deriving DecidableEq, Repr

/-- dahdi/user.h: the events of `DAHDI_GETEVENT` -/
inductive Evt where
  | alarm | noalarm | abort | overrun | badfcs | removed | other
  deriving DecidableEq, Repr

/-- a time slot: `fd` is `driver.dahdi.fd.fd`, `reg`: it is registered in the select loop, `wr`: its interest in write events, `lapd`: there is
a LAPD instance, `timer`: `sign.tx_timer` runs, `q`: the messages to be transmitted -/
structure Slot where
  ty : Ty
  fd : Int
  reg : Bool
  wr : Bool
  lapd : Bool
  timer : Bool
  q : List (List Byte)
  deriving DecidableEq, Repr

inductive Act where
  /-- a channel is opened: its number, and the descriptor -/
  | opened (chan : Nat) (fd : Int)
  | closed (fd : Int)
  /-- octets given to `write()` on a descriptor, and its result -/
  | write (fd : Int) (d : List Byte) (n : Int)
  /-- received octets are given to `e1inp_rx_ts()` or `e1inp_rx_ts_lapd()` -/
  | rx (d : List Byte)
  /-- a message of the queue is given to `lapd_transmit()` -/
  | toLapd (d : List Byte)
  /-- a message of the queue is freed -/
  | free (d : List Byte)
  /-- S_L_INP_LINE_ALARM (`true`) or S_L_INP_LINE_NOALARM (`false`) is dispatched -/
  | signal (up : Bool)
  /-- the counter of an event is incremented -/
  | count (e : Evt)
  deriving DecidableEq, Repr

/-- `talloc_zero()` of the line, e1_input.c:606 -/
def newSlot : Slot := ⟨.none, 0, false, false, false, false, []⟩

/-! ### Configuration of a time slot -/

/-- the answers to one time slot in a line update: the descriptor of `open()` with DAHDI_SPECIFY (`none`: one of them fails, and
nothing is open), the `ioctl()`s of `dahdi_set_bufinfo`, `osmo_fd_register` -/
structure Ans where
  fd : Option Int
  buf : Bool
  reg : Bool
  deriving DecidableEq, Repr

/-- dahdi.c:597-626 `dahdi_open_slot` and its uses dahdi.c:674-675, 692-693, 709-710: only if `fd` is 0 -/
def openSlot (s : Slot) (chan : Nat) (a : Ans) : Slot × List Act :=
  if s.fd = 0 then
    match a.fd with
    | some f => ({ s with fd := f }, [.opened chan f])
    | none => ({ s with fd := -EIO }, [])
  else (s, [])

/-- dahdi.c:723-731: `osmo_fd_register` -/
def regSlot (s : Slot) (a : Ans) : Slot × Option Int :=
  if s.fd < 0 then (s, some s.fd)
  else if a.reg then ({ s with reg := true }, none)
  else (s, some (-9))

/-- dahdi.c:661-672: a time slot without use; `close()` of a negative number does nothing -/
def updNone (s : Slot) : Slot × List Act :=
  ({ s with lapd := false, fd := 0 }, if 0 < s.fd then [.closed s.fd] else [])

/-- dahdi.c:673-690: signalling -/
def updSign (s : Slot) (chan : Nat) (a : Ans) : Slot × List Act × Option Int :=
  let o := openSlot s chan a
  if o.1.fd < 0 then (o.1, o.2, some (-EIO))
  else if a.buf = false then ({ o.1 with wr := false }, o.2, some (-EIO))
  else
    let r := regSlot { o.1 with wr := false, lapd := true } a
    (r.1, o.2, r.2)

/-- dahdi.c:691-700: HDLC; the LAPD instance of a former use stays -/
def updHdlc (s : Slot) (chan : Nat) (a : Ans) : Slot × List Act × Option Int :=
  let o := openSlot s chan a
  if o.1.fd < 0 then (o.1, o.2, some (-EIO))
  else if a.buf = false then ({ o.1 with wr := false }, o.2, some (-EIO))
  else
    let r := regSlot { o.1 with wr := false } a
    (r.1, o.2, r.2)

/-- dahdi.c:701-721: TRAU, I.460 and RAW -/
def updB (s : Slot) (chan : Nat) (a : Ans) : Slot × List Act × Option Int :=
  let o := openSlot { s with lapd := false } chan a
  if o.1.fd < 0 then (o.1, o.2, some (-EIO))
  else if a.buf = false then (o.1, o.2, some (-EIO))
  else
    let r := regSlot { o.1 with wr := false } a
    (r.1, o.2, r.2)

/-- dahdi.c:660-731: the second part of a round of the loop of `dahdi_e1_setup`, when the descriptor has been unregistered -/
def updBody (s : Slot) (chan : Nat) (a : Ans) : Slot × List Act × Option Int :=
  match s.ty with
  | .none => ((updNone s).1, (updNone s).2, none)
  | .sign => updSign s chan a
  | .hdlc => updHdlc s chan a
  | .trau => updB s chan a
  | .i460 => updB s chan a
  | .raw => updB s chan a

/-- dahdi.c:645-732: one round of the loop of `dahdi_e1_setup`; the result is the error with which it ends, if any; the descriptor is unregistered if
it was registered -/
def updSlot (s : Slot) (chan : Nat) (a : Ans) : Slot × List Act × Option Int := updBody { s with reg := false } chan a

/-! ### Events of a time slot -/

/-- dahdi.c:124-164 `handle_dahdi_exception`; `none`: DAHDI_GETEVENT fails -/
def exception : Option Evt → List Act
  | none => []
  | some .alarm => [.signal true, .count .alarm]
  | some .noalarm => [.signal false]
  | some .abort => [.count .abort]
  | some .overrun => [.count .overrun]
  | some .badfcs => [.count .badfcs]
  | some .removed => [.count .removed]
  | some .other => []

/-- the result of `write()` is -1: dahdi.c:239-240, 299-300 -/
def afterWrite (n : Int) (x : Option Evt) : List Act := if n = -1 then exception x else []

/-- what the select loop finds for a descriptor, and what the calls in the event callback return: `data`: what is read (`none`: -1), `mux`: what the
multiplexer of the time slot produces, `n`: the result of `write()`, `pad`: the two octets behind the message, `x1`, `x2`, `x3`: the events
that DAHDI_GETEVENT returns -/
structure Ev where
  ex : Bool
  rd : Bool
  wr : Bool
  data : Option (List Byte)
  mux : List Byte
  n : Int
  pad : Byte × Byte
  x1 : Option Evt
  x2 : Option Evt
  x3 : Option Evt
  deriving DecidableEq, Repr

/-- what `read()` returns: an error, or octets, not more than asked for -/
def readRes (max : Nat) (r : Option (List Byte)) : Option (List Byte) := r.map (fun d => d.take max)

/-- dahdi.c:166-194 `handle_ts1_read`: the last two octets are not passed on; without LAPD instance, a null pointer is followed
(lapd.c:381) -/
def signRead (s : Slot) (e : Ev) : M (Slot × List Act) :=
  match readRes READ_MAX e.data with
  | none => .ok (s, exception e.x2)
  | some d =>
    if d.length ≤ 3 then .ok (s, [])
    else if s.lapd then .ok (s, [.rx (d.take (d.length - 2))])
    else .error .badptr

/-- dahdi.c:305-333 `handle_hdlc_read` -/
def hdlcRead (s : Slot) (e : Ev) : M (Slot × List Act) :=
  match readRes READ_MAX e.data with
  | none => .ok (s, exception e.x2)
  | some d => if d.length ≤ 3 then .ok (s, []) else .ok (s, [.rx (d.take (d.length - 2))])

/-- dahdi.c:245-271 `handle_ts1_write` -/
def signWrite (s : Slot) : M (Slot × List Act) :=
  match s.q with
  | [] => .ok ({ s with wr := false }, [])
  | m :: q => if s.lapd then .ok ({ s with wr := false, q := q, timer := true }, [.toLapd m]) else .error .badptr

/-- dahdi.c:273-303 `handle_hdlc_write`: two octets for the FCS are added -/
def hdlcWrite (s : Slot) (e : Ev) : Slot × List Act :=
  match s.q with
  | [] => ({ s with wr := false }, [])
  | m :: q => ({ s with q := q }, .write s.fd (m ++ [e.pad.1, e.pad.2]) e.n :: .free m :: afterWrite e.n e.x3)

/-- libosmocore `osmo_revbytebits_8`: the bits of an octet in the reverse order -/
def rev (b : Byte) : Byte := BitVec.ofNat 8 ((List.range 8).foldl (fun s i => s + (if b.getLsbD i then 2 ^ (7 - i) else 0)) 0)

/-- dahdi.c:338-366 `handle_tsX_write` -/
def trauWrite (s : Slot) (e : Ev) : Slot × List Act := (s, [.write s.fd (e.mux.map rev) e.n])

/-- dahdi.c:370-401 `handle_tsX_read` -/
def trauRead (s : Slot) (e : Ev) : Slot × List Act :=
  match readRes GRAN e.data with
  | none => (s, [])
  | some d => if d.length = GRAN then ((trauWrite s e).1, .rx (d.map rev) :: (trauWrite s e).2) else (s, [])

/-- dahdi.c:404-438 `handle_ts_raw_write` for a time slot of type RAW -/
def rawWrite (s : Slot) (e : Ev) : Slot × List Act :=
  match s.q with
  | [] => ({ s with wr := false }, [])
  | m :: q => ({ s with q := q }, [.write s.fd m e.n, .free m])

/-- dahdi.c:404-438 `handle_ts_raw_write` for a time slot of type I.460 (e1_input.c:1016-1022) -/
def i460Write (s : Slot) (e : Ev) : Slot × List Act := (s, [.write s.fd e.mux e.n])

/-- dahdi.c:440-471 `handle_ts_raw_read`, for RAW -/
def rawRead (s : Slot) (e : Ev) : Slot × List Act :=
  match readRes GRAN e.data with
  | none => (s, [])
  | some d => if d.length = GRAN then ((rawWrite s e).1, .rx d :: (rawWrite s e).2) else (s, [])

/-- dahdi.c:440-471 `handle_ts_raw_read`, for I.460 -/
def i460Read (s : Slot) (e : Ev) : Slot × List Act :=
  match readRes GRAN e.data with
  | none => (s, [])
  | some d => if d.length = GRAN then ((i460Write s e).1, .rx d :: (i460Write s e).2) else (s, [])

/-- the reading part of `dahdi_fd_cb` -/
def evRead (s : Slot) (e : Ev) : M (Slot × List Act) :=
  match s.ty with
  | .none => .ok (s, [])
  | .sign => signRead s e
  | .hdlc => hdlcRead s e
  | .trau => .ok (trauRead s e)
  | .i460 => .ok (i460Read s e)
  | .raw => .ok (rawRead s e)

/-- the writing part of `dahdi_fd_cb` -/
def evWrite (s : Slot) (e : Ev) : M (Slot × List Act) :=
  match s.ty with
  | .none => .ok (s, [])
  | .sign => signWrite s
  | .hdlc => .ok (hdlcWrite s e)
  | .trau => .ok (trauWrite s e)
  | .i460 => .ok (i460Write s e)
  | .raw => .ok (rawWrite s e)

/-- a part of the callback that is run or not -/
def opt (b : Bool) (s : Slot) (f : Slot → M (Slot × List Act)) : M (Slot × List Act) := if b then f s else .ok (s, [])

/-- dahdi.c:474-528 `dahdi_fd_cb` -/
def fdCb (s : Slot) (e : Ev) : M (Slot × List Act) := do
  let x := if e.ex && decide (s.ty ≠ Ty.none) then exception e.x1 else []
  let (s, a) ← opt e.rd s (fun s => evRead s e)
  let (s, b) ← opt e.wr s (fun s => evWrite s e)
  .ok (s, x ++ a ++ b)

/-- dahdi.c:196-210 `ts_want_write` -/
def wantWrite (s : Slot) : Slot := if s.ty = .trau ∨ s.ty = .i460 then s else { s with wr := true }

/-- e1_input.c:294-327 `abis_sendmsg`, 334-366 `e1inp_ts_send_raw`, `e1inp_ts_send_hdlc`: they abort if the type is another one -/
def send (s : Slot) (m : List Byte) : M (Slot × List Act) :=
  match s.ty with
  | .sign => .ok ({ (if s.timer then s else wantWrite s) with q := s.q ++ [m] }, [])
  | .raw => .ok ({ wantWrite s with q := s.q ++ [m] }, [])
  | .hdlc => .ok ({ wantWrite s with q := s.q ++ [m] }, [])
  | .none => .error .assert
  | .trau => .error .assert
  | .i460 => .error .assert

/-- dahdi.c:212-218 `timeout_ts1_write` -/
def timeout (s : Slot) : Slot := wantWrite { s with timer := false }

/-- dahdi.c:220-243 `dahdi_write_msg`: LAPD sends a frame -/
def lapdTx (s : Slot) (d : List Byte) (n : Int) (pad : Byte × Byte) (x : Option Evt) : List Act :=
  .write s.fd (d ++ [pad.1, pad.2]) n :: afterWrite n x

/-- e1_input.c:368-518 `e1inp_ts_config_*`: if the type changes, the messages of the queue are freed and the timer does not run (of
signalling: since the links have been destroyed, e1_input.c:825-831) -/
def config (s : Slot) (ty : Ty) : Slot × List Act :=
  if s.ty = ty then (s, []) else ({ s with ty := ty, q := [], timer := false }, s.q.map .free)

/-! ### Lines -/

/-- dahdi.c:62: `span_cfgs[]`, the first channel and the number of channels -/
abbrev Cache := Nat → Option (Nat × Nat)

def Cache.set (c : Cache) (i : Nat) (x : Option (Nat × Nat)) : Cache := fun j => if j = i then x else c j

/-- dahdi.c:77-105: the loop of `reread_span_cfgs`, `k` rounds from `span` on; `tot`: the answer of DAHDI_SPANSTAT (`none`: there is no such
span) -/
def reread (tot : Nat → Option Nat) : (k span base : Nat) → Cache → Cache
  | 0, _, _, c => c
  | k + 1, span, base, c =>
    match tot span with
    | none => reread tot k (span + 1) base (c.set (span - 1) none)
    | some n => reread tot k (span + 1) (base + n) (c.set (span - 1) (some (base, n)))

/-- `cache`: `span_cfgs[]`, `port`: the port numbers of the lines, `gone`: the line was freed, `s`: the time slots, numbered from 1;
`upd`: number of line updates so far (selects the answers) -/
structure W where
  cache : Cache
  port : Nat → Nat
  gone : Nat → Bool
  s : Nat → Nat → Slot
  upd : Nat

/-- the answers of the kernel to the `n`-th update: DAHDI_SPANSTAT (`none`: the control device cannot be opened), and to a time slot -/
structure Env where
  ctl : Nat → Option (Nat → Option Nat)
  ans : Nat → Nat → Ans

def init : W := ⟨fun _ => none, fun _ => 0, fun _ => false, fun _ _ => newSlot, 0⟩

def setS (w : W) (l t : Nat) (x : Slot) : W := { w with s := fun a b => if a = l ∧ b = t then x else w.s a b }

/-- an action of a time slot of a line -/
abbrev Acts := List ((Nat × Nat) × Act)

def tag (l t : Nat) (a : List Act) : Acts := a.map (fun x => ((l, t), x))

/-- dahdi.c:645-732: the loop of `dahdi_e1_setup`, `k` rounds from time slot `t` on -/
def updTs (E : Env) (n : Nat) (l base : Nat) : (k t : Nat) → W → M (W × Acts × Int)
  | 0, _, w => .ok (w, [], 0)
  | k + 1, t, w =>
    if NUM_TS < t then .error .oob
    else
      let r := updSlot (w.s l t) (base + (t - 1)) (E.ans n t)
      match r.2.2 with
      | some rc => .ok (setS w l t r.1, tag l t r.2.1, rc)
      | none => do
        let (w, b, rc) ← updTs E n l base k (t + 1) (setS w l t r.1)
        .ok (w, tag l t r.2.1 ++ b, rc)

/-- dahdi.c:64-110: `reread_span_cfgs`; if the control device cannot be opened, nothing is changed -/
def rereadCfg (E : Env) (w : W) : W :=
  match E.ctl w.upd with
  | none => { w with upd := w.upd + 1 }
  | some tot => { w with upd := w.upd + 1, cache := reread tot (MAX_SPANS - 1) 1 1 w.cache }

/-- dahdi.c:628-743 `dahdi_e1_setup`, `dahdi_e1_line_update` -/
def lineUpdate (E : Env) (w : W) (l : Nat) : M (W × Acts × Int) :=
  let w' := rereadCfg E w
  if MAX_SPANS ≤ w'.port l then .error .oob
  else
    match w'.cache (w'.port l) with
    | none => .ok (w', [], -EIO)
    | some (base, num) => updTs E w.upd l base num 1 w'

inductive Op where
  | port (l p : Nat)
  | config (l t : Nat) (ty : Ty)
  | update (l : Nat)
  /-- the select loop reports an event -/
  | event (l t : Nat) (e : Ev)
  | send (l t : Nat) (m : List Byte)
  /-- the timer of a signalling time slot expires -/
  | timeout (l t : Nat)
  | lapdTx (l t : Nat) (d : List Byte) (n : Int) (pad : Byte × Byte) (x : Option Evt)
  /-- the last reference to a line is dropped: it is freed (e1_input.c:530-572); the driver is not told -/
  | release (l : Nat)
  deriving DecidableEq, Repr

/-- the result of an operation on a time slot -/
def onSlot (w : W) (l t : Nat) (r : M (Slot × List Act)) : M (W × Acts) := do
  let (s, a) ← r
  .ok (setS w l t s, tag l t a)

/-- events are reported for registered descriptors only, write events only if they are enabled, and the timer expires only if it runs, LAPD sends
only if there is an instance; all of them use the line -/
def step (E : Env) (w : W) : Op → M (W × Acts)
  | .port l p => .ok ({ w with port := fun a => if a = l then p else w.port a }, [])
  | .config l t ty => onSlot w l t (.ok (config (w.s l t) ty))
  | .update l => (lineUpdate E w l).map (fun r => (r.1, r.2.1))
  | .event l t e =>
    if (w.s l t).reg then
      if w.gone l then .error .badptr else onSlot w l t (fdCb (w.s l t) { e with wr := e.wr && (w.s l t).wr })
    else .ok (w, [])
  | .send l t m => onSlot w l t (send (w.s l t) m)
  | .timeout l t =>
    if (w.s l t).timer then
      if w.gone l then .error .badptr else onSlot w l t (.ok (timeout (w.s l t), []))
    else .ok (w, [])
  | .lapdTx l t d n pad x =>
    if (w.s l t).lapd then
      if w.gone l then .error .badptr else onSlot w l t (.ok (w.s l t, lapdTx (w.s l t) d n pad x))
    else .ok (w, [])
  | .release l => .ok ({ w with gone := fun a => if a = l then true else w.gone a }, [])

def run (E : Env) (w : W) : List Op → M (W × Acts)
  | [] => .ok (w, [])
  | op :: ops => do
    let (w, a) ← step E w op
    let (w, b) ← run E w ops
    .ok (w, a ++ b)

end Verif.Dahdi
