import Verif.Base
/-!
# Model of `src/input/misdn.c`: the driver for mISDN cards, with LAPD in the kernel or in this library

The kernel is external: its answers to a line update are given by `Env`, everything else (what is received, the results of `send()`) is
part of the operation.  The state of each time slot is a `Slot`, that of a line a `Line`.  Numbers in messages have the byte order of the host, here
little endian.  Memory of new messages is filled with zeros (libosmocore `msgb_alloc`), `msgb_pull` does not check the length.

LAPD (`Verif.Lapd`), multiplexers (`Verif.Mux`) and the queues of signalling links (`Verif.E1Input`) are not repeated here: a time slot has one
queue of messages, each with the address of its link, and operations say what LAPD and the multiplexer produce.  When the type of a
time slot is changed, its signalling links have been destroyed before, as the API demands (e1_input.c:370-372).

Not modelled: logging (and what it reads), allocation failures, the return values of the event callbacks, the `id` of the header of a signalling frame
and the `tei` of its address, which are sent without having been set (misdn.c:366-381).
-/
namespace Verif.Misdn

/-- e1_input.h:70-78 `enum e1inp_ts_type` -/
inductive Ty where
  | none | sign | trau | raw | hdlc | i460
  deriving DecidableEq, Repr

/-- mISDNif.h:205-230: the protocols of the sockets that are used -/
inductive Proto where
  | ntE1 | lapdNt | bRaw | bHdlc
  deriving DecidableEq, Repr

/-- a message to be transmitted: the address of its signalling link, the octets of free space before the data, and the data -/
structure Msg where
  tei : Nat
  sapi : Nat
  room : Nat
  d : List Byte
  deriving DecidableEq, Repr

/-- a signalling link, with the channel the kernel assigned to it -/
structure Link where
  tei : Nat
  sapi : Nat
  chan : Nat
  deriving DecidableEq, Repr

/-- a time slot: `ty`: its configured type, `cur`: the type it was last set up for (`type_ts[]`), `fd`: the descriptor, `reg`: it is registered in the
select loop, `wr`: its interest in write events, `lapd`: there is a LAPD instance, `timer`: `sign.tx_timer` runs, `unconf`: `unconfirmed_ts[]` -/
structure Slot where
  ty : Ty
  cur : Ty
  fd : Int
  reg : Bool
  wr : Bool
  lapd : Bool
  timer : Bool
  unconf : Bool
  q : List Msg
  links : List Link
  deriving DecidableEq, Repr

/-- e1_input.h: the signals of a line -/
inductive Sig where
  | alarm | noalarm | los | nolos | ais | noais | rai | norai
  | sa (bits : Nat)
  deriving DecidableEq, Repr

/-- misdn.c:71-77 `struct misdn_line` (the fields of the line), its port, and whether the line was freed -/
structure Line where
  port : Nat
  gone : Bool
  los : Bool
  ais : Bool
  rai : Bool
  dummy : Int
  deriving DecidableEq, Repr

inductive Act where
  | socket (p : Proto) (fd : Int)
  /-- a socket is bound to a device and channel -/
  | bind (fd : Int) (dev chan : Nat)
  /-- PH_ACTIVATE_REQ is sent -/
  | activate (fd : Int)
  | closed (fd : Int)
  /-- octets sent on a descriptor, and the result -/
  | send (fd : Int) (d : List Byte) (n : Int)
  /-- a signalling frame is sent to a channel -/
  | sendTo (fd : Int) (chan : Nat) (d : List Byte) (n : Int)
  /-- received octets are given to `e1inp_rx_ts()` of a TRAU, raw or HDLC time slot -/
  | rx (d : List Byte)
  /-- a signalling message is given to the link -/
  | rxLink (tei sapi : Nat) (d : List Byte)
  /-- a frame is given to LAPD -/
  | rxLapd (d : List Byte)
  /-- a message of the queue is given to `lapd_transmit()` -/
  | toLapd (m : Msg)
  | free (m : Msg)
  /-- a buffer for reading is neither passed on nor freed -/
  | leak
  /-- S_L_INP_TEI_UP, S_L_INP_TEI_DN of a link -/
  | up (tei sapi : Nat)
  | down (tei sapi : Nat)
  | signal (s : Sig)
  deriving DecidableEq, Repr

/-! ### Headers -/

/-- octet `i`, or 0 behind the end (the buffer was filled with zeros) -/
def at0 (d : List Byte) (i : Nat) : Nat := (d.getD i 0).toNat
/-- a 32 bit number at a position -/
def rd32 (d : List Byte) (i : Nat) : Nat := at0 d i + 256 * at0 d (i + 1) + 65536 * at0 d (i + 2) + 16777216 * at0 d (i + 3)
/-- the octets of a 32 bit number -/
def wr32 (n : Nat) : List Byte := [BitVec.ofNat 8 n, BitVec.ofNat 8 (n / 256), BitVec.ofNat 8 (n / 65536), BitVec.ofNat 8 (n / 16777216)]

/-- mISDNif.h:249, 253-256: `struct mISDNhead` has two 32 bit numbers -/
def HLEN : Nat := 8

/- mISDNif.h:75-111 -/
def PH_ACTIVATE_REQ : Nat := 0x0101
def PH_DATA_REQ : Nat := 0x2001
def MPH_INFORMATION_REQ : Nat := 0x0701
def PH_ACTIVATE_IND : Nat := 0x0102
def PH_DEACTIVATE_IND : Nat := 0x0202
def PH_DATA_IND : Nat := 0x2002
def MPH_INFORMATION_IND : Nat := 0x0702
def PH_DATA_CNF : Nat := 0x6002
def DL_DATA_REQ : Nat := 0x3004
def DL_ESTABLISH_IND : Nat := 0x1008
def DL_RELEASE_IND : Nat := 0x1108
def DL_DATA_IND : Nat := 0x3008
def DL_UNITDATA_IND : Nat := 0x3108
def DL_INFORMATION_IND : Nat := 0x0008

/-- a header -/
def head (prim id : Nat) : List Byte := wr32 prim ++ wr32 id

/-! ### Alarms -/

def Line.alarm (x : Line) : Bool := x.los || x.ais || x.rai

/-- misdn.c:152-160: the signals for a change of the state of all alarms -/
def alarmChange (a b : Bool) : List Act := (if !a && b then [.signal .alarm] else []) ++ (if a && !b then [.signal .noalarm] else [])

/-- misdn.c:96-163 `mph_information_ind`; mISDNif.h:188-197 -/
def mph (x : Line) (info : Nat) : Line × List Act :=
  if info / 256 = 1 then (x, [.signal (.sa (info % 256))])
  else if info = 0x10 then ({ x with los := false }, .signal .nolos :: alarmChange x.alarm { x with los := false : Line }.alarm)
  else if info = 0x11 then ({ x with los := true }, .signal .los :: alarmChange x.alarm { x with los := true : Line }.alarm)
  else if info = 0x12 then ({ x with ais := false }, .signal .noais :: alarmChange x.alarm { x with ais := false : Line }.alarm)
  else if info = 0x13 then ({ x with ais := true }, .signal .ais :: alarmChange x.alarm { x with ais := true : Line }.alarm)
  else if info = 0x14 then ({ x with rai := false }, .signal .norai :: alarmChange x.alarm { x with rai := false : Line }.alarm)
  else if info = 0x15 then ({ x with rai := true }, .signal .rai :: alarmChange x.alarm { x with rai := true : Line }.alarm)
  else (x, [])

/-! ### Events -/

/-- what the select loop finds, and what the calls in the callback return: `data`: what is received (`none`: -1), `addr`: the size of the address is right, `tei`, `sapi`, `chan`: the
address, `mux`: the octets the multiplexer produces, `n`: the result of sending -/
structure Ev where
  rd : Bool
  wr : Bool
  data : Option (List Byte)
  addr : Bool
  tei : Nat
  sapi : Nat
  chan : Nat
  mux : Nat → Byte
  n : Int

/-- e1_input.c:766-779 `e1inp_lookup_sign_link` -/
def findLink (ls : List Link) (tei sapi : Nat) : Option Link := ls.find? (fun k => k.tei = tei ∧ k.sapi = sapi)

/-- `link->driver.misdn.channel = ...` of the link that is found -/
def setChan : List Link → (tei sapi c : Nat) → List Link
  | [], _, _, _ => []
  | k :: ls, tei, sapi, c => if k.tei = tei ∧ k.sapi = sapi then { k with chan := c } :: ls else k :: setChan ls tei sapi c

/-- the result of a callback -/
abbrev Res := Line × Slot × List Act

/-- misdn.c:207-221: DL_INFORMATION_IND -/
def dlInfo (x : Line) (s : Slot) (e : Ev) : Res := (x, { s with links := setChan s.links e.tei e.sapi e.chan }, [])

/-- misdn.c:222-238: DL_ESTABLISH_IND -/
def dlEst (x : Line) (s : Slot) (e : Ev) : Res :=
  match findLink s.links e.tei e.sapi with
  | none => (x, s, [])
  | some _ => (x, { s with links := setChan s.links e.tei e.sapi e.chan }, [.up e.tei e.sapi])

/-- misdn.c:239-244: DL_RELEASE_IND, e1_input.c:1047-1055 -/
def dlRel (x : Line) (s : Slot) (e : Ev) : Res :=
  match findLink s.links e.tei e.sapi with
  | none => (x, s, [])
  | some _ => (x, s, [.down e.tei e.sapi])

/-- misdn.c:245-255: DL_DATA_IND, DL_UNITDATA_IND, e1_input.c:848-872 -/
def dlData (ul : Bool) (x : Line) (s : Slot) (e : Ev) (d : List Byte) : M Res :=
  if d.length < HLEN then .error .oob
  else if ul then .ok (x, s, [])
  else match findLink s.links e.tei e.sapi with
    | none => .ok (x, s, [])
    | some _ => .ok (x, s, [.rxLink e.tei e.sapi (d.drop HLEN)])

/-- misdn.c:266-276: PH_DATA_IND; without LAPD instance, a null pointer is followed -/
def phData (ul : Bool) (x : Line) (s : Slot) (d : List Byte) : M Res :=
  if ul = false then .ok (x, s, [.leak])
  else if d.length < HLEN then .error .oob
  else if s.lapd then .ok (x, s, [.rxLapd (d.drop HLEN)])
  else .error .badptr

/-- MPH_INFORMATION_IND, misdn.c:277-283, 663-668 -/
def mphInd (x : Line) (s : Slot) (d : List Byte) : Res := ((mph x (rd32 d HLEN)).1, s, (mph x (rd32 d HLEN)).2)

/-- misdn.c:165-289 `handle_ts1_read` -/
def signRead (ul : Bool) (x : Line) (s : Slot) (e : Ev) : M Res :=
  match e.data.map (fun d => d.take 300) with
  | none => .ok (x, s, [])
  | some d =>
    if e.addr = false then .ok (x, s, [])
    else if rd32 d 0 = DL_INFORMATION_IND then .ok (dlInfo x s e)
    else if rd32 d 0 = DL_ESTABLISH_IND then .ok (dlEst x s e)
    else if rd32 d 0 = DL_RELEASE_IND then .ok (dlRel x s e)
    else if rd32 d 0 = DL_DATA_IND ∨ rd32 d 0 = DL_UNITDATA_IND then dlData ul x s e d
    else if rd32 d 0 = PH_DATA_IND then phData ul x s d
    else if rd32 d 0 = MPH_INFORMATION_IND then .ok (mphInd x s d)
    else .ok (x, s, [])

/-- `msgb_push` of the header: it aborts if there is not enough room -/
def push (m : Msg) (h : List Byte) : M (List Byte) := if m.room < HLEN then .error .assert else .ok (h ++ m.d)

/-- the channel of a link -/
def chanOf (ls : List Link) (tei sapi : Nat) : Nat := ((findLink ls tei sapi).map (·.chan)).getD 0

/-- misdn.c:335-394 `handle_ts1_write` -/
def signWrite (ul : Bool) (s : Slot) (e : Ev) : M (Slot × List Act) :=
  match s.q with
  | [] => .ok ({ s with wr := false }, [])
  | m :: q =>
    if ul then (if s.lapd then .ok ({ s with wr := false, q := q, timer := true }, [.toLapd m]) else .error .badptr)
    else do
      let d ← push m (head DL_DATA_REQ 0)
      .ok ({ s with wr := false, q := q, timer := true }, [.sendTo s.fd (chanOf s.links m.tei m.sapi) d e.n, .free m])

/-- misdn.c:421-444 `handle_tsX_write` -/
def trauWrite (s : Slot) (e : Ev) (len : Nat) : List Act := [.send s.fd (head PH_DATA_REQ 0 ++ (List.range len).map e.mux) e.n]

/-- misdn.c:448-493 `handle_tsX_read` -/
def trauRead (x : Line) (s : Slot) (e : Ev) : M Res :=
  match e.data.map (fun d => d.take 4096) with
  | none => .ok (x, s, [.leak])
  | some d =>
    if rd32 d 0 = PH_DATA_IND then
      if d.length < HLEN then .error .oob
      else .ok (x, s, trauWrite s e (d.length - HLEN) ++ [.rx (d.drop HLEN)])
    else .ok (x, s, [])

/-- libosmocore `osmo_revbytebits_8` -/
def rev (b : Byte) : Byte := BitVec.ofNat 8 ((List.range 8).foldl (fun s i => s + (if b.getLsbD i then 2 ^ (7 - i) else 0)) 0)

/-- misdn.c:496-532 `handle_ts_raw_write` (`f`: the reversal of the bits), 585-620 `handle_ts_hdlc_write` -/
def bWrite (f : Byte → Byte) (s : Slot) (e : Ev) : M (Slot × List Act) :=
  if s.unconf then .ok ({ s with wr := false }, [])
  else match s.q with
    | [] => .ok ({ s with wr := false }, [])
    | m :: q => do
      let d ← push { m with d := m.d.map f } (head PH_DATA_REQ 0)
      .ok ({ s with wr := false, q := q, unconf := !decide (e.n < d.length) }, [.send s.fd d e.n, .free m])

/-- misdn.c:571-574, 659-662: PH_DATA_CNF -/
def confirm (s : Slot) : Slot := { s with unconf := false, wr := true }

/-- misdn.c:534-582 `handle_ts_raw_read` -/
def rawRead (x : Line) (s : Slot) (e : Ev) : M Res :=
  match e.data.map (fun d => d.take 4096) with
  | none => .ok (x, s, [.leak])
  | some d =>
    if rd32 d 0 = PH_DATA_IND then (if d.length < HLEN then .error .oob else .ok (x, s, [.rx ((d.drop HLEN).map rev)]))
    else if rd32 d 0 = PH_DATA_CNF then .ok (x, confirm s, [])
    else .ok (x, s, [])

/-- misdn.c:622-676 `handle_ts_hdlc_read` -/
def hdlcRead (x : Line) (s : Slot) (e : Ev) : M Res :=
  match e.data.map (fun d => d.take 4096) with
  | none => .ok (x, s, [.leak])
  | some d =>
    if rd32 d 0 = PH_DATA_IND then (if d.length < HLEN then .error .oob else .ok (x, s, [.rx (d.drop HLEN)]))
    else if rd32 d 0 = PH_DATA_CNF then .ok (x, confirm s, [])
    else if rd32 d 0 = MPH_INFORMATION_IND then .ok (mphInd x s d)
    else .ok (x, s, [])

/-- the reading part of `misdn_fd_cb` -/
def evRead (ul : Bool) (x : Line) (s : Slot) (e : Ev) : M Res :=
  match s.ty with
  | .sign => signRead ul x s e
  | .trau => trauRead x s e
  | .raw => rawRead x s e
  | .hdlc => hdlcRead x s e
  | .none => .ok (x, s, [])
  | .i460 => .ok (x, s, [])

/-- the writing part of `misdn_fd_cb` -/
def evWrite (ul : Bool) (s : Slot) (e : Ev) : M (Slot × List Act) :=
  match s.ty with
  | .sign => signWrite ul s e
  | .raw => bWrite rev s e
  | .hdlc => bWrite id s e
  | .trau => .ok (s, [])
  | .none => .ok (s, [])
  | .i460 => .ok (s, [])

def optR (b : Bool) (x : Line) (s : Slot) (f : Line → Slot → M Res) : M Res := if b then f x s else .ok (x, s, [])
def optW (b : Bool) (s : Slot) (f : Slot → M (Slot × List Act)) : M (Slot × List Act) := if b then f s else .ok (s, [])

/-- misdn.c:679-719 `misdn_fd_cb` -/
def fdCb (ul : Bool) (x : Line) (s : Slot) (e : Ev) : M Res := do
  let (x, s, a) ← optR e.rd x s (fun x s => evRead ul x s e)
  let (s, b) ← optW e.wr s (fun s => evWrite ul s e)
  .ok (x, s, a ++ b)

/-- misdn.c:291-303 `ts_want_write` -/
def wantWrite (s : Slot) : Slot := if s.ty = .trau ∨ s.ty = .i460 then s else { s with wr := true }

/-- e1_input.c:294-327 `abis_sendmsg`, 334-366 `e1inp_ts_send_raw`, `e1inp_ts_send_hdlc`: they abort if the type is another one -/
def send (s : Slot) (m : Msg) : M (Slot × List Act) :=
  match s.ty with
  | .sign => .ok ({ (if s.timer then s else wantWrite s) with q := s.q ++ [m] }, [])
  | .raw => .ok ({ wantWrite s with q := s.q ++ [m] }, [])
  | .hdlc => .ok ({ wantWrite s with q := s.q ++ [m] }, [])
  | .none => .error .assert
  | .trau => .error .assert
  | .i460 => .error .assert

/-- misdn.c:327-333 `timeout_ts1_write` -/
def timeout (s : Slot) : Slot := wantWrite { s with timer := false }

/-- misdn.c:397-418 `misdn_write_msg`: LAPD sends a frame -/
def lapdTx (s : Slot) (m : Msg) (n : Int) : M (Slot × List Act) := do
  let d ← push m (head PH_DATA_REQ 0)
  .ok (s, [.send s.fd d n])

/-- misdn.c:305-325 `set_sa_bits` (the argument is the time slot 16) -/
def saBits (s : Slot) (b : Byte) (n : Int) : List Act := [.send s.fd (head MPH_INFORMATION_REQ 32575 ++ wr32 (256 + b.toNat)) n]

/-- e1_input.c:368-518 `e1inp_ts_config_*`: if the type changes, the messages of the queue are freed and the timer does not run; the links
have been destroyed -/
def config (s : Slot) (ty : Ty) : Slot × List Act :=
  if s.ty = ty then (s, []) else ({ s with ty := ty, q := [], timer := false, links := [] }, s.q.map .free)

/-- e1_input.c:781-807 `e1inp_sign_link_create`: memory filled with zeros; for signalling time slots only -/
def addLink (s : Slot) (tei sapi : Nat) : Slot := if s.ty = .sign then { s with links := s.links ++ [⟨tei, sapi, 0⟩] } else s

/-! ### Configuration -/

/-- the answers to one time slot in a line update: the result of `socket()`, whether `bind()`, IMCLEAR_L2 and `osmo_fd_register` succeed -/
structure Ans where
  fd : Int
  bind : Bool
  clear : Bool
  reg : Bool
  deriving DecidableEq, Repr

/-- misdn.c:844-869: the protocol of the socket -/
def proto (ul : Bool) (t : Nat) : Ty → Proto
  | .hdlc => if t = 16 then .ntE1 else .bHdlc
  | .sign => if ul then .bHdlc else .lapdNt
  | _ => .bRaw

/-- misdn.c:877-907: the channel it is bound to; 0 for I.460 since the address was filled with zeros -/
def channel (ul : Bool) (t : Nat) : Ty → Nat
  | .sign => if ul then t else 0
  | .i460 => 0
  | .none => 0
  | _ => if t = 16 then 0 else t

/-- misdn.c:822-842: the former use of the time slot ends; `close()` of a negative number does nothing -/
def tearDown (s : Slot) : Slot × List Act :=
  ({ s with reg := false, lapd := false, fd := 0, unconf := false, cur := s.ty }, if 0 < s.fd then [.closed s.fd] else [])

/-- misdn.c:917-937: after `bind()` -/
def finish (ul : Bool) (s : Slot) (a : Ans) : Slot × List Act × Option Int :=
  if s.ty = .sign ∧ ul = false then
    if a.clear = false then (s, [], some (-EIO))
    else if a.reg then ({ s with wr := false, reg := true }, [], none) else ({ s with wr := false }, [], some (-9))
  else if a.reg then ({ s with wr := false, reg := true }, [.activate s.fd], none) else ({ s with wr := false }, [.activate s.fd], some (-9))

/-- misdn.c:843-937: a new socket -/
def setUp (ul : Bool) (dev t : Nat) (s : Slot) (a : Ans) : Slot × List Act × Option Int :=
  if a.fd < 0 then ({ s with fd := a.fd }, [], some a.fd)
  else
    let s := { s with fd := a.fd, lapd := decide (s.ty = .sign) && ul }
    if a.bind = false then (s, [.socket (proto ul t s.ty) a.fd], some (-EIO))
    else
      let r := finish ul s a
      (r.1, .socket (proto ul t s.ty) a.fd :: .bind a.fd dev (channel ul t s.ty) :: r.2.1, r.2.2)

/-- misdn.c:809-938: one round of the loop of `mi_e1_setup`; the result is the error with which it ends, if any -/
def updSlot (ul : Bool) (dev t : Nat) (s : Slot) (a : Ans) : Slot × List Act × Option Int :=
  if s.cur = s.ty then (s, [], none)
  else if s.ty = .none then ((tearDown s).1, (tearDown s).2, none)
  else
    let r := setUp ul dev t (tearDown s).1 a
    (r.1, (tearDown s).2 ++ r.2.1, r.2.2)

/-- the answers of the kernel to the `n`-th update: `card`: the error that is returned if the card does not exist or is not an E1 card, `dummy`: the
descriptor of the D-channel, and whether `bind()` succeeds -/
structure Env where
  card : Nat → Option Int
  dummy : Nat → Int × Bool
  ans : Nat → Nat → Ans

/-- `ul`: the lines with LAPD in this library (driver `misdn_lapd`); `upd`: number of line updates so far (selects the answers) -/
structure W where
  ul : Nat → Bool
  line : Nat → Line
  s : Nat → Nat → Slot
  upd : Nat

def newSlot : Slot := ⟨.none, .none, 0, false, false, false, false, false, [], []⟩
def newLine : Line := ⟨0, false, false, false, false, 0⟩
def init (ul : Nat → Bool) : W := ⟨ul, fun _ => newLine, fun _ _ => newSlot, 0⟩

def setS (w : W) (l t : Nat) (x : Slot) : W := { w with s := fun a b => if a = l ∧ b = t then x else w.s a b }
def setL (w : W) (l : Nat) (x : Line) : W := { w with line := fun a => if a = l then x else w.line a }

/-- an action of a time slot of a line; those of the D-channel have number 0 -/
abbrev Acts := List ((Nat × Nat) × Act)

def tag (l t : Nat) (a : List Act) : Acts := a.map (fun x => ((l, t), x))

/-- e1_input.c:634: time slots 1 to 31 -/
def slots : List Nat := (List.range 31).map (· + 1)

/-- misdn.c:765-804: the D-channel that is needed for time slots with LAPD in this library; the result is the error with which the update ends, if any -/
def dummyCh (E : Env) (n : Nat) (ul : Bool) (sign : Bool) (x : Line) : Line × List Act × Option Int :=
  if sign && ul then
    if x.dummy ≤ 0 then
      if (E.dummy n).1 < 0 then ({ x with dummy := (E.dummy n).1 }, [], some (E.dummy n).1)
      else if (E.dummy n).2 then ({ x with dummy := (E.dummy n).1 }, [.socket .ntE1 (E.dummy n).1, .bind (E.dummy n).1 x.port 0], none)
      else ({ x with dummy := (E.dummy n).1 }, [.socket .ntE1 (E.dummy n).1], some (-EIO))
    else (x, [], none)
  else if 0 < x.dummy then ({ x with dummy := -1 }, [.closed x.dummy], none)
  else (x, [], none)

/-- misdn.c:808-938: the loop of `mi_e1_setup` over time slots -/
def updTs (E : Env) (n l : Nat) : List Nat → W → W × Acts × Int
  | [], w => (w, [], 0)
  | t :: ts, w =>
    let r := updSlot (w.ul l) (w.line l).port t (w.s l t) (E.ans n t)
    match r.2.2 with
    | some rc => (setS w l t r.1, tag l t r.2.1, rc)
    | none =>
      let r2 := updTs E n l ts (setS w l t r.1)
      (r2.1, tag l t r.2.1 ++ r2.2.1, r2.2.2)

/-- misdn.c:760-1021 `mi_e1_setup`, `_mi_e1_line_update`, `mi_e1_line_update`, `mi_e1_line_update_lapd` -/
def lineUpdate (E : Env) (w : W) (l : Nat) : W × Acts × Int :=
  let n := w.upd
  let w := { w with upd := w.upd + 1 }
  match E.card n with
  | some rc => (w, [], rc)
  | none =>
    let r := dummyCh E n (w.ul l) (slots.any (fun t => decide ((w.s l t).ty = .sign))) (w.line l)
    let w := setL w l r.1
    match r.2.2 with
    | some rc => (w, tag l 0 r.2.1, rc)
    | none =>
      let r2 := updTs E n l slots w
      (r2.1, tag l 0 r.2.1 ++ r2.2.1, r2.2.2)

inductive Op where
  | port (l p : Nat)
  | config (l t : Nat) (ty : Ty)
  | addLink (l t tei sapi : Nat)
  | update (l : Nat)
  /-- the select loop reports an event -/
  | event (l t : Nat) (e : Ev)
  | send (l t : Nat) (m : Msg)
  /-- the timer of a signalling time slot expires -/
  | timeout (l t : Nat)
  | lapdTx (l t : Nat) (m : Msg) (n : Int)
  | sa (l : Nat) (b : Byte) (n : Int)
  /-- the last reference to a line is dropped: it is freed (e1_input.c:530-572); the driver is not told -/
  | release (l : Nat)

/-- the result of an operation on a time slot -/
def onSlot (w : W) (l t : Nat) (r : M (Slot × List Act)) : M (W × Acts) := do
  let (s, a) ← r
  .ok (setS w l t s, tag l t a)

/-- the result of an event -/
def onBoth (w : W) (l t : Nat) (r : M Res) : M (W × Acts) := do
  let (x, s, a) ← r
  .ok (setL (setS w l t s) l x, tag l t a)

/-- events are reported for registered descriptors only, write events only if they are enabled, the timer expires only if it runs, LAPD sends
only if there is an instance; all of them use the line; the driver `misdn_lapd` does not support Sa bits (e1_input.c:520-528) -/
def step (E : Env) (w : W) : Op → M (W × Acts)
  | .port l p => .ok (setL w l { w.line l with port := p }, [])
  | .config l t ty => onSlot w l t (.ok (config (w.s l t) ty))
  | .addLink l t tei sapi => onSlot w l t (.ok (addLink (w.s l t) tei sapi, []))
  | .update l => .ok ((lineUpdate E w l).1, (lineUpdate E w l).2.1)
  | .event l t e =>
    if (w.s l t).reg then
      if (w.line l).gone then .error .badptr else onBoth w l t (fdCb (w.ul l) (w.line l) (w.s l t) { e with wr := e.wr && (w.s l t).wr })
    else .ok (w, [])
  | .send l t m => onSlot w l t (send (w.s l t) m)
  | .timeout l t =>
    if (w.s l t).timer then
      if (w.line l).gone then .error .badptr else onSlot w l t (.ok (timeout (w.s l t), []))
    else .ok (w, [])
  | .lapdTx l t m n =>
    if (w.s l t).lapd then
      if (w.line l).gone then .error .badptr else onSlot w l t (lapdTx (w.s l t) m n)
    else .ok (w, [])
  | .sa l b n => if w.ul l then .ok (w, []) else .ok (w, tag l 16 (saBits (w.s l 16) b n))
  | .release l => .ok (setL w l { w.line l with gone := true }, [])

def run (E : Env) (w : W) : List Op → M (W × Acts)
  | [] => .ok (w, [])
  | op :: ops => do
    let (w, a) ← step E w op
    let (w, b) ← run E w ops
    .ok (w, a ++ b)

end Verif.Misdn
