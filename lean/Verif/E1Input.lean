import Verif.Mux
import Verif.Demux
/-!
# Model of `src/e1_input.c`: lines, timeslots, signalling links

Heap objects (lines, signalling links) are numbered; a freed object is `none`, and every access to it
is a `Fault`.  `talloc` allocations always succeed.  The message contents are the octets from `l2h` on.
Calls of application and driver callbacks, signals, `free`s and writes to pcap files are recorded as a
list of `Act`ions in the order in which the code performs them; what a callback does itself is a further
operation of the history (see `Op`).

The members of the union in `struct e1inp_ts` are modelled by the constructors of `U`.  Two parts of the
union keep their (stale) contents when the timeslot type changes and matter later on: the memory of
`sign.tx_timer` (`Ts.tmr`) and of the demultiplexer (`Ts.dmx`).
-/
namespace Verif.E1

/-- `struct msgb`: an identity and the octets from `l2h` on -/
structure Msg where
  id : Nat
  data : List Byte
  deriving DecidableEq, Repr

/-- include/osmocom/abis/e1_input.h:69-76 `enum e1inp_ts_type` -/
inductive TsType where
  | none | sign | trau | raw | hdlc | i460
  deriving DecidableEq, Repr

/-- a timeslot: number of the line object containing it, index in its `ts[]` array -/
abbrev TsRef := Nat × Nat

/-- `struct osmo_timer_list sign.tx_timer`: not running, running, or memory that was last written
through another member of the union -/
inductive Tmr where
  | idle | pending | junk
  deriving DecidableEq, Repr

/-- include/osmocom/abis/e1_input.h:93-122: the first union of `struct e1inp_ts` together with
`type`.  `cb` is the identity of the callback.  `stale` is a byte-wise copy of the union of another
timeslot: its list heads point into the original. -/
inductive U where
  | none
  | sign (links : List Nat) (delay : Int)
  | trau (cb : Nat) (mux : Mux.Mux)
  | raw (cb : Nat) (q : List Msg)
  | hdlc (cb : Nat) (q : List Msg)
  | i460 (active : Nat)
  | stale (of : U)

/-- the `type` member -/
def U.type : U → TsType
  | .none => .none
  | .sign .. => .sign
  | .trau .. => .trau
  | .raw .. => .raw
  | .hdlc .. => .hdlc
  | .i460 .. => .i460
  | .stale u => u.type

/-- include/osmocom/abis/e1_input.h:81-151 `struct e1inp_ts`.  `lapd` is `pcap_fd` of the LAPD
instance, if there is one; `armed` is the driver's interest in write events (`OSMO_FD_WRITE`). -/
structure Ts where
  u : U
  line : Option Nat
  tmr : Tmr
  dmx : Demux.Dmx
  lapd : Option Int
  armed : Bool

/-- include/osmocom/abis/e1_input.h:184-203 `struct e1inp_driver`: name, `default_delay`, whether
there is a `close` callback, and whether `line_create` succeeds -/
structure Driver where
  name : List Byte
  delay : Int
  hasClose : Bool
  createOk : Bool
  deriving DecidableEq, Repr

/-- include/osmocom/abis/e1_input.h:224-262 `struct e1inp_line` without the timeslots.  `uses` is the
`osmo_use_count` (names of uses are numbers), `ops` is whether operations are bound and, if so,
whether they have a `sign_link` callback. -/
structure Line where
  num : Byte
  driver : Driver
  ops : Option Bool
  uses : List (Nat × Int)
  pcapFd : Int
  deriving DecidableEq, Repr

/-- include/osmocom/abis/e1_input.h:45-67 `struct e1inp_sign_link`.  `onList` is
`!llist_empty(&link->list)`. -/
structure Link where
  ts : TsRef
  type : Nat
  trx : Nat
  tei : Byte
  sapi : Byte
  tx : List Msg
  onList : Bool
  deriving DecidableEq, Repr

/-- the library's global state (e1_input.c:58-64, 179) and its heap -/
structure St where
  drivers : List Driver
  line : Nat → Option Line
  ts : TsRef → Ts
  link : Nat → Option Link
  /-- `e1inp_line_list` -/
  reg : List Nat
  nextLine : Nat
  nextLink : Nat
  /-- the `static int pcap_fd` -/
  pcapFd : Int

/-- observable effects -/
inductive Act where
  /-- `line->ops->sign_link(msg)` with `msg->dst` = the link -/
  | signCb (link : Nat) (m : Msg)
  /-- `msgb_free(msg)` -/
  | free (m : Msg)
  /-- TRAU frame callback -/
  | trauCb (r : TsRef) (cb : Nat) (ev : Demux.Ev)
  | rawCb (r : TsRef) (cb : Nat) (m : Msg)
  | hdlcCb (r : TsRef) (cb : Nat) (m : Msg)
  /-- octets fed into the I.460 demultiplexer (libosmocore) -/
  | i460In (r : TsRef) (data : List Byte)
  /-- `osmo_signal_dispatch(SS_L_INPUT, evt, {line, ts_nr, link_type, trx, tei, sapi})` -/
  | signal (evt : Nat) (line : Nat) (tsNr : Nat) (type trx : Nat) (tei sapi : Byte)
  /-- `driver->want_write(ts)` -/
  | wantWrite (r : TsRef)
  /-- `driver->close(link)` -/
  | drvClose (link : Nat)
  /-- four `write`s of one pcap record -/
  | pcap (fd : Int) (out : Bool) (sapi tei : Byte) (m : Msg)
  /-- message handed to the driver for transmission, and the link it belongs to -/
  | tx (r : TsRef) (link : Option Nat) (m : Msg)
  | lineFree (line : Nat)
  | linkFree (link : Nat)
  /-- `close(fd)` -/
  | closeFd (fd : Int)
  deriving DecidableEq, Repr

/-! ### memory accesses -/

/-- dereference a line pointer -/
def lineAt (st : St) (l : Nat) : M Line :=
  match st.line l with
  | some x => .ok x
  | none => .error .badptr

/-- dereference a link pointer -/
def linkAt (st : St) (k : Nat) : M Link :=
  match st.link k with
  | some x => .ok x
  | none => .error .badptr

/-- dereference a timeslot pointer -/
def tsAt (st : St) (r : TsRef) : M Ts :=
  match st.line r.1 with
  | some _ => if r.2 < 32 then .ok (st.ts r) else .error .oob
  | none => .error .badptr

def setLine (st : St) (l : Nat) (x : Option Line) : St :=
  { st with line := fun l' => if l' = l then x else st.line l' }

def setLink (st : St) (k : Nat) (x : Option Link) : St :=
  { st with link := fun k' => if k' = k then x else st.link k' }

def setTs (st : St) (r : TsRef) (t : Ts) : St :=
  { st with ts := fun r' => if r' = r then t else st.ts r' }

/-- `ts->line` dereferenced -/
def lineOf (st : St) (t : Ts) : M Line :=
  match t.line with
  | some l => lineAt st l
  | none => .error .badptr

/-! ### use counts and lines -/

/-- libosmocore `osmo_use_count_get_put()`: the count of a use, starting at zero, changes; entries
whose count becomes zero are removed (e1_input.c:545-546).  Simplification: no overflow of the 32 bit
counts. -/
def addUse : List (Nat × Int) → Nat → Int → List (Nat × Int)
  | [], u, d => if d = 0 then [] else [(u, d)]
  | (v, c) :: r, u, d =>
    if v = u then (if c + d = 0 then r else (v, c + d) :: r) else (v, c) :: addUse r u d

/-- libosmocore `osmo_use_count_total()` -/
def total (uses : List (Nat × Int)) : Int := (uses.map (·.2)).sum

/-- e1_input.c:530-572 `e1inp_line_use_cb`, called by `osmo_use_count_get_put()` for
`e1inp_line_get2`/`e1inp_line_put2` (e1_input.h:290-291).  Freeing the memory of a running timer is a
fault (it would be used when the timer expires).  The rate counters and driver data shared
between clones are not modelled. -/
def useChange (st : St) (l : Nat) (u : Nat) (d : Int) : M (St × List Act) := do
  let x ← lineAt st l
  let uses := addUse x.uses u d
  if total uses > 0 then .ok (setLine st l (some { x with uses := uses }), [])
  else if (List.range 32).any fun i => (st.ts (l, i)).tmr == .pending then .error .badptr
  else .ok ({ setLine st l none with reg := st.reg.erase l }, [.lineFree l])

/-- the use names "ctor" and "e1inp_sign_link" -/
def uCtor : Nat := 0
def uLink : Nat := 1

/-- e1_input.c:574-584 `e1inp_line_find` -/
def lineFindIn (st : St) (nr : Byte) : List Nat → M (Option Nat)
  | [] => .ok none
  | l :: r => do
    let x ← lineAt st l
    if x.num = nr then .ok (some l) else lineFindIn st nr r

/-- e1_input.c:574-584 `e1inp_line_find` -/
def lineFind (st : St) (nr : Byte) : M (Option Nat) := lineFindIn st nr st.reg

/-- `tolower()` (C locale) -/
def lower (b : Byte) : Byte := if 0x41 ≤ b.toNat ∧ b.toNat ≤ 0x5a then b + 0x20 else b

/-- e1_input.c:1064-1073 `e1inp_driver_find` (`strcasecmp`) -/
def driverFind (st : St) (name : List Byte) : Option Driver :=
  st.drivers.find? fun d => name.map lower == d.name.map lower

/-- a zeroed timeslot of line `l` -/
def freshTs (l : Nat) : Ts :=
  { u := .none, line := some l, tmr := .idle, dmx := Demux.zeroed, lapd := none, armed := false }

/-- e1_input.c:594-655 `e1inp_line_create`; the rate counter group is always allocated -/
def lineCreate (st : St) (nr : Byte) (name : List Byte) : M (St × Option Nat) := do
  let f ← lineFind st nr
  match f with
  | some _ => .ok (st, none)
  | none =>
    match driverFind st name with
    | none => .ok (st, none)
    | some d =>
      if d.createOk then
        let l := st.nextLine
        .ok ({ st with
          nextLine := l + 1,
          line := fun l' => if l' = l then
            some { num := nr, driver := d, ops := none, uses := [(uCtor, 1)], pcapFd := -1 }
            else st.line l',
          ts := fun r => if r.1 = l then freshTs l else st.ts r,
          reg := st.reg ++ [l] }, some l)
      else .ok (st, none)

/-- the byte-wise copy of a timeslot in a cloned line (e1_input.c:668, 679-681).  A union without
list heads is a proper copy. -/
def cloneTs (c : Nat) (t : Ts) : Ts :=
  { t with line := some c,
           u := match t.u with | .none => .none | u => .stale u }

/-- e1_input.c:657-706 `e1inp_line_clone` -/
def lineClone (st : St) (l : Nat) (use : Nat) : M (St × Nat) := do
  let x ← lineAt st l
  let c := st.nextLine
  .ok ({ st with
    nextLine := c + 1,
    line := fun l' => if l' = c then some { x with uses := [(use, 1)] } else st.line l',
    ts := fun r => if r.1 = c then cloneTs c (st.ts (l, r.2)) else st.ts r }, c)

/-- e1_input.c:743-763 `e1inp_ts_get`, `e1inp_get_mux`: `&line->ts[ts_nr-1]`, not checked -/
def tsGet (st : St) (nr : Byte) (tsNr : Byte) : M (Option (Nat × Int)) := do
  let f ← lineFind st nr
  match f with
  | none => .ok none
  | some l => .ok (some (l, (tsNr.toNat : Int) - 1))

/-! ### timeslot configuration -/

/-- e1_input.c:366-412 `cleanup_e1inp_ts`: return value and the messages freed.  `junk` is a read
through the list heads of another timeslot. -/
def cleanup (t : Ts) : M (Ts × Int × List Act) :=
  match t.u with
  | .sign links _ => .ok (t, if links = [] then 0 else -EINVAL, [])
  | .trau cb _ => .ok ({ t with u := .trau cb Mux.init, dmx := Demux.init t.dmx }, 0, [])
  | .raw cb q => .ok ({ t with u := .raw cb [] }, 0, q.map .free)
  | .hdlc cb q => .ok ({ t with u := .hdlc cb [] }, 0, q.map .free)
  | .i460 n => .ok (t, if n = 0 then 0 else -EINVAL, [])
  | .none => .ok (t, 0, [])
  | .stale u =>
    match u.type with
    | .raw | .hdlc => .error .badptr
    | .sign => .ok (t, -EINVAL, [])
    | _ => .ok (t, 0, [])

/-- the condition `ts->type == T && ts->line && line` under which `e1inp_ts_config_*` does nothing -/
def sameType (t : Ts) (ty : TsType) (line : Option Nat) : Bool :=
  t.u.type = ty && t.line.isSome && line.isSome

/-- writing the big members of the union destroys the memory of `sign.tx_timer`; if the timer is
running, libosmocore's timer tree is corrupted -/
def overlay (t : Ts) : M Unit := if t.tmr = .pending then .error .badptr else .ok ()

/-- e1_input.c:415-432 `e1inp_ts_config_trau`.  `subch_demux_init` fills the bit buffers, which
overlay `sign.tx_timer`, with 0xff. -/
def configTrau (st : St) (r : TsRef) (line : Option Nat) (cb : Nat) : M (St × Int × List Act) := do
  let t ← tsAt st r
  if sameType t .trau line then .ok (st, 0, [])
  else
    let (t, _, acts) ← cleanup t
    overlay t
    .ok (setTs st r { t with u := .trau cb Mux.init, line := line, dmx := Demux.init t.dmx, tmr := .junk },
      0, acts)

/-- e1_input.c:434-445 `e1inp_ts_config_i460`; `junk` is what the demultiplexer memory contains
afterwards -/
def configI460 (st : St) (r : TsRef) (line : Option Nat) (junk : Demux.Dmx) :
    M (St × Int × List Act) := do
  let t ← tsAt st r
  if sameType t .i460 line then .ok (st, 0, [])
  else
    let (t, _, acts) ← cleanup t
    overlay t
    .ok (setTs st r { t with u := .i460 0, line := line, dmx := junk, tmr := .junk }, 0, acts)

/-- e1_input.c:462-465: the queue delay -/
def signDelay (st : St) (line : Option Nat) : M Int :=
  match line with
  | none => .ok 100000
  | some l => do let x ← lineAt st l; .ok x.driver.delay

/-- e1_input.c:455-471 `e1inp_ts_config_sign`; `sign.tx_timer` is not initialised -/
def configSign (st : St) (r : TsRef) (line : Option Nat) : M (St × Int × List Act) := do
  let t ← tsAt st r
  if sameType t .sign line then .ok (st, 0, [])
  else
    let (t, _, acts) ← cleanup t
    let d ← signDelay st line
    .ok (setTs st r { t with u := .sign [] d, line := line }, 0, acts)

/-- e1_input.c:473-488 `e1inp_ts_config_raw` -/
def configRaw (st : St) (r : TsRef) (line : Option Nat) (cb : Nat) : M (St × Int × List Act) := do
  let t ← tsAt st r
  if sameType t .raw line then .ok (st, 0, [])
  else
    let (t, _, acts) ← cleanup t
    .ok (setTs st r { t with u := .raw cb [], line := line }, 0, acts)

/-- e1_input.c:490-505 `e1inp_ts_config_hdlc` -/
def configHdlc (st : St) (r : TsRef) (line : Option Nat) (cb : Nat) : M (St × Int × List Act) := do
  let t ← tsAt st r
  if sameType t .hdlc line then .ok (st, 0, [])
  else
    let (t, _, acts) ← cleanup t
    .ok (setTs st r { t with u := .hdlc cb [], line := line }, 0, acts)

/-- e1_input.c:507-518 `e1inp_ts_config_none` -/
def configNone (st : St) (r : TsRef) (line : Option Nat) : M (St × Int × List Act) := do
  let t ← tsAt st r
  if sameType t .none line then .ok (st, 0, [])
  else
    let (t, _, acts) ← cleanup t
    .ok (setTs st r { t with u := .none, line := line }, 0, acts)

/-! ### signalling links -/

/-- e1_input.c:766-778 `e1inp_lookup_sign_link`: walk of the list -/
def lookupIn (st : St) (tei sapi : Byte) : List Nat → M (Option Nat)
  | [] => .ok none
  | k :: r => do
    let x ← linkAt st k
    if x.sapi = sapi ∧ x.tei = tei then .ok (some k) else lookupIn st tei sapi r

/-- e1_input.c:766-778 `e1inp_lookup_sign_link`: the type of the timeslot is not checked -/
def lookup (st : St) (t : Ts) (tei sapi : Byte) : M (Option Nat) :=
  match t.u with
  | .sign links _ => lookupIn st tei sapi links
  | _ => .error .badptr

/-- e1_input.c:780-807 `e1inp_sign_link_create` -/
def linkCreate (st : St) (r : TsRef) (type trx : Nat) (tei sapi : Byte) :
    M (St × Option Nat × List Act) := do
  let t ← tsAt st r
  match t.u with
  | .sign links d =>
    match t.line with
    | none => .error .badptr
    | some l =>
      let (st, acts) ← useChange st l uLink 1
      let k := st.nextLink
      .ok (setLink (setTs { st with nextLink := k + 1 } r { t with u := .sign (links ++ [k]) d }) k
        (some { ts := r, type := type, trx := trx, tei := tei, sapi := sapi, tx := [], onList := true }),
        some k, acts)
  | .stale u => if u.type = .sign then .error .badptr else .ok (st, none, [])
  | _ => .ok (st, none, [])

/-- e1_input.c:819 `llist_del_init(&link->list)`: unlinking a link whose list head has been
overwritten writes through stale pointers -/
def unlinkTs (t : Ts) (k : Nat) : M Ts :=
  match t.u with
  | .sign links d => if k ∈ links then .ok { t with u := .sign (links.erase k) d } else .error .badptr
  | _ => .error .badptr

/-- e1_input.c:829-830: `osmo_timer_del(&ts->sign.tx_timer)` -/
def timerDel (t : Ts) : M Ts :=
  match t.tmr with
  | .junk => .error .uninit
  | _ => .ok { t with tmr := .idle }

/-- e1_input.c:832-833: the driver's close callback, if any -/
def closeActs (l : Line) (k : Nat) : List Act := if l.driver.hasClose then [.drvClose k] else []

/-- e1_input.c:809-833 `e1inp_sign_link_destroy` up to and including the call of `driver->close`.
The second component tells if the guard against re-entrance (lines 816-820) let the call pass. -/
def destroyBegin (st : St) (k : Nat) : M (St × Bool × List Act) := do
  let x ← linkAt st k
  if x.onList then
    let t ← tsAt st x.ts
    let t ← unlinkTs t k
    let t ← timerDel t
    let l ← lineOf st t
    .ok (setLink (setTs st x.ts t) k (some { x with onList := false, tx := [] }), true,
      x.tx.map .free ++ closeActs l k)
  else .ok (st, false, [])

/-- e1_input.c:835-836 the rest of `e1inp_sign_link_destroy`: drop the reference, free the link -/
def destroyEnd (st : St) (k : Nat) : M (St × List Act) := do
  let x ← linkAt st k
  let t ← tsAt st x.ts
  match t.line with
  | none => .error .badptr
  | some l => do
    let (st, acts) ← useChange st l uLink (-1)
    .ok (setLink st k none, acts ++ [.linkFree k])

/-! ### sending -/

/-- e1_input.c:219-262 `write_pcap_packet` -/
def pcapActs (fd : Int) (out : Bool) (sapi tei : Byte) (m : Msg) : List Act :=
  if fd < 0 then [] else [.pcap fd out sapi tei m]

/-- the pcap record written if the timeslot has no LAPD instance (e1_input.c:321-324, 855-856) -/
def tracePcap (t : Ts) (l : Line) (out : Bool) (sapi tei : Byte) (m : Msg) : List Act :=
  if t.lapd.isSome then [] else pcapActs l.pcapFd out sapi tei m

/-- `!osmo_timer_pending(&ts->sign.tx_timer)` (e1_input.c:311) -/
def timerIdle (t : Ts) : M Bool :=
  match t.tmr with
  | .junk => .error .uninit
  | .idle => .ok true
  | .pending => .ok false

/-- `driver->want_write(ts)`: enables write events (e.g. dahdi.c:196-210) -/
def wantWrite (st : St) (r : TsRef) (t : Ts) : St := setTs st r { t with armed := true }

/-- e1_input.c:293-327 `abis_sendmsg`.  The access to `sign.tx_timer` is only meaningful on a signalling
timeslot. -/
def sendmsg (st : St) (dst : Option Nat) (m : Msg) : M (St × Int × List Act) :=
  match dst with
  | none => .ok (st, -EINVAL, [.free m])
  | some k => do
    let x ← linkAt st k
    let t ← tsAt st x.ts
    let l ← lineOf st t
    let st := setLink st k (some { x with tx := x.tx ++ [m] })
    match t.u with
    | .sign _ _ => do
      let idle ← timerIdle t
      if idle then
        .ok (wantWrite st x.ts t, 0, .wantWrite x.ts :: tracePcap t l true x.sapi x.tei m)
      else .ok (st, 0, tracePcap t l true x.sapi x.tei m)
    | _ => .error .badptr

/-- e1_input.c:334-347 `e1inp_ts_send_raw` -/
def sendRaw (st : St) (r : TsRef) (m : Msg) : M (St × List Act) := do
  let t ← tsAt st r
  match t.u with
  | .raw cb q => do
    let _ ← lineOf st t
    .ok (wantWrite st r { t with u := .raw cb (q ++ [m]) }, [.wantWrite r])
  | .stale u => if u.type = .raw then .error .badptr else .error .assert
  | _ => .error .assert

/-- e1_input.c:349-362 `e1inp_ts_send_hdlc` -/
def sendHdlc (st : St) (r : TsRef) (m : Msg) : M (St × List Act) := do
  let t ← tsAt st r
  match t.u with
  | .hdlc cb q => do
    let _ ← lineOf st t
    .ok (wantWrite st r { t with u := .hdlc cb (q ++ [m]) }, [.wantWrite r])
  | .stale u => if u.type = .hdlc then .error .badptr else .error .assert
  | _ => .error .assert

/-- e1_input.c:988-995: the first link in list order with a pending message -/
def txScan (st : St) : List Nat → M (St × Option (Nat × Msg))
  | [] => .ok (st, none)
  | k :: r => do
    let x ← linkAt st k
    match x.tx with
    | [] => txScan st r
    | m :: ms => .ok (setLink st k (some { x with tx := ms }), some (k, m))

/-- e1_input.c:977-1028 `e1inp_tx_ts`.  `i460` is what the I.460 multiplexer of libosmocore returns;
the messages allocated here get the number `newId`. -/
def txTs (st : St) (r : TsRef) (newId : Nat) (i460 : List Byte) :
    M (St × Option (Option Nat × Msg)) := do
  let t ← tsAt st r
  match t.u with
  | .sign links _ => do
    let (st, o) ← txScan st links
    .ok (st, o.map fun p => (some p.1, p.2))
  | .trau cb mux => do
    let (bs, mux) ← Mux.muxOut mux 40
    .ok (setTs st r { t with u := .trau cb mux }, some (none, ⟨newId, bs⟩))
  | .raw cb q =>
    match q with
    | [] => .ok (st, none)
    | m :: q => .ok (setTs st r { t with u := .raw cb q }, some (none, m))
  | .hdlc cb q =>
    match q with
    | [] => .ok (st, none)
    | m :: q => .ok (setTs st r { t with u := .hdlc cb q }, some (none, m))
  | .i460 _ => .ok (st, some (none, ⟨newId, i460⟩))
  | .none => .ok (st, none)
  | .stale _ => .error .badptr

/-- the message handed to the driver -/
def txActs (r : TsRef) : Option (Option Nat × Msg) → List Act
  | none => []
  | some (k, m) => [.tx r k m]

/-! ### receiving -/

/-- e1_input.c:861-874: delivery to the application -/
def rxDeliver (l : Line) (m : Msg) : Option Nat → M (Int × List Act)
  | none => .ok (-EINVAL, [.free m])
  | some k =>
    match l.ops with
    | none => .error .badptr
    | some false => .ok (-ENOENT, [.free m])
    | some true => .ok (0, [.signCb k m])

/-- e1_input.c:841-894 `e1inp_rx_ts` -/
def rxTs (st : St) (r : TsRef) (m : Msg) (tei sapi : Byte) : M (St × Int × List Act) := do
  let t ← tsAt st r
  match t.u with
  | .sign links _ => do
    let l ← lineOf st t
    let k ← lookupIn st tei sapi links
    let (rc, acts) ← rxDeliver l m k
    .ok (st, rc, tracePcap t l false sapi tei m ++ acts)
  | .trau cb _ => do
    let (d, evs) ← Demux.demuxIn t.dmx m.data
    .ok (setTs st r { t with dmx := d }, 0, evs.map (.trauCb r cb) ++ [.free m])
  | .raw cb _ => .ok (st, 0, [.rawCb r cb m])
  | .hdlc cb _ => .ok (st, 0, [.hdlcCb r cb m])
  | .i460 _ => .ok (st, 0, [.i460In r m.data, .free m])
  | .none => .ok (st, -EINVAL, [.free m])
  | .stale _ => .error .badptr

/-- e1_input.h:269-288 `enum e1inp_signal_input` -/
def S_L_INP_TEI_UP : Nat := 1
def S_L_INP_TEI_DN : Nat := 2
def S_L_INP_TEI_UNKNOWN : Nat := 3

/-- e1_input.c:1030-1056 `e1inp_event`, `e1inp_int_snd_event`; the `line` of the signal is `ts->line`,
`ts_nr` is the index plus one (e1_input.c:633) -/
def event (st : St) (r : TsRef) (evt : Nat) (tei sapi : Byte) : M (Int × List Act) := do
  let t ← tsAt st r
  let k ← lookup st t tei sapi
  match k with
  | none => .ok (-EINVAL, [])
  | some k => do
    let x ← linkAt st k
    match t.line with
    | none => .error .badptr
    | some l => .ok (0, [.signal evt l (r.2 + 1) x.type x.trx x.tei x.sapi])

/-- the primitives passed up by the data link layer -/
inductive DlPrim where
  | est | rel | data | unitData | mdlError | other
  deriving DecidableEq, Repr

/-- e1_input.c:935-972 `e1inp_dlsap_up`; `ind` is whether the operation is an indication.  The message
contents are the octets from `l3h` on, which becomes `l2h`. -/
def dlsapUp (st : St) (r : TsRef) (p : DlPrim) (ind : Bool) (m : Msg) (tei sapi : Byte) :
    M (St × List Act) :=
  match p with
  | .est => do
    let (_, acts) ← event st r S_L_INP_TEI_UP tei sapi
    .ok (st, acts ++ [.free m])
  | .rel => do
    let (_, acts) ← event st r S_L_INP_TEI_DN tei sapi
    .ok (st, acts ++ [.free m])
  | .data | .unitData =>
    if ind then do
      let (st, _, acts) ← rxTs st r m tei sapi
      .ok (st, acts)
    else .ok (st, [.free m])
  | .mdlError | .other => .ok (st, [.free m])

/-! ### pcap descriptors -/

/-- `close(old)` if there is one -/
def closeOld (old : Int) : List Act := if old ≥ 0 then [.closeFd old] else []

/-- the LAPD instance of a timeslot gets a new descriptor -/
def tsSetFd (fd : Int) (t : Ts) : Ts := { t with lapd := t.lapd.map fun _ => fd }

/-- e1_input.c:142-177 `e1_set_pcap_fd2`; `wr` is whether the file header could be written -/
def setPcapFd2 (st : St) (l : Nat) (fd : Int) (wr : Bool) : M (St × Int × List Act) := do
  if fd ≥ 0 ∧ wr = false then .ok (st, -1, [])
  else
    let x ← lineAt st l
    .ok ({ setLine st l (some { x with pcapFd := fd }) with
            ts := fun r => if r.1 = l then tsSetFd fd (st.ts r) else st.ts r }, 0, closeOld x.pcapFd)

/-- e1_input.c:181-216 `e1_set_pcap_fd` -/
def setPcapFd (st : St) (fd : Int) (wr : Bool) : St × Int × List Act :=
  if fd ≥ 0 ∧ wr = false then (st, -1, [])
  else ({ st with ts := fun r => if r.1 ∈ st.reg then tsSetFd fd (st.ts r) else st.ts r, pcapFd := fd },
    0, closeOld st.pcapFd)

/-- e1_input.c:1082-1089, the part of `e1inp_line_update` dealing with pcap files -/
def lineUpdate (st : St) (l : Nat) : M St := do
  let x ← lineAt st l
  .ok { st with ts := fun r => if r.1 = l then tsSetFd x.pcapFd (st.ts r) else st.ts r }

/-- e1_input.c:1100-1116 `e1i_sig_cb` for `S_L_GLOBAL_SHUTDOWN`: all lines of the list -/
def shutdownIn (st : St) : List Nat → M (St × List Act)
  | [] => .ok (st, [])
  | l :: r => do
    let x ← lineAt st l
    let (st', acts) ← shutdownIn (setLine st l (some { x with pcapFd := -1 })) r
    .ok (st', closeOld x.pcapFd ++ acts)

/-- e1_input.c:1100-1116 `e1i_sig_cb` for `S_L_GLOBAL_SHUTDOWN` -/
def shutdown (st : St) : M (St × List Act) := shutdownIn st st.reg

/-! ### the record in the pcap file -/

/-- little endian octets of a 32 bit number (the host order of the supported targets) -/
def le32 (n : Nat) : List Byte :=
  [BitVec.ofNat 8 n, BitVec.ofNat 8 (n / 2 ^ 8), BitVec.ofNat 8 (n / 2 ^ 16), BitVec.ofNat 8 (n / 2 ^ 24)]

/-- e1_input.c:219-262 `write_pcap_packet`: the octets of the four writes, for the time `sec`; headers
e1_input.c:75-134 -/
def pcapRecord (sec : Nat) (out : Bool) (sapi tei : Byte) (data : List Byte) : List Byte :=
  -- pcaprec_hdr
  le32 sec ++ le32 0 ++ le32 (data.length + 19) ++ le32 (data.length + 19) ++
  -- fake_linux_lapd_header: pkttype, hatype, halen in host order, addr, pad, protocol = ntohs(48)
  [(4 : Byte), 0, 0, 0, 0, 0, if out then 0 else 1, 0, 0, 0, 0, 0, 0, 0, 0, 48] ++
  -- lapd_header: sapi:6 cr:1 ea1:1, tei:7 ea2:1, control
  [(sapi &&& 0x3f) <<< 2 ||| (if out then 2 else 0), (tei &&& 0x7f) <<< 1 ||| 1, 3] ++ data

/-! ### the transmit cycle of a driver with a delay timer -/

/-- scheduling the delay timer (`osmo_timer_schedule` first removes a timer that looks active) -/
def timerStart (t : Ts) : M Ts :=
  match t.tmr with
  | .junk => .error .uninit
  | _ => .ok { t with tmr := .pending }

/-- dahdi.c:258-268: send the message, start the timer -/
def drvSent (st : St) (r : TsRef) : Option (Option Nat × Msg) → M (St × List Act)
  | none => .ok (st, [])
  | some p => do
    let t ← tsAt st r
    let t ← timerStart t
    .ok (setTs st r t, txActs r (some p))

/-- dahdi.c:245-271 `handle_ts1_write` (and alike misdn.c:335-394, e1d.c:332-358): disable write events,
take one message, send it, start the delay timer.  The drivers call it for signalling timeslots only
(dahdi.c:483-489). -/
def drvWrite (st : St) (r : TsRef) : M (St × List Act) := do
  let t ← tsAt st r
  match t.u with
  | .sign links _ => do
    let (st, o) ← txScan (setTs st r { t with armed := false }) links
    drvSent st r (o.map fun p => (some p.1, p.2))
  | _ => .ok (st, [])

/-- dahdi.c:212-218 `timeout_ts1_write`: the delay timer expires -/
def timerFire (st : St) (r : TsRef) : M (St × List Act) := do
  let t ← tsAt st r
  match t.tmr with
  | .pending => .ok (wantWrite st r { t with tmr := .idle }, [.wantWrite r])
  | _ => .ok (st, [])

/-! ### the application's access to the sub-channels of a TRAU timeslot -/

/-- `subchan_mux_enqueue(&ts->trau.mux, c, frame)` on a TRAU timeslot -/
def muxEnqueue (st : St) (r : TsRef) (c : Nat) (frame : List Bool) : M St := do
  let t ← tsAt st r
  match t.u with
  | .trau cb mux => do
    let mux ← Mux.enqueue mux c frame
    .ok (setTs st r { t with u := .trau cb mux })
  | _ => .error .badptr

/-- `subch_demux_activate(&ts->trau.demux, c)` on a TRAU timeslot -/
def subchActivate (st : St) (r : TsRef) (c : Int) : M St := do
  let t ← tsAt st r
  match t.u with
  | .trau _ _ => do
    let (d, _) ← Demux.activate t.dmx c
    .ok (setTs st r { t with dmx := d })
  | _ => .error .badptr

/-- `subch_demux_deactivate(&ts->trau.demux, c)` on a TRAU timeslot -/
def subchDeactivate (st : St) (r : TsRef) (c : Int) : M St := do
  let t ← tsAt st r
  match t.u with
  | .trau _ _ => do
    let (d, _) ← Demux.deactivate t.dmx c
    .ok (setTs st r { t with dmx := d })
  | _ => .error .badptr

/-! ### histories -/

/-- What can happen.  `destroyBegin`/`destroyEnd` are the two halves of one `e1inp_sign_link_destroy`;
what the application does in callbacks in between are further operations. -/
inductive Op where
  | driverRegister (d : Driver)
  | lineCreate (nr : Byte) (name : List Byte)
  | lineClone (l use : Nat)
  | lineGet (l use : Nat)
  | linePut (l use : Nat)
  | bindOps (l : Nat) (ops : Option Bool)
  | lineFind (nr : Byte)
  | configTrau (r : TsRef) (line : Option Nat) (cb : Nat)
  | configI460 (r : TsRef) (line : Option Nat) (junk : Demux.Dmx)
  | configSign (r : TsRef) (line : Option Nat)
  | configRaw (r : TsRef) (line : Option Nat) (cb : Nat)
  | configHdlc (r : TsRef) (line : Option Nat) (cb : Nat)
  | configNone (r : TsRef) (line : Option Nat)
  | linkCreate (r : TsRef) (type trx : Nat) (tei sapi : Byte)
  | destroyBegin (k : Nat)
  | destroyEnd (k : Nat)
  | sendmsg (dst : Option Nat) (m : Msg)
  | sendRaw (r : TsRef) (m : Msg)
  | sendHdlc (r : TsRef) (m : Msg)
  | txTs (r : TsRef) (newId : Nat) (i460 : List Byte)
  | drvWrite (r : TsRef)
  | timerFire (r : TsRef)
  | muxEnqueue (r : TsRef) (c : Nat) (frame : List Bool)
  | subchActivate (r : TsRef) (c : Int)
  | subchDeactivate (r : TsRef) (c : Int)
  | rxTs (r : TsRef) (m : Msg) (tei sapi : Byte)
  | dlsapUp (r : TsRef) (p : DlPrim) (ind : Bool) (m : Msg) (tei sapi : Byte)
  | event (r : TsRef) (evt : Nat) (tei sapi : Byte)

/-- e1_input.c:728-732 `e1inp_line_bind_ops` -/
def bindOps (st : St) (l : Nat) (ops : Option Bool) : M St := do
  let x ← lineAt st l
  .ok (setLine st l (some { x with ops := ops }))

/-- forget the return value -/
def dropRc (r : M (St × Int × List Act)) : M (St × List Act) :=
  r.map fun p => (p.1, p.2.2)

/-- one event -/
def step (st : St) : Op → M (St × List Act)
  | .driverRegister d => .ok ({ st with drivers := st.drivers ++ [d] }, [])
  | .lineCreate nr name => (lineCreate st nr name).map fun p => (p.1, [])
  | .lineClone l u => (lineClone st l u).map fun p => (p.1, [])
  | .lineGet l u => useChange st l u 1
  | .linePut l u => useChange st l u (-1)
  | .bindOps l ops => (bindOps st l ops).map fun s => (s, [])
  | .lineFind nr => (lineFind st nr).map fun _ => (st, [])
  | .configTrau r l cb => dropRc (configTrau st r l cb)
  | .configI460 r l j => dropRc (configI460 st r l j)
  | .configSign r l => dropRc (configSign st r l)
  | .configRaw r l cb => dropRc (configRaw st r l cb)
  | .configHdlc r l cb => dropRc (configHdlc st r l cb)
  | .configNone r l => dropRc (configNone st r l)
  | .linkCreate r ty trx tei sapi => (linkCreate st r ty trx tei sapi).map fun p => (p.1, p.2.2)
  | .destroyBegin k => (destroyBegin st k).map fun p => (p.1, p.2.2)
  | .destroyEnd k => destroyEnd st k
  | .sendmsg dst m => dropRc (sendmsg st dst m)
  | .sendRaw r m => sendRaw st r m
  | .sendHdlc r m => sendHdlc st r m
  | .txTs r i b => (txTs st r i b).map fun p => (p.1, txActs r p.2)
  | .drvWrite r => drvWrite st r
  | .timerFire r => timerFire st r
  | .muxEnqueue r c f => (muxEnqueue st r c f).map fun s => (s, [])
  | .subchActivate r c => (subchActivate st r c).map fun s => (s, [])
  | .subchDeactivate r c => (subchDeactivate st r c).map fun s => (s, [])
  | .rxTs r m tei sapi => dropRc (rxTs st r m tei sapi)
  | .dlsapUp r p ind m tei sapi => dlsapUp st r p ind m tei sapi
  | .event r evt tei sapi => (event st r evt tei sapi).map fun p => (st, p.2)

/-- a history, with the actions in order -/
def run (st : St) : List Op → M (St × List Act)
  | [] => .ok (st, [])
  | op :: ops => do
    let (st, a) ← step st op
    let (st, b) ← run st ops
    .ok (st, a ++ b)

/-- `e1inp_init()` (e1_input.c:1137-1171): nothing exists -/
def St.init : St :=
  { drivers := [], line := fun _ => none, ts := fun _ => freshTs 0, link := fun _ => none, reg := [],
    nextLine := 0, nextLink := 0, pcapFd := -1 }

end Verif.E1
