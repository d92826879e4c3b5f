import Verif.Base
/-!
# Model of `src/input/lapd.c` (and of `e1inp_rx_ts_lapd` in `src/e1_input.c`)

The LAPD data link state machine itself (`lapd_ph_data_ind`, `lapd_recv_dlsap`, ...) is part of
libosmocore, not of this code base.  It is the *environment* of the model: what is handed to it is
recorded as an `Act`, and what it may do later (send a frame for a data link, deliver a primitive)
is an `Op` of a history.  Both calls into it are tail calls in `lapd.c`, so what it does while being
called can be placed behind the call.

Simplifications: allocation never fails; the message buffer is the list of its octets
(`msg->data`, `msg->len`); log output is dropped.
-/
namespace Verif.Lapd

/-- a callback function pointer or callback data pointer (`void *`) -/
abbrev Ptr := Nat

/-- include/osmocom/abis/lapd.h:10-20 `struct lapd_profile`: the fields used when frames are
handled or data links are set up; T200 and T203 are seconds and microseconds.  `n202`, T201 and T202
are not used by the code and are omitted. -/
structure Profile where
  k : List Nat
  n200 : Nat
  n201 : Nat
  t200 : Nat × Nat
  t203 : Nat × Nat
  shortAddress : Bool
  deriving DecidableEq, Repr

/-- lapd.c:70 `LAPD_SET_K(n, o)` -/
def setK (n o : Nat) : List Nat := n :: List.replicate 63 o

/-- lapd.c:84-94 -/
def profileIsdn : Profile := { k := setK 7 7, n200 := 3, n201 := 260, t200 := (1, 0), t203 := (10, 0), shortAddress := false }
/-- lapd.c:96-106 -/
def profileAbis : Profile := { k := setK 2 1, n200 := 3, n201 := 260, t200 := (0, 240000), t203 := (10, 0), shortAddress := false }
/-- lapd.c:117-127 -/
def profileAbisEricsson : Profile :=
  { k := setK 2 1, n200 := 50, n201 := 260, t200 := (0, 300000), t203 := (10, 0), shortAddress := false }
/-- lapd.c:129-139 -/
def profileSat : Profile := { k := setK 15 15, n200 := 5, n201 := 260, t200 := (2, 400000), t203 := (20, 0), shortAddress := true }

/-- lapd.c:165-171 `struct lapd_sap`.  `id` stands for the address of the object (of its data link);
`maxf` is what `lapd_dl_init2` stores of its N201 argument, `k` of its window argument; `lctxTei` and
`lctxSapi` are the `dl.lctx` fields. -/
structure Sap where
  id : Nat
  sapi : Byte
  k : Nat
  maxf : Nat
  n200 : Nat
  t200 : Nat × Nat
  t203 : Nat × Nat
  network : Bool
  lctxTei : Byte
  lctxSapi : Byte
  deriving DecidableEq, Repr

/-- lapd.c:154-161 `struct lapd_tei`; the state is `LAPD_TEI_ASSIGNED` from allocation on
(lapd.c:208) and never changed afterwards, so it is omitted -/
structure Tei where
  tei : Byte
  saps : List Sap
  deriving DecidableEq, Repr

/-- include/osmocom/abis/lapd.h:28-44 `struct lapd_instance`; `nextId` is a ghost counter which
gives every allocated SAP a distinct identity -/
structure Li where
  networkSide : Bool
  transmitCb : Ptr
  transmitCbdata : Ptr
  receiveCb : Ptr
  receiveCbdata : Ptr
  profile : Profile
  teis : List Tei
  nextId : Nat
  deriving DecidableEq, Repr

/-- `enum lapd_format` of libosmocore -/
inductive Format where
  | i | s | u | ukn
  deriving DecidableEq, Repr

/-- `struct lapd_msg_ctx` of libosmocore; the pointer `dl` is the `id` of the SAP -/
structure Lctx where
  dl : Nat
  n201 : Nat
  lpd : Byte
  tei : Byte
  sapi : Byte
  cr : Byte
  format : Format
  p_f : Byte
  s_u : Byte
  n_send : Byte
  n_recv : Byte
  length : Nat
  deriving DecidableEq, Repr

/-- `memset(&lctx, 0, sizeof(lctx))`: `LAPD_FORM_UKN` is the enumerator 0 -/
def Lctx.zero : Lctx :=
  { dl := 0, n201 := 0, lpd := 0, tei := 0, sapi := 0, cr := 0, format := .ukn, p_f := 0, s_u := 0,
    n_send := 0, n_recv := 0, length := 0 }

/-- primitives of the data link service (`PRIM_DL_*`) -/
inductive Prim where
  | est | rel | data | unitData
  deriving DecidableEq, Repr

/-- Observable actions. -/
inductive Act where
  /-- `osmo_pcap_lapd_write(li->pcap_fd, direction, msg)` -/
  | pcap (output : Bool) (frame : List Byte)
  /-- `li->transmit_cb(msg, li->transmit_cbdata)` -/
  | transmit (cb cbdata : Ptr) (frame : List Byte)
  /-- `msgb_free(msg)` of the message passed in by the caller -/
  | freeMsg
  /-- `lapd_ph_data_ind(msg, &lctx)`: the frame is handed to the data link `lctx.dl` -/
  | phDataInd (lctx : Lctx) (payload : List Byte)
  /-- `lapd_recv_dlsap(&dp, &sap->dl.lctx)` with a request primitive -/
  | dlReq (prim : Prim) (dl : Nat) (payload : List Byte)
  /-- `lapd_dl_exit(&sap->dl)` and `talloc_free(sap)` -/
  | sapFree (dl : Nat)
  /-- `li->receive_cb(dp, tei, sapi, li->receive_cbdata)` -/
  | receive (cb cbdata : Ptr) (prim : Prim) (tei sapi : Byte) (payload : List Byte)
  deriving DecidableEq, Repr

/-! ### macros, lapd.c:39-65 -/

/-- lapd.c:39 -/
def ADDR2 (sapi cr : Byte) : Byte := ((sapi &&& 0x3f) <<< 2) ||| ((cr &&& 1) <<< 1)
/-- lapd.c:40 -/
def ADDR3 (tei : Byte) : Byte := ((tei &&& 0x7f) <<< 1) ||| 1
/-- lapd.c:42 -/
def ADDR_SAPI (a : Byte) : Byte := a >>> 2
/-- lapd.c:43 -/
def ADDR_CR (a : Byte) : Byte := (a >>> 1) &&& 1
/-- lapd.c:44 -/
def ADDR_EA (a : Byte) : Byte := a &&& 1
/-- lapd.c:45 -/
def ADDR_TEI (a : Byte) : Byte := a >>> 1
/-- lapd.c:47 -/
def CTRL_I4 (ns : Byte) : Byte := (ns &&& 0x7f) <<< 1
/-- lapd.c:48 -/
def CTRL_I5 (nr p : Byte) : Byte := ((nr &&& 0x7f) <<< 1) ||| (p &&& 1)
/-- lapd.c:49 -/
def CTRL_S4 (s : Byte) : Byte := ((s &&& 3) <<< 2) ||| 1
/-- lapd.c:50 -/
def CTRL_S5 (nr p : Byte) : Byte := ((nr &&& 0x7f) <<< 1) ||| (p &&& 1)
/-- lapd.c:51 -/
def CTRL_U4 (u p : Byte) : Byte :=
  ((u &&& 0x1c) <<< 3) ||| ((p &&& 1) <<< 4) ||| ((u &&& 3) <<< 2) ||| 3
/-- lapd.c:53 -/
def is_I (c : Byte) : Bool := (c &&& 1) == 0
/-- lapd.c:54 -/
def is_S (c : Byte) : Bool := (c &&& 3) == 1
/-- lapd.c:55 -/
def is_U (c : Byte) : Bool := (c &&& 3) == 3
/-- lapd.c:57 -/
def CTRL_U_BITS (c : Byte) : Byte := ((c &&& 0x0c) >>> 2) ||| ((c &&& 0xe0) >>> 3)
/-- lapd.c:58 -/
def CTRL_U_PF (c : Byte) : Byte := (c >>> 4) &&& 1
/-- lapd.c:60 -/
def CTRL_S_BITS (c : Byte) : Byte := (c &&& 0x0c) >>> 2
/-- lapd.c:61 -/
def CTRL_S_PF (c : Byte) : Byte := c &&& 1
/-- lapd.c:63 -/
def CTRL_I_Ns (c : Byte) : Byte := (c &&& 0xfe) >>> 1
/-- lapd.c:64 -/
def CTRL_I_P (c : Byte) : Byte := c &&& 1
/-- lapd.c:65 -/
def CTRL_Nr (c : Byte) : Byte := (c &&& 0xfe) >>> 1

/-! ### TEI and SAP tables -/

/-- lapd.c:174-183 `teip_from_tei`: the first entry of the list -/
def teipFromTei (li : Li) (tei : Byte) : Option Tei := li.teis.find? (fun t => t.tei == tei)

/-- lapd.c:195-211 `lapd_tei_alloc`: `llist_add` puts the new entry first -/
def teiAlloc (li : Li) (tei : Byte) : Li := { li with teis := { tei := tei, saps := [] } :: li.teis }

/-- lapd.c:214-224 `lapd_sap_find` -/
def sapFind (t : Tei) (sapi : Byte) : Option Sap := t.saps.find? (fun s => s.sapi == sapi)

/-- replace the first entry for `tei` (the one `teip_from_tei` returns) -/
def updTei : List Tei → Byte → (Tei → Tei) → List Tei
  | [], _, _ => []
  | t :: ts, tei, f => if t.tei == tei then f t :: ts else t :: updTei ts tei f

/-- lapd.c:230-277: the initial contents of a new SAP -/
def newSap (li : Li) (tei sapi : Byte) : M Sap := do
  let k ← rd li.profile.k (sapi &&& 0x3f).toNat
  .ok { id := li.nextId, sapi := sapi, k := k, maxf := li.profile.n201, n200 := li.profile.n200,
        t200 := li.profile.t200, t203 := li.profile.t203, network := li.networkSide, lctxTei := tei, lctxSapi := sapi }

/-- lapd.c:230-277 `lapd_sap_alloc(teip, sapi)` where `teip` is the entry found for `tei`;
`llist_add` puts the new entry first -/
def sapAlloc (li : Li) (tei sapi : Byte) : M (Li × Sap) := do
  let s ← newSap li tei sapi
  .ok ({ li with nextId := li.nextId + 1,
                 teis := updTei li.teis tei (fun t => { t with saps := s :: t.saps }) }, s)

/-- lapd.c:280-291 `lapd_sap_free` -/
def sapFree (li : Li) (id : Nat) : Li :=
  { li with teis := li.teis.map fun t => { t with saps := t.saps.filter fun s => s.id != id } }

/-- the object a `struct lapd_datalink *` refers to, with the number of its TEI -/
def sapById (li : Li) (id : Nat) : Option (Tei × Sap) :=
  (li.teis.flatMap fun t => t.saps.map fun s => (t, s)).find? fun p => p.2.id == id

/-! ### receiving -/

/-- `LAPD_ERR_*`, include/osmocom/abis/lapd.h:46-56 -/
inductive Err where
  | badLen | unknownTei | noMem
  deriving DecidableEq, Repr

def ENOMEM : Int := 12

/-- what `lapd_receive` returns: the instance afterwards, the return code, `*error` if written, and
the actions -/
structure Rx where
  li : Li
  rc : Int
  error : Option Err
  acts : List Act
  deriving DecidableEq, Repr

/-- lapd.c:348-349 the "identity assigned" answer -/
def teiResponse (action : Byte) : List Byte :=
  [0xfe, 0xff, 0x03, 0x0f, 0x00, 0x00, 0x02, (action <<< 1) ||| 1]

/-- lapd.c:338-345: allocate the TEI unless it is known -/
def ensureTei (li : Li) (tei : Byte) : Li :=
  match teipFromTei li tei with
  | some _ => li
  | none => teiAlloc li tei

/-- lapd.c:307-369 `lapd_tei_receive` -/
def teiReceive (li : Li) (data : List Byte) : M (Li × Int × List Act) :=
  if data.length < 5 then .ok (li, -EINVAL, [])
  else do
    let mt ← rd data 3
    let d4 ← rd data 4
    let action := d4 >>> 1
    if mt == 0x01 then
      let resp := teiResponse action
      .ok (ensureTei li action, 0,
        [.pcap true resp, .transmit li.transmitCb li.transmitCbdata resp])
    else .ok (li, 0, [])

/-- lapd.c:410-452 the control field at index `i`; `none` is the `LAPD_ERR_BAD_LEN` return.  The
result includes the index behind the control field. -/
def parseCtrl (d : List Byte) (lctx : Lctx) (i : Nat) : M (Option (Lctx × Nat)) := do
  let c ← rd d i
  if is_I c then
    let lctx := { lctx with format := .i, n_send := CTRL_I_Ns c }
    let i := i + 1
    if d.length < 3 && i == 2 then .ok none
    else if d.length < 4 && i == 3 then .ok none
    else do
      let c2 ← rd d i
      .ok (some ({ lctx with n_recv := CTRL_Nr c2, p_f := CTRL_I_P c2 }, i + 1))
  else if is_S c then
    let lctx := { lctx with format := .s, s_u := CTRL_S_BITS c }
    let i := i + 1
    if d.length < 3 && i == 2 then .ok none
    else if d.length < 4 && i == 3 then .ok none
    else do
      let c2 ← rd d i
      .ok (some ({ lctx with n_recv := CTRL_Nr c2, p_f := CTRL_S_PF c2 }, i + 1))
  else if is_U c then
    .ok (some ({ lctx with format := .u, s_u := CTRL_U_BITS c, p_f := CTRL_U_PF c }, i + 1))
  else
    .ok (some ({ lctx with format := .ukn }, i + 1))

/-- lapd.c:384-452 the header of a frame; `none` is the `LAPD_ERR_BAD_LEN` return -/
def parseHeader (d : List Byte) : M (Option (Lctx × Nat)) :=
  if d.length < 2 then .ok none
  else do
    let a ← rd d 0
    let lctx := { Lctx.zero with sapi := ADDR_SAPI a, cr := ADDR_CR a, lpd := 0 }
    if ADDR_EA a == 0 then
      if d.length < 3 then .ok none
      else do
        let a2 ← rd d 1
        parseCtrl d { lctx with tei := ADDR_TEI a2 } 2
    else parseCtrl d lctx 1

/-- lapd.c:473-483: find or allocate the SAP -/
def ensureSap (li : Li) (t : Tei) (tei sapi : Byte) : M (Li × Sap) :=
  match sapFind t sapi with
  | some s => .ok (li, s)
  | none => sapAlloc li tei sapi

/-- lapd.c:484-496 -/
def deliver (li : Li) (s : Sap) (lctx : Lctx) (payload : List Byte) (coreRc : Int) : Rx :=
  let lctx := { lctx with dl := s.id, n201 := s.maxf }
  if payload.length > s.maxf then ⟨li, -EINVAL, some .badLen, [.freeMsg]⟩
  else ⟨li, coreRc, none, [.phDataInd lctx payload]⟩

/-- lapd.c:466-496: resolve TEI and SAPI -/
def dispatch (li : Li) (lctx : Lctx) (payload : List Byte) (coreRc : Int) : M Rx :=
  match teipFromTei li lctx.tei with
  | none => .ok ⟨li, -EINVAL, some .unknownTei, [.freeMsg]⟩
  | some t => do
    let r ← ensureSap li t lctx.tei lctx.sapi
    .ok (deliver r.1 r.2 lctx payload coreRc)

/-- lapd.c:454-496, behind the header -/
def receiveBody (li : Li) (lctx : Lctx) (payload : List Byte) (coreRc : Int) : M Rx :=
  let lctx := { lctx with length := payload.length }
  if lctx.tei == 127 then do
    let r ← teiReceive li payload
    .ok ⟨r.1, r.2.1, none, r.2.2 ++ [.freeMsg]⟩
  else dispatch li lctx payload coreRc

/-- lapd.c:384-496, after the pcap write -/
def receiveParsed (li : Li) (d : List Byte) (coreRc : Int) : Option (Lctx × Nat) → M Rx
  | none => .ok ⟨li, -EINVAL, some .badLen, []⟩
  | some (lctx, i) => receiveBody li lctx (d.drop i) coreRc

/-- lapd.c:372-497 `lapd_receive`; `coreRc` is what `lapd_ph_data_ind` returns -/
def receive (li : Li) (d : List Byte) (coreRc : Int) : M Rx := do
  let h ← parseHeader d
  let r ← receiveParsed li d coreRc h
  .ok { r with acts := .pcap false d :: r.acts }

/-- src/e1_input.c:911-914 of `e1inp_rx_ts_lapd` -/
def rxTei (d : List Byte) (a : Byte) : M Byte :=
  if (a &&& 1) != 0 then .ok 0
  else do
    let b ← rd d 1
    .ok (b >>> 1)

/-- src/e1_input.c:918-932 of `e1inp_rx_ts_lapd`: the last component are the `S_L_INP_TEI_UNKNOWN`
events raised, with (tei, sapi) -/
def rxTsTail (li : Li) (d : List Byte) (coreRc : Int) (tei sapi : Byte) :
    M (Li × Int × List Act × List (Byte × Byte)) := do
  let r ← receive li d coreRc
  if r.rc < 0 && r.error == some .unknownTei then .ok (r.li, -EIO, r.acts, [(tei, sapi)])
  else .ok (r.li, 0, r.acts, [])

/-- src/e1_input.c:905-933 `e1inp_rx_ts_lapd` -/
def rxTsLapd (li : Li) (d : List Byte) (coreRc : Int) :
    M (Li × Int × List Act × List (Byte × Byte)) := do
  let a ← rd d 0
  let tei ← rxTei d a
  rxTsTail li d coreRc tei (a >>> 2)

/-! ### sending -/

/-- lapd.c:595-614 the control field; `none` for an unknown format -/
def ctrlField (lctx : Lctx) : Option (List Byte) :=
  match lctx.format with
  | .i => some [CTRL_I4 lctx.n_send, CTRL_I5 lctx.n_recv lctx.p_f]
  | .s => some [CTRL_S4 lctx.s_u, CTRL_S5 lctx.n_recv lctx.p_f]
  | .u => some [CTRL_U4 lctx.s_u lctx.p_f]
  | .ukn => none

/-- lapd.c:616-625 the address field -/
def addrField (li : Li) (lctx : Lctx) : List Byte :=
  if li.profile.shortAddress && lctx.tei == 0 then [ADDR2 lctx.sapi lctx.cr ||| 1]
  else [ADDR2 lctx.sapi lctx.cr, ADDR3 lctx.tei]

/-- `msgb_push(msg, n)` calls `osmo_panic` if the headroom is too small -/
def push (headroom : Nat) (bytes msg : List Byte) : M (Nat × List Byte) :=
  if bytes.length ≤ headroom then .ok (headroom - bytes.length, bytes ++ msg) else .error .assert

/-- lapd.c:595-634 of `send_ph_data_req` for a message `payload` with the given headroom -/
def sendFrame (li : Li) (lctx : Lctx) (payload : List Byte) (headroom : Nat) :
    M (Int × List Act) :=
  match ctrlField lctx with
  | none => .ok (-EINVAL, [.freeMsg])
  | some c => do
    let m ← push headroom c payload
    let m ← push m.1 (addrField li lctx) m.2
    .ok (0, [.pcap true m.2, .transmit li.transmitCb li.transmitCbdata m.2])

/-- lapd.c:586-635 `send_ph_data_req`; using the data link of a SAP which does not exist (any more)
is a `badptr` fault (lapd.c:588-591 dereferences it) -/
def sendPhDataReq (li : Li) (lctx : Lctx) (payload : List Byte) (headroom : Nat) :
    M (Int × List Act) :=
  match sapById li lctx.dl with
  | none => .error .badptr
  | some _ => sendFrame li lctx payload headroom

/-- lapd.c:638-670 `send_dlsap` for a primitive of the data link `lctx.dl`; using the data link of
a SAP which does not exist (any more) is a `badptr` fault -/
def sendDlsap (li : Li) (lctx : Lctx) (prim : Prim) (payload : List Byte) : M (Li × List Act) :=
  match sapById li lctx.dl with
  | none => .error .badptr
  | some _ =>
    let up := Act.receive li.receiveCb li.receiveCbdata prim lctx.tei lctx.sapi payload
    if prim == .rel then .ok (sapFree li lctx.dl, [.sapFree lctx.dl, up])
    else .ok (li, [up])

/-! ### requests of the user -/

/-- lapd.c:511-527 -/
def sapStartOn (li : Li) (t : Tei) (tei sapi : Byte) (coreRc : Int) : M (Li × Int × List Act) :=
  match sapFind t sapi with
  | some _ => .ok (li, -EEXIST, [])
  | none => do
    let r ← sapAlloc li tei sapi
    .ok (r.1, coreRc, [.dlReq .est r.2.id []])

/-- lapd.c:500-528 `lapd_sap_start`; `coreRc` is what `lapd_recv_dlsap` returns -/
def sapStart (li : Li) (tei sapi : Byte) (coreRc : Int) : M (Li × Int × List Act) :=
  match teipFromTei li tei with
  | some t => sapStartOn li t tei sapi coreRc
  | none => sapStartOn (teiAlloc li tei) { tei := tei, saps := [] } tei sapi coreRc

/-- lapd.c:507-523: the SAP for a TEI and SAPI as looked up by `lapd_sap_stop`/`lapd_transmit` -/
def lookup (li : Li) (tei sapi : Byte) : Option Sap :=
  match teipFromTei li tei with
  | none => none
  | some t => sapFind t sapi

/-- lapd.c:531-555 `lapd_sap_stop` -/
def sapStop (li : Li) (tei sapi : Byte) (coreRc : Int) : Int × List Act :=
  match lookup li tei sapi with
  | none => (-ENODEV, [])
  | some s => (coreRc, [.dlReq .rel s.id []])

/-- lapd.c:558-584 `lapd_transmit` -/
def transmit (li : Li) (tei sapi : Byte) (msg : List Byte) : List Act :=
  match lookup li tei sapi with
  | none => [.freeMsg]
  | some s => [.dlReq .data s.id msg]

/-! ### instances -/

/-- lapd.c:673-697 `lapd_instance_alloc2` -/
def instanceAlloc2 (networkSide : Bool) (txCb txCbdata rxCb rxCbdata : Ptr) (p : Profile) : Li :=
  { networkSide := networkSide, transmitCb := txCb, transmitCbdata := txCbdata, receiveCb := rxCb,
    receiveCbdata := rxCbdata, profile := p, teis := [], nextId := 0 }

/-- lapd.c:699-706 `lapd_instance_alloc` -/
def instanceAlloc (networkSide : Bool) (txCb txCbdata rxCb rxCbdata : Ptr) (p : Profile) : Li :=
  instanceAlloc2 networkSide txCbdata txCb rxCb rxCbdata p

/-- lapd.c:710-714 `lapd_instance_set_profile` -/
def setProfile (li : Li) (p : Profile) : Li := { li with profile := p }

/-- lapd.c:294-304 `lapd_tei_free` -/
def teiFree (t : Tei) : List Act := t.saps.map fun s => .sapFree s.id

/-- lapd.c:716-726 `lapd_instance_free` -/
def instanceFree (li : Li) : List Act := li.teis.flatMap teiFree

/-! ### histories -/

/-- One event in the life of an instance.  `coreTx` and `coreInd` are the callbacks the data link
of a SAP may make at any time. -/
inductive Op where
  | receive (frame : List Byte) (coreRc : Int)
  | sapStart (tei sapi : Byte) (coreRc : Int)
  | sapStop (tei sapi : Byte) (coreRc : Int)
  | transmit (tei sapi : Byte) (msg : List Byte)
  | teiAlloc (tei : Byte)
  | setProfile (p : Profile)
  | coreTx (lctx : Lctx) (payload : List Byte) (headroom : Nat)
  | coreInd (lctx : Lctx) (prim : Prim) (payload : List Byte)
  deriving DecidableEq, Repr

/-- execute one event -/
def step (li : Li) : Op → M (Li × List Act)
  | .receive f rc => do
    let r ← receive li f rc
    .ok (r.li, r.acts)
  | .sapStart t s rc => do
    let r ← sapStart li t s rc
    .ok (r.1, r.2.2)
  | .sapStop t s rc => .ok (li, (sapStop li t s rc).2)
  | .transmit t s m => .ok (li, transmit li t s m)
  | .teiAlloc t => .ok (teiAlloc li t, [])
  | .setProfile p => .ok (setProfile li p, [])
  | .coreTx lctx p h => do
    let r ← sendPhDataReq li lctx p h
    .ok (li, r.2)
  | .coreInd lctx prim p => sendDlsap li lctx prim p

/-- execute a history -/
def run (li : Li) : List Op → M (Li × List Act)
  | [] => .ok (li, [])
  | op :: ops => do
    let r ← step li op
    let q ← run r.1 ops
    .ok (q.1, r.2 ++ q.2)

end Verif.Lapd
