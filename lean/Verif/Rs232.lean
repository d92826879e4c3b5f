import Verif.Base
/-!
# Model of `src/input/rs232.c`

The configuration of the serial port (rs232.c:215-291) is not modelled, nor logging.  What `read()` and `write()` return
is part of the operation.
-/
namespace Verif.Rs232

/-- rs232.c:52 -/
def HDR_LEN : Nat := 10
/-- rs232.c:115 -/
def ALLOC_SIZE : Nat := 300

/-- rs232.c:56-78 `rs232_build_msg`; `len` is `msg->len` after `msgb_push` -/
def buildMsg (data : List Byte) : List Byte :=
  let len := data.length + HDR_LEN
  let l := BitVec.ofNat 8 (len - 10)
  [BitVec.ofNat 8 ((len - 2) / 256), BitVec.ofNat 8 (len - 2), 0x00, 0x07, 0x01, 0x3e, 0x00, 0x00, l, l ^^^ 0x38] ++ data

/-- `sh->rx_msg`: NULL, a message buffer with the octets received so far, or a pointer to a freed one -/
inductive Rx where
  | null | buf (d : List Byte) | freed
  deriving DecidableEq, Repr

/-- rs232.c:43-50 `struct serial_handle`; `cb`: the line has a `sign_link` callback -/
structure Sh where
  rx : Rx
  missing : Nat
  cb : Bool
  deriving DecidableEq, Repr

inductive Act where
  /-- `sign_link(msg)`: the octets of the message, and the offset of `l2h` if it is set -/
  | deliver (d : List Byte) (l2h : Option Nat)
  /-- the message is neither delivered nor freed -/
  | leak (d : List Byte)
  /-- `write(fd, data, len)` -/
  | write (d : List Byte)
  deriving DecidableEq, Repr

/-- rs232.c:125-154, 156-186: how many octets `read()` is asked for -/
def want (sh : Sh) : Nat :=
  match sh.rx with
  | .null => 2
  | .buf d => if d.length < 2 then 2 - d.length else sh.missing
  | .freed => 0

/-- rs232.c:144-149: the length in the first two octets -/
def hdrLen (d : List Byte) : Nat :=
  match d with
  | x :: y :: _ => x.toNat * 256 + y.toNat
  | _ => 0

/-- rs232.c:118-189 `handle_ser_read`; `r` is what `read()` returned.  `read()` writes to the tail of the buffer of 300
octets. -/
def serRead (sh : Sh) (r : Except Unit (List Byte)) : M (Sh × Int × List Act) :=
  let go (d : List Byte) : M (Sh × Int × List Act) :=
    match r with
    | .error _ => .ok ({ sh with rx := .freed }, -1, [])
    | .ok bs =>
      if ALLOC_SIZE < d.length + bs.length then .error .oob
      else if d.length < 2 then
        let d' := d ++ bs
        if 2 ≤ d'.length then .ok ({ sh with rx := .buf d', missing := hdrLen d' }, bs.length, [])
        else .ok ({ sh with rx := .buf d' }, bs.length, [])
      else
        let d' := d ++ bs
        let missing := sh.missing - bs.length
        if missing = 0 then
          let l2h := if HDR_LEN < d'.length then some HDR_LEN else none
          if sh.cb then .ok ({ sh with rx := .null, missing := 0 }, bs.length, [.deliver d' l2h])
          else .ok ({ sh with rx := .null, missing := 0 }, -EINVAL, [.leak d'])
        else .ok ({ sh with rx := .buf d', missing := missing }, bs.length, [])
  match sh.rx with
  | .null => go []
  | .buf d => go d
  | .freed => .error .badptr

/-- rs232.c:81-113 `handle_ser_write`: `msg` is what `e1inp_tx_ts` returned, `n` what `write()` returned -/
def serWrite (msg : Option (List Byte)) (n : Int) : Int × List Act :=
  match msg with
  | none => (0, [])
  | some d => if n < (buildMsg d).length then (-1, [.write ((buildMsg d).take n.toNat)]) else (0, [.write (buildMsg d)])

/-- a sequence of read events -/
def run (sh : Sh) : List (Except Unit (List Byte)) → M (Sh × List Act)
  | [] => .ok (sh, [])
  | r :: rs => do
    let (sh, _, a) ← serRead sh r
    let (sh, b) ← run sh rs
    .ok (sh, a ++ b)

/-- rs232.c:250-257: `talloc_zero` -/
def init (cb : Bool) : Sh := { rx := .null, missing := 0, cb := cb }

end Verif.Rs232
