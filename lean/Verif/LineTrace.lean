import Verif.Base
/-!
# Model of the trace and of the keepalive parameters of a line and of its clones

`e1_set_pcap_fd2` (e1_input.c:142-175), the commands `e1_line pcap`, `no e1_line pcap` and `e1_line ipa-keepalive`
(e1_input_vty.c:188-212, 276-318), `e1inp_line_clone` (e1_input.c:657-700), the creation of LAPD instances (lapd.c:673-697), and where
packets are written (e1_input.c:321-324, 853-854, lapd.c:355, 381, 628).

The descriptors of the process are a table; `open()` and `socket()` return any free one.  There is one configured line; its clones
are those of the ip.access driver, its LAPD instances those of the other drivers.  Contents of packets are in `Verif.Pcap`.
-/
namespace Verif.Trace

/-- what a descriptor is open for: the trace that was opened as the `k`-th object, or something else of the application -/
inductive File where
  | trace (k : Nat)
  | other (k : Nat)
  deriving DecidableEq, Repr

/-- e1_input.h:217-251 `struct e1inp_line`: `pcap_fd`, and which `struct ipa_keepalive_params` it points to -/
structure Line where
  fd : Option Nat
  kap : Option Nat
  deriving DecidableEq, Repr

structure W where
  fds : Nat → Option File
  next : Nat
  main : Line
  clones : List (Nat × Line)
  lapd : List (Nat × Option Nat)

def init : W := ⟨fun _ => none, 0, ⟨none, none⟩, [], []⟩

/-- whose packet: of the line, of a clone, of a time slot with LAPD instance -/
inductive Who where
  | line
  | clone (id : Nat)
  | lapd (id : Nat)
  deriving DecidableEq, Repr

inductive Op where
  /-- the descriptor that `open()` returns, if any; whether the header can be written -/
  | pcap (fd : Option Nat) (wr : Bool)
  | noPcap
  /-- the application opens something else, or closes it -/
  | openOther (fd : Nat)
  | closeOther (fd : Nat)
  | clone
  | unclone (id : Nat)
  | lapdCreate
  | lapdDestroy (id : Nat)
  /-- a packet is sent or received -/
  | packet (w : Who)
  /-- `ipa-keepalive`, `no ipa-keepalive` -/
  | setKap (on : Bool)
  /-- the keepalive of a connection of a clone is set up -/
  | kaAlloc (id : Nat)
  deriving DecidableEq, Repr

inductive Act where
  /-- the trace `k` was started, or stopped -/
  | started (k : Nat)
  | stopped
  /-- a packet, and where it was recorded: nowhere (`none`), a descriptor that is not open (`some none`), a file -/
  | packet (w : Who) (dest : Option (Option File))
  /-- a keepalive with the parameters `p` -/
  | keepalive (p : Nat)
  deriving DecidableEq, Repr

def setFd (w : W) (fd : Nat) (f : Option File) : Nat → Option File := fun n => if n = fd then f else w.fds n

/-- `close()` of the previous trace (e1_input.c:171-172) -/
def closeOld (w : W) : Nat → Option File :=
  match w.main.fd with
  | none => w.fds
  | some n => setFd w n none

/-- e1_input.c:142-175 `e1_set_pcap_fd2`, on the line: all its LAPD instances, the previous descriptor, the line; not its clones -/
def setPcap (w : W) (fd : Option Nat) : W :=
  { w with fds := closeOld w, main := { w.main with fd := fd }, lapd := w.lapd.map (fun p => (p.1, fd)) }

/-- where `write(fd, …)` goes -/
def dest (w : W) : Option Nat → Option (Option File)
  | none => none
  | some n => some (w.fds n)

def getLine (ls : List (Nat × α)) (id : Nat) : M α :=
  match ls.find? (fun p => p.1 == id) with
  | some p => .ok p.2
  | none => .error .badptr

def step (w : W) : Op → M (W × List Act)
  -- e1_input_vty.c:276-308
  | .pcap none _ => .ok (w, [])
  | .pcap (some fd) wr =>
    if w.fds fd ≠ none then .ok (w, []) -- not a result of open()
    else if wr = false then .ok ({ w with next := w.next + 1 }, [])
    else .ok (setPcap { w with fds := setFd w fd (some (.trace w.next)), next := w.next + 1 } (some fd), [.started w.next])
  -- e1_input_vty.c:310-318
  | .noPcap => .ok (setPcap w none, [.stopped])
  | .openOther fd =>
    if w.fds fd ≠ none then .ok (w, [])
    else .ok ({ w with fds := setFd w fd (some (.other w.next)), next := w.next + 1 }, [])
  | .closeOther fd =>
    match w.fds fd with
    | some (.other _) => .ok ({ w with fds := setFd w fd none }, [])
    | _ => .ok (w, [])
  -- e1_input.c:667: memcpy
  | .clone => .ok ({ w with clones := w.clones ++ [(w.next, w.main)], next := w.next + 1 }, [])
  -- e1_input.c:539-572: neither the descriptor nor the parameters are released
  | .unclone id => .ok ({ w with clones := w.clones.filter (fun p => p.1 != id) }, [])
  -- lapd.c:690
  | .lapdCreate => .ok ({ w with lapd := w.lapd ++ [(w.next, none)], next := w.next + 1 }, [])
  | .lapdDestroy id => .ok ({ w with lapd := w.lapd.filter (fun p => p.1 != id) }, [])
  | .packet .line => .ok (w, [.packet .line (dest w w.main.fd)])
  | .packet (.clone id) => do
    let l ← getLine w.clones id
    .ok (w, [.packet (.clone id) (dest w l.fd)])
  | .packet (.lapd id) => do
    let fd ← getLine w.lapd id
    .ok (w, [.packet (.lapd id) (dest w fd)])
  -- e1_input_vty.c:200-205
  | .setKap on => .ok ({ w with main := { w.main with kap := if on then some w.next else none }, next := w.next + 1 }, [])
  -- ipaccess.c:104-121: the parameters are read, they are alive only if the line still has them
  | .kaAlloc id => do
    let l ← getLine w.clones id
    match l.kap with
    | none => .ok (w, [])
    | some p => if w.main.kap = some p then .ok (w, [.keepalive p]) else .error .badptr

def run (w : W) : List Op → M (W × List Act)
  | [] => .ok (w, [])
  | op :: ops => do
    let (w, a) ← step w op
    let (w, b) ← run w ops
    .ok (w, a ++ b)

end Verif.Trace
