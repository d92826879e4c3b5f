import Verif.Ortp
/-!
# Specification: what a history of calls means for an RTP socket
-/
namespace Verif.Ortp

/-- a call that connects the socket -/
def enables : Op → Bool
  | .connect port remote _ _ => decide (port ≠ 0) && remote
  | .autoconnect _ _ => true
  | _ => false

/-- a call that connects the socket, and in which both descriptors can be registered with the select loop -/
def listens : Op → Bool
  | .connect port remote ok1 ok2 => decide (port ≠ 0) && remote && ok1 && ok2
  | .autoconnect ok1 ok2 => ok1 && ok2
  | _ => false

/-- RTP clock ticks that pass in a call -/
def duration : Op → Nat
  | .skipped d => d
  | .send _ d _ alloc _ => if alloc then d else 0
  | _ => 0

/-- the transmit clock after a history: the sum of the durations since the socket was first connected -/
def ticks (h : List Op) : Nat := ((h.dropWhile (fun o => !enables o)).map duration).sum

def isReadable : Op → Bool
  | .readable _ => true
  | _ => false

def userTicks : Op → Nat
  | .userTs d => d
  | _ => 0

/-- the number of read events between the registration and the release of the socket -/
def reads (poll : Bool) (h : List Op) : Nat :=
  if poll then 0 else ((h.takeWhile (fun o => !decide (o = .free))).dropWhile (fun o => !listens o)).countP isReadable

/-- the receive clock: 160 for each read event, and what the application has added -/
def rxTicks (poll : Bool) (h : List Op) : Nat := 160 * reads poll h + (h.map userTicks).sum

/-- a packet obtained from oRTP is passed to the application unless it is empty -/
def delivered (cb : Bool) : Option Pkt → List Act
  | none => []
  | some p => if cb = true ∧ p.payload ≠ [] then [.rx p.payload p.seq p.ts p.marker] else []

/-- no call of the API is made after the socket was freed -/
def noUseAfterFree : List Op → Bool
  | [] => true
  | op :: ops => (if op = .free then ops.all isReadable else true) && noUseAfterFree ops

/-- calls that set the jitter buffer; parameter 2 (adaptive) sets parameter 1 as well -/
def setsJit : Op → Option Int
  | .setParam 1 v => some v
  | .setParam 2 v => some v
  | _ => none

def setsAdap : Op → Option Int
  | .setParam 2 v => some v
  | _ => none

/-- the last value it was set to, if any -/
def last (f : Op → Option Int) : List Op → Option Int
  | [] => none
  | op :: ops => (last f ops).or (f op)

end Verif.Ortp
