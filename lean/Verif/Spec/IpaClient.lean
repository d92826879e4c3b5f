import Verif.IpaClient
/-!
# Specification: life of an IPA client connection as seen by the application and the kernel
-/
namespace Verif.Ipa.Cli

/-- where a connection is, judging from what was observed: no socket; a socket for which no result was reported
yet; reported as up; its socket was closed in the operation under way -/
inductive Phase where
  | closed | opening (fd : Nat) | up (fd : Nat) | closing
  deriving DecidableEq, Repr

/-- what may be observed next.  "Up" is reported at most once per socket; data is delivered, and messages are
handed to the socket, only while up; "down" is reported only for a socket that has just been closed, at most
once; sockets are closed exactly once. -/
def Phase.next : Phase → Act → Option Phase
  | .closed, .opened f => some (.opening f)
  | .closing, .down => some .closed
  | .opening f, .up => some (.up f)
  | .opening f, .closeFd g => if g = f then some .closing else none
  | .up f, .closeFd g => if g = f then some .closing else none
  | .up f, .deliver _ => some (.up f)
  | .up f, .sendTo (some g) _ => if g = f then some (.up f) else none
  | p, .free _ => some p
  | _, _ => none

/-- one operation -/
def Phase.acts : Phase → List Act → Option Phase
  | p, [] => some p
  | p, a :: as => match p.next a with | none => none | some q => q.acts as

/-- the operation is over: no "down" may follow any more -/
def Phase.settle : Phase → Phase
  | .closing => .closed
  | p => p

/-- a history -/
def Phase.hist : Phase → List (List Act) → Option Phase
  | p, [] => some p
  | p, as :: r => match p.acts as with | none => none | some q => q.settle.hist r

/-- What may happen: the object is not used after it was destroyed; it is destroyed while closed (as its
descriptor stays registered otherwise) and not in the down callback of a failed write; events come from the
main loop, for registered descriptors with the interest enabled and for the running timer; the read callback
returns -EBADF if it closed or destroyed the connection (ipa.h:79). -/
def Adm (c : Conn) : Op → Prop
  | .open2 _ _ _ => c.gone = false
  | .close => c.gone = false
  | .send _ => c.gone = false
  | .clear => c.gone = false
  | .destroy => c.gone = false ∧ c.fd = none ∧ ∀ m, Frame.afterDownWrite m ∉ c.frames
  | .fd _ wr _ _ _ => c.frames = [] ∧ c.reg = true ∧ (wr = true → c.wr = true)
  | .timeout => c.frames = [] ∧ c.timer = true
  | .cbReturn rc => ∃ f fs, c.frames = f :: fs ∧
      ∀ g wr snd, f = .afterRead g wr snd → c.gone = true ∨ c.fd = none ∨ c.gen ≠ g → rc = -EBADF

def AdmRun (c : Conn) : List Op → Prop
  | [] => True
  | op :: ops => Adm c op ∧ ∀ c' a, step c op = .ok (c', a) → AdmRun c' ops

/-- the messages passed to `ipa_client_conn_send` -/
def sends : List Op → List Msg
  | [] => []
  | .send m :: r => m :: sends r
  | _ :: r => sends r

/-- the messages handed to the socket -/
def handed (acts : List Act) : List Msg :=
  acts.filterMap fun a => match a with | .sendTo _ m => some m | _ => none

/-- the messages freed -/
def freed (acts : List Act) : List Msg :=
  acts.filterMap fun a => match a with | .free m => some m | _ => none

/-- messages held by a running write -/
def inflight (fs : List Frame) : List Msg :=
  fs.filterMap fun f => match f with | .afterDownWrite m => some m | _ => none

end Verif.Ipa.Cli
