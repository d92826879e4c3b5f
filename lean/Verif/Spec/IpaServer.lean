import Verif.IpaServer
/-!
# Specification: life of an IPA server connection as seen by the application and the kernel
-/
namespace Verif.Ipa.Srv

/-- where a connection is: open; its socket was just closed; the application was told (`closed_cb`); freed -/
inductive Phase where
  | live (fd : Nat) | closing | closed | freed
  deriving DecidableEq, Repr

/-- what may be observed next (`cb`: there is a `closed_cb`).  The socket is closed once; then the application is told,
once; then the object is freed, once, and nothing follows.  Messages are delivered, and handed to the socket, only while
it is open. -/
def Phase.next (cb : Bool) : Phase → Act → Option Phase
  | .live f, .deliver _ => some (.live f)
  | .live f, .ccm => some (.live f)
  | .live f, .sendTo (some g) _ _ => if g = f then some (.live f) else none
  | .live f, .free _ => some (.live f)
  | .live f, .closeFd g => if g = f then some .closing else none
  | .closing, .closed => if cb then some .closed else none
  | .closing, .freeConn => if cb then none else some .freed
  | .closed, .ccm => some .closed
  | .closed, .freeConn => some .freed
  | _, _ => none

def Phase.acts (cb : Bool) : Phase → List Act → Option Phase
  | p, [] => some p
  | p, a :: as => match p.next cb a with | none => none | some q => q.acts cb as

/-- What may happen: the object is not used after it was freed; `ccm_cb` is set if ID RESP messages are passed to
`ipa_server_conn_ccm`; events come from the main loop, for registered descriptors with the interest enabled; the read
callback returns -EBADF if the connection was destroyed in it (ipa.h:44); `ccm_cb` does not return an error if it
destroyed the connection. -/
def Adm (c : Conn) : Op → Prop
  | .send _ => c.gone = false
  | .destroy => c.gone = false
  | .ccm x => c.gone = false ∧ (x.msgType = MSGT_ID_RESP → c.ccmCb = true)
  | .fd _ wr _ _ => c.frames = [] ∧ c.reg = true ∧ (wr = true → c.wr = true)
  | .cbReturn rc => ∃ f fs, c.frames = f :: fs ∧
      (∀ wr ok, f = .afterRead wr ok → c.gone = true ∨ c.fd = none → rc = -EBADF) ∧
      (f = .afterCcm → c.gone = true → 0 ≤ rc)

def AdmRun (c : Conn) : List Op → Prop
  | [] => True
  | op :: ops => Adm c op ∧ ∀ c' a, step c op = .ok (c', a) → AdmRun c' ops

/-- the messages passed to `ipa_server_conn_send` -/
def sends : List Op → List Msg
  | [] => []
  | .send m :: r => m :: sends r
  | _ :: r => sends r

/-- the messages handed to the socket -/
def handed (acts : List Act) : List Msg :=
  acts.filterMap fun a => match a with | .sendTo _ m _ => some m | _ => none

/-- the messages freed -/
def freed (acts : List Act) : List Msg :=
  acts.filterMap fun a => match a with | .free m => some m | _ => none

/-- descriptors opened or accepted and not closed -/
def openFds (acts : List LAct) : List Nat → List Nat :=
  fun l => acts.foldl (fun l a => match a with | .opened f => f :: l | .closeFd f => l.erase f | .accept f => f :: l) l

end Verif.Ipa.Srv
