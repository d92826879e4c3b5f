import Verif.IpAccess
/-!
# Specification: connections, lines and signalling links of an ip.access BSC
-/
namespace Verif.IpAccess.Bsc

/-- the number of connections attached to a line -/
def attached (w : W) (l : Nat) : Nat := w.conns.countP (fun c => c.line == l)

/-- the number of signalling links of a line -/
def linked (w : W) (l : Nat) : Nat := w.links.countP (fun k => k.line == l)

/-- `c` is an existing connection, and is attached to the time slot `t` of the line `l` -/
def At (w : W) (c l t : Nat) : Prop := ∃ x ∈ w.conns, x.id = c ∧ x.line = l ∧ x.ts = t

/-- the state of a line with `b` connections and `u` signalling links: it is allocated iff there is any -/
def tally (b u : Nat) : Option (Int × Int) := if b + u = 0 then none else some ((b : Int), (u : Int))

/-- what the application asked to send on a signalling link -/
def asked (k : Nat) : List Op → List (List Byte)
  | [] => []
  | .sendmsg j m :: ops => if j = k then m :: asked k ops else asked k ops
  | _ :: ops => asked k ops

/-- what was sent for a signalling link -/
def sentOn (k : Nat) : List Act → List (List Byte)
  | [] => []
  | .send _ j m :: as => if j = k then m :: sentOn k as else sentOn k as
  | _ :: as => sentOn k as

/-- the links of a time slot have sent all that was queued -/
def flush (l t : Nat) (ks : List SLink) : List SLink :=
  ks.map (fun k => if k.line = l ∧ k.ts = t then { k with q := [] } else k)

/-- a message of a link as it is sent: with the IPA header, that has the TEI of the link as protocol -/
def framed (k : SLink) (m : List Byte) : List Byte := Ipa.pushHeader m k.tei

/-- all that is queued on the links of a time slot, link by link, each in the order of its queue; the messages of links of
unknown type are dropped -/
def burst (l t c : Nat) : List SLink → List Act
  | [] => []
  | k :: ks =>
    (if k.line = l ∧ k.ts = t ∧ (k.type = 1 ∨ k.type = 2 ∨ k.type = 3) then k.q.map (fun m => .send c k.id (framed k m)) else []) ++ burst l t c ks

/-- what the peers and the application are trusted with.  An event refers to something that exists.  A BTS says the number
of a TRX below 31 that has no connection yet, whose time slot the application has configured; a connection that has a
keepalive FSM does not change to another line.  Links have a known type.  No keepalive expires. -/
def Calm (w : W) : Op → Prop
  | .omlAccept _ => True
  | .rslAccept _ => True
  | .idResp c trx up => ∃ x ∈ w.conns, x.id = c ∧ ∀ nl, up = some nl → 0 < linked w nl ∧
      ((w.ts x.line x.ts).priv = 2 → nl ≠ x.line →
        trx < 31 ∧ (w.ts nl (1 + trx)).conn = none ∧ (w.ts nl (1 + trx)).sign = true ∧ (w.ts x.line x.ts).ka = none)
  | .closed c => ∃ x ∈ w.conns, x.id = c
  | .rx c _ _ => ∃ x ∈ w.conns, x.id = c
  | .config l _ => w.lines l ≠ none
  | .linkCreate l _ ty _ _ => w.lines l ≠ none ∧ (ty = 1 ∨ ty = 2 ∨ ty = 3)
  | .linkDestroy k => ∃ x ∈ w.links, x.id = k
  | .sendmsg k _ => ∃ x ∈ w.links, x.id = k
  | .kaTimeout l t => (w.ts l t).ka = none

/-- a history all of whose operations are so -/
def CalmRun (w : W) : List Op → Prop
  | [] => True
  | op :: ops => Calm w op ∧ ∀ w' a, step w op = .ok (w', a) → CalmRun w' ops

/-- every connection is the one its time slot knows; a time slot has a keepalive FSM only for its connection -/
structure Tidy (w : W) : Prop where
  back : ∀ x ∈ w.conns, (w.ts x.line x.ts).conn = some x.id
  ka : ∀ l t c, (w.ts l t).ka = some c → (w.ts l t).conn = some c

end Verif.IpAccess.Bsc
