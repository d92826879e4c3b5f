import Verif.IpAccessBts
/-!
# Specification: clients, keepalive FSMs and signalling links of an ip.access BTS
-/
namespace Verif.IpAccess.Bts

/-- the client that exists for a time slot -/
def client (w : W) (t : Nat) : Option Cli := w.clis.find? (fun x => x.ts == t)

/-- the time slots and what exists agree: the client that a time slot knows is the only one that was made for it, a time slot
knows an FSM iff there is one, which is that of its client and the only one for it; an FSM runs only while its client is connected -/
structure Exact (w : W) : Prop where
  one : ∀ x ∈ w.clis, ∀ y ∈ w.clis, x.ts = y.ts → x = y
  slot : ∀ t c, w.slot t = some c ↔ ∃ x ∈ w.clis, x.id = c ∧ x.ts = t
  ka : ∀ t f, w.ka t = some f ↔ ∃ y ∈ w.fsms, y.id = f ∧ w.slot t = some y.cli
  kone : ∀ y ∈ w.fsms, ∀ z ∈ w.fsms, y.cli = z.cli → y = z
  run : ∀ y ∈ w.fsms, y.run = true → ∃ x ∈ w.clis, x.id = y.cli ∧ x.st = .connected

/-- the client of a time slot was replaced by one that is connecting, with a keepalive FSM iff the keepalive is configured;
or only removed (`ok = false`).  The clients of other time slots and the links are unchanged. -/
structure Replaced (w w' : W) (t : Nat) (ok : Bool) : Prop where
  others : ∀ x, x.ts ≠ t → (x ∈ w'.clis ↔ x ∈ w.clis)
  old : ∀ x ∈ w'.clis, x.ts = t → ok = true ∧ x.st = .connecting ∧ ∀ y ∈ w.clis, y.id ≠ x.id
  new : ok = true → ∃ x ∈ w'.clis, x.ts = t ∧ (w.kap = true ↔ ∃ y ∈ w'.fsms, y.cli = x.id)
  links : w'.links = w.links

/-- what the application asked to send on a signalling link -/
def asked (k : Nat) : List Op → List (List Byte)
  | [] => []
  | .sendmsg j m :: ops => if j = k then m :: asked k ops else asked k ops
  | _ :: ops => asked k ops

/-- what became of the messages of a link: sent with these bytes, or dropped -/
def outcome (k : Nat) : List Act → List (Option (List Byte))
  | [] => []
  | .send _ j m :: as => if j = k then some m :: outcome k as else outcome k as
  | .drop j :: as => if j = k then none :: outcome k as else outcome k as
  | _ :: as => outcome k as

/-- a message of a link as it is sent: with the IPA header, that has the TEI of the link as protocol -/
def framed (k : SLink) (m : List Byte) : List Byte := Ipa.pushHeader m k.tei

/-- one outcome for each message, in order: sent once with its header, or dropped -/
inductive Fates (k : SLink) : List (List Byte) → List (Option (List Byte)) → Prop where
  | nil : Fates k [] []
  | sent {ms os} (m : List Byte) : Fates k ms os → Fates k (ms ++ [m]) (os ++ [some (framed k m)])
  | dropped {ms os} (m : List Byte) : Fates k ms os → Fates k (ms ++ [m]) (os ++ [none])

/-- what the peer and the application are trusted with.  Events refer to something that exists.  Messages are sent on links,
and links are destroyed, only while their time slot has a client; if the line is traced, only while it is connected, on links
of a known type.  TRX numbers are below 31.  The peer sends no empty CCM message, and no PONG if there is no keepalive FSM.
No keepalive expires. -/
def Calm (w : W) : Op → Prop
  | .lineUpdate _ => True
  | .rslConnect trx _ => trx < 31
  | .rslClose _ => True
  | .connected c => ∃ x ∈ w.clis, x.id = c
  | .lost c => ∃ x ∈ w.clis, x.id = c
  | .rxCcm c m => (∃ x ∈ w.clis, x.id = c ∧ (∀ b, m = .pong b → ∃ y ∈ w.fsms, y.cli = c)) ∧ m ≠ .empty
  | .rx c _ _ => ∃ x ∈ w.clis, x.id = c
  | .kaTimeout f => ∃ y ∈ w.fsms, y.id = f ∧ y.run = false
  | .kaPing f => ∃ y ∈ w.fsms, y.id = f
  | .linkCreate _ _ _ _ => True
  | .linkDestroy k => ∃ x ∈ w.links, x.id = k ∧ ∃ c ∈ w.clis, c.ts = x.ts
  | .sendmsg k _ => ∃ x ∈ w.links, x.id = k ∧ ∃ c ∈ w.clis, c.ts = x.ts ∧
      (w.pcap = true → c.st = .connected ∧ (x.type = 1 ∨ x.type = 2 ∨ x.type = 3))
  | .setKap _ => True

/-- a history all of whose operations are so -/
def CalmRun (w : W) : List Op → Prop
  | [] => True
  | op :: ops => Calm w op ∧ ∀ w' a, step w op = .ok (w', a) → CalmRun w' ops

end Verif.IpAccess.Bts
