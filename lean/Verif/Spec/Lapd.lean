/-!
# Specification of the LAPD frame header (ITU-T Q.921, 3.3 and 3.4)

Plain arithmetic on octets; nothing in here refers to the model of the code.
-/
namespace Verif.Spec.Lapd

/-- the control field of a frame -/
inductive Ctrl where
  /-- information transfer: N(S), N(R), P -/
  | info (ns nr p : Nat)
  /-- supervisory: S bits, N(R), P/F -/
  | sup (s nr pf : Nat)
  /-- unnumbered: the five M bits, P/F -/
  | unnum (m pf : Nat)
  deriving DecidableEq, Repr

/-- a frame header -/
structure Hdr where
  sapi : Nat
  tei : Nat
  cr : Nat
  ctrl : Ctrl
  deriving DecidableEq, Repr

/-- field widths -/
def Ctrl.Valid : Ctrl → Prop
  | .info ns nr p => ns < 128 ∧ nr < 128 ∧ p < 2
  | .sup s nr pf => s < 4 ∧ nr < 128 ∧ pf < 2
  | .unnum m pf => m < 32 ∧ pf < 2

/-- field widths -/
def Hdr.Valid (h : Hdr) : Prop := h.sapi < 64 ∧ h.tei < 128 ∧ h.cr < 2 ∧ h.ctrl.Valid

/-- octet with a numeric value -/
def oct (n : Nat) : BitVec 8 := BitVec.ofNat 8 n

/-- the octets of a control field -/
def Ctrl.octets : Ctrl → List (BitVec 8)
  | .info ns nr p => [oct (2 * ns), oct (2 * nr + p)]
  | .sup s nr pf => [oct (4 * s + 1), oct (2 * nr + pf)]
  | .unnum m pf => [oct (32 * (m / 4) + 16 * pf + 4 * (m % 4) + 3)]

/-- the octets of a header with the two octet address -/
def Hdr.octets (h : Hdr) : List (BitVec 8) :=
  [oct (4 * h.sapi + 2 * h.cr), oct (2 * h.tei + 1)] ++ h.ctrl.octets

/-- the octets of a header with the one octet address (which carries no TEI) -/
def Hdr.octetsShort (h : Hdr) : List (BitVec 8) :=
  [oct (4 * h.sapi + 2 * h.cr + 1)] ++ h.ctrl.octets

/-- an address field: one octet with the extension bit set, or two octets of which the first has it
clear -/
inductive IsAddr : List (BitVec 8) → Prop
  | short {a : BitVec 8} : a.toNat % 2 = 1 → IsAddr [a]
  | long {a b : BitVec 8} : a.toNat % 2 = 0 → IsAddr [a, b]

/-- a control field: one octet for unnumbered formats, else two -/
inductive IsCtrl : List (BitVec 8) → Prop
  | u {c : BitVec 8} : c.toNat % 4 = 3 → IsCtrl [c]
  | is {c d : BitVec 8} : c.toNat % 4 ≠ 3 → IsCtrl [c, d]

/-- a frame with a complete header -/
def Complete (frame : List (BitVec 8)) : Prop :=
  ∃ addr ctrl payload, frame = addr ++ ctrl ++ payload ∧ IsAddr addr ∧ IsCtrl ctrl

/-- an identity request (Q.921 5.3.2) on the broadcast TEI 127: reference number octets `r1`, `r2`,
requested TEI `tei` -/
def identityRequest (r1 r2 : BitVec 8) (tei : Nat) : List (BitVec 8) :=
  [0xfc, 0xff, 0x03, 0x0f, r1, r2, 0x01, oct (2 * tei + 1)]

/-- an identity assigned message of the network (command, from the network side) -/
def identityAssigned (r1 r2 : BitVec 8) (tei : Nat) : List (BitVec 8) :=
  [0xfe, 0xff, 0x03, 0x0f, r1, r2, 0x02, oct (2 * tei + 1)]

end Verif.Spec.Lapd
