import Verif.Lapd
import Verif.Spec.Lapd
/-!
# Proof infrastructure for the LAPD model
-/
namespace Verif.Lapd
open Verif.Spec.Lapd (oct Hdr Ctrl IsAddr IsCtrl Complete)

theorem bind_ok {α β : Type} (x : α) (f : α → M β) : (Except.ok x >>= f) = f x := rfl

theorem addr_facts : ∀ s : Fin 64, ∀ c : Fin 2,
    ADDR2 (oct s) (oct c) = oct (4 * s + 2 * c) ∧ ADDR2 (oct s) (oct c) ||| 1 = oct (4 * s + 2 * c + 1)
    ∧ ADDR_SAPI (oct (4 * s + 2 * c)) = oct s ∧ ADDR_SAPI (oct (4 * s + 2 * c + 1)) = oct s
    ∧ ADDR_CR (oct (4 * s + 2 * c)) = oct c ∧ ADDR_CR (oct (4 * s + 2 * c + 1)) = oct c
    ∧ ADDR_EA (oct (4 * s + 2 * c)) = 0 ∧ ADDR_EA (oct (4 * s + 2 * c + 1)) = 1 := by
  decide +kernel

theorem tei_facts : ∀ t : Fin 128,
    ADDR3 (oct t) = oct (2 * t + 1) ∧ ADDR_TEI (oct (2 * t + 1)) = oct t := by
  decide +kernel

theorem ns_facts : ∀ n : Fin 128,
    CTRL_I4 (oct n) = oct (2 * n) ∧ is_I (oct (2 * n)) = true ∧ CTRL_I_Ns (oct (2 * n)) = oct n := by
  decide +kernel

theorem nr_facts : ∀ n : Fin 128, ∀ p : Fin 2,
    CTRL_I5 (oct n) (oct p) = oct (2 * n + p) ∧ CTRL_S5 (oct n) (oct p) = oct (2 * n + p)
    ∧ CTRL_Nr (oct (2 * n + p)) = oct n ∧ CTRL_I_P (oct (2 * n + p)) = oct p
    ∧ CTRL_S_PF (oct (2 * n + p)) = oct p := by
  decide +kernel

theorem s_facts : ∀ s : Fin 4,
    CTRL_S4 (oct s) = oct (4 * s + 1) ∧ is_I (oct (4 * s + 1)) = false
    ∧ is_S (oct (4 * s + 1)) = true ∧ CTRL_S_BITS (oct (4 * s + 1)) = oct s := by
  decide +kernel

theorem u_facts : ∀ m : Fin 32, ∀ p : Fin 2,
    CTRL_U4 (oct m) (oct p) = oct (32 * (m / 4) + 16 * p + 4 * (m % 4) + 3)
    ∧ is_I (oct (32 * (m / 4) + 16 * p + 4 * (m % 4) + 3)) = false
    ∧ is_S (oct (32 * (m / 4) + 16 * p + 4 * (m % 4) + 3)) = false
    ∧ is_U (oct (32 * (m / 4) + 16 * p + 4 * (m % 4) + 3)) = true
    ∧ CTRL_U_BITS (oct (32 * (m / 4) + 16 * p + 4 * (m % 4) + 3)) = oct m
    ∧ CTRL_U_PF (oct (32 * (m / 4) + 16 * p + 4 * (m % 4) + 3)) = oct p := by
  decide +kernel

/-- the message context fields a control field stands for -/
def withCtrl (l : Lctx) : Ctrl → Lctx
  | .info ns nr p => { l with format := .i, n_send := oct ns, n_recv := oct nr, p_f := oct p }
  | .sup s nr pf => { l with format := .s, s_u := oct s, n_recv := oct nr, p_f := oct pf }
  | .unnum m pf => { l with format := .u, s_u := oct m, p_f := oct pf }

/-- a parsed header: every field has the value on the wire, all others are zero -/
def lctxOf (h : Hdr) : Lctx :=
  withCtrl { Lctx.zero with sapi := oct h.sapi, tei := oct h.tei, cr := oct h.cr } h.ctrl

theorem parseCtrl_octets (c : Ctrl) (hv : c.Valid) (l : Lctx) (pre payload : List Byte)
    (hp : pre.length = 1 ∨ pre.length = 2) :
    parseCtrl (pre ++ c.octets ++ payload) l pre.length
      = .ok (some (withCtrl l c, pre.length + c.octets.length)) := by
  have r0 : ∀ (x : Byte) (r : List Byte), rd (pre ++ (x :: r)) pre.length = .ok x := by
    intro x r; simp [rd]
  have r1 : ∀ (x y : Byte) (r : List Byte), rd (pre ++ (x :: y :: r)) (pre.length + 1) = .ok y := by
    intro x y r; simp [rd]
  cases c with
  | info ns nr p =>
    obtain ⟨h1, h2, h3⟩ := hv
    obtain ⟨-, i1, i2⟩ := ns_facts ⟨ns, h1⟩
    obtain ⟨-, -, i3, i4, -⟩ := nr_facts ⟨nr, h2⟩ ⟨p, h3⟩
    simp only at i1 i2 i3 i4
    simp only [Ctrl.octets, List.append_assoc, List.cons_append, List.nil_append, parseCtrl, r0,
      bind_ok, i1, if_true]
    rw [if_neg (by simp; omega), if_neg (by simp; omega), r1]
    simp only [bind_ok, i2, i3, i4, withCtrl, List.length_cons, List.length_nil]
  | sup s nr p =>
    obtain ⟨h1, h2, h3⟩ := hv
    obtain ⟨-, i0, i1, i2⟩ := s_facts ⟨s, h1⟩
    obtain ⟨-, -, i3, -, i4⟩ := nr_facts ⟨nr, h2⟩ ⟨p, h3⟩
    simp only at i0 i1 i2 i3 i4
    simp only [Ctrl.octets, List.append_assoc, List.cons_append, List.nil_append, parseCtrl, r0,
      bind_ok, i0, i1, if_true, Bool.false_eq_true, if_false]
    rw [if_neg (by simp; omega), if_neg (by simp; omega), r1]
    simp only [bind_ok, i2, i3, i4, withCtrl, List.length_cons, List.length_nil]
  | unnum m p =>
    obtain ⟨h1, h2⟩ := hv
    obtain ⟨-, i0, i1, i2, i3, i4⟩ := u_facts ⟨m, h1⟩ ⟨p, h2⟩
    simp only at i0 i1 i2 i3 i4
    simp only [Ctrl.octets, List.append_assoc, List.cons_append, List.nil_append, parseCtrl, r0,
      bind_ok, i0, i1, i2, if_true, Bool.false_eq_true, if_false]
    simp only [i3, i4, withCtrl, List.length_cons, List.length_nil]

theorem ctrl_length (c : Ctrl) : 1 ≤ c.octets.length := by
  cases c <;> simp [Ctrl.octets]

theorem parseHeader_long (h : Hdr) (hv : h.Valid) (payload : List Byte) :
    parseHeader (h.octets ++ payload) = .ok (some (lctxOf h, h.octets.length)) := by
  obtain ⟨h1, h2, h3, h4⟩ := hv
  obtain ⟨-, -, a1, -, a2, -, a3, -⟩ := addr_facts ⟨h.sapi, h1⟩ ⟨h.cr, h3⟩
  obtain ⟨-, t1⟩ := tei_facts ⟨h.tei, h2⟩
  simp only at a1 a2 a3 t1
  have hc := ctrl_length h.ctrl
  unfold parseHeader
  rw [if_neg (by simp [Hdr.octets])]
  have e0 : rd (h.octets ++ payload) 0 = .ok (oct (4 * h.sapi + 2 * h.cr)) := by
    simp [rd, Hdr.octets]
  have e1 : rd (h.octets ++ payload) 1 = .ok (oct (2 * h.tei + 1)) := by
    simp [rd, Hdr.octets]
  simp only [e0, e1, bind_ok, a1, a2, a3, t1, beq_self_eq_true, if_true]
  rw [if_neg (by simp [Hdr.octets]; omega)]
  have := parseCtrl_octets h.ctrl h4
    { Lctx.zero with sapi := oct h.sapi, tei := oct h.tei, cr := oct h.cr }
    [oct (4 * h.sapi + 2 * h.cr), oct (2 * h.tei + 1)] payload (Or.inr rfl)
  rw [show h.octets.length = 2 + h.ctrl.octets.length by simp [Hdr.octets]; omega]
  exact this

theorem parseHeader_short (h : Hdr) (hv : h.Valid) (ht : h.tei = 0) (payload : List Byte) :
    parseHeader (h.octetsShort ++ payload) = .ok (some (lctxOf h, h.octetsShort.length)) := by
  obtain ⟨h1, h2, h3, h4⟩ := hv
  obtain ⟨-, -, -, a1, -, a2, -, a3⟩ := addr_facts ⟨h.sapi, h1⟩ ⟨h.cr, h3⟩
  simp only at a1 a2 a3
  have hc := ctrl_length h.ctrl
  unfold parseHeader
  rw [if_neg (by simp [Hdr.octetsShort]; omega)]
  have e0 : rd (h.octetsShort ++ payload) 0 = .ok (oct (4 * h.sapi + 2 * h.cr + 1)) := by
    simp [rd, Hdr.octetsShort]
  simp only [e0, bind_ok, a1, a2, a3]
  rw [if_neg (by decide)]
  have := parseCtrl_octets h.ctrl h4
    { Lctx.zero with sapi := oct h.sapi, cr := oct h.cr } [oct (4 * h.sapi + 2 * h.cr + 1)] payload
    (Or.inl rfl)
  rw [show h.octetsShort.length = 1 + h.ctrl.octets.length by simp [Hdr.octetsShort]; omega]
  unfold lctxOf
  rw [ht]
  exact this

/-- the message context carries exactly the header `h` (all other fields may have any value) -/
def Carries (l : Lctx) (h : Hdr) : Prop :=
  l.sapi = oct h.sapi ∧ l.tei = oct h.tei ∧ l.cr = oct h.cr ∧
  match h.ctrl with
  | .info ns nr p => l.format = .i ∧ l.n_send = oct ns ∧ l.n_recv = oct nr ∧ l.p_f = oct p
  | .sup s nr pf => l.format = .s ∧ l.s_u = oct s ∧ l.n_recv = oct nr ∧ l.p_f = oct pf
  | .unnum m pf => l.format = .u ∧ l.s_u = oct m ∧ l.p_f = oct pf

theorem carries_lctxOf (h : Hdr) : Carries (lctxOf h) h := by
  obtain ⟨s, t, c, ctrl⟩ := h
  cases ctrl <;> exact ⟨rfl, rfl, rfl, by simp [lctxOf, withCtrl]⟩

theorem ctrlField_of (h : Hdr) (hv : h.Valid) (l : Lctx) (hl : Carries l h) :
    ctrlField l = some h.ctrl.octets := by
  obtain ⟨-, -, -, hc⟩ := hv
  obtain ⟨-, -, -, hl⟩ := hl
  cases e : h.ctrl with
  | info ns nr p =>
    rw [e] at hc hl
    obtain ⟨h1, h2, h3⟩ := hc
    obtain ⟨l1, l2, l3, l4⟩ := hl
    have f1 := (ns_facts ⟨ns, h1⟩).1
    have f2 := (nr_facts ⟨nr, h2⟩ ⟨p, h3⟩).1
    simp only at f1 f2
    simp only [ctrlField, l1, l2, l3, l4, f1, f2, Ctrl.octets]
  | sup s nr p =>
    rw [e] at hc hl
    obtain ⟨h1, h2, h3⟩ := hc
    obtain ⟨l1, l2, l3, l4⟩ := hl
    have f1 := (s_facts ⟨s, h1⟩).1
    have f2 := (nr_facts ⟨nr, h2⟩ ⟨p, h3⟩).2.1
    simp only at f1 f2
    simp only [ctrlField, l1, l2, l3, l4, f1, f2, Ctrl.octets]
  | unnum m p =>
    rw [e] at hc hl
    obtain ⟨h1, h2⟩ := hc
    obtain ⟨l1, l2, l3⟩ := hl
    have f1 := (u_facts ⟨m, h1⟩ ⟨p, h2⟩).1
    simp only at f1
    simp only [ctrlField, l1, l2, l3, f1, Ctrl.octets]

theorem oct_eq_zero {n : Nat} (h : n < 128) : (oct n == 0) = (n == 0) := by
  have := (by decide +kernel : ∀ n : Fin 128, (oct n.val == 0) = (n.val == 0)) ⟨n, h⟩
  exact this

theorem oct_eq_127 {n : Nat} (h : n < 128) : (oct n == 127) = (n == 127) := by
  have := (by decide +kernel : ∀ n : Fin 128, (oct n.val == 127) = (n.val == 127)) ⟨n, h⟩
  exact this

/-- the header as sent: the short address is used only by a profile with short addresses, for TEI 0 -/
theorem sendFrame_eq (li : Li) (h : Hdr) (hv : h.Valid) (l : Lctx) (hl : Carries l h)
    (payload : List Byte) (headroom : Nat) (hh : 4 ≤ headroom) :
    let f := (if li.profile.shortAddress && h.tei == 0 then h.octetsShort else h.octets) ++ payload
    sendFrame li l payload headroom
      = .ok (0, [.pcap true f, .transmit li.transmitCb li.transmitCbdata f]) := by
  intro f
  have hc := ctrlField_of h hv l hl
  obtain ⟨h1, h2, h3, h4⟩ := hv
  obtain ⟨l1, l2, l3, -⟩ := hl
  obtain ⟨a1, a2, -⟩ := addr_facts ⟨h.sapi, h1⟩ ⟨h.cr, h3⟩
  have t1 := (tei_facts ⟨h.tei, h2⟩).1
  simp only at a1 a2 t1
  have hlen : h.ctrl.octets.length ≤ 2 := by cases h.ctrl <;> simp [Ctrl.octets]
  unfold sendFrame
  rw [hc]
  simp only [push, if_pos (show h.ctrl.octets.length ≤ headroom by omega), bind_ok]
  have ha : addrField li l ++ (h.ctrl.octets ++ payload) = f ∧ (addrField li l).length ≤ 2 := by
    unfold addrField
    rw [l1, l2, l3, oct_eq_zero h2]
    by_cases hs : (li.profile.shortAddress && h.tei == 0) = true
    · simp only [f, if_pos hs]
      refine ⟨?_, by simp⟩
      rw [a2]; simp [Hdr.octetsShort]
    · simp only [f, if_neg hs]
      refine ⟨?_, by simp⟩
      rw [a1, t1]; simp [Hdr.octets]
  rw [if_pos (by omega), ha.1]
  rfl

end Verif.Lapd
