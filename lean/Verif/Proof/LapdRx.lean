import Verif.Proof.LapdTab
/-!
# `lapd_receive` on arbitrary octet strings
-/
namespace Verif.Lapd
open Verif.Spec.Lapd (oct Hdr Ctrl IsAddr IsCtrl Complete)

theorem ea_fact : ∀ a : Byte, (ADDR_EA a == 0) = (a.toNat % 2 == 0) := by decide +kernel
theorem i_fact : ∀ a : Byte, is_I a = (a.toNat % 2 == 0) := by decide +kernel
theorem s_fact : ∀ a : Byte, is_S a = (a.toNat % 4 == 1) := by decide +kernel
theorem u_fact : ∀ a : Byte, is_U a = (a.toNat % 4 == 3) := by decide +kernel
theorem sapi_fact : ∀ a : Byte, ADDR_SAPI a = oct (a.toNat / 4) := by decide +kernel
theorem teiv_fact : ∀ a : Byte, ADDR_TEI a = oct (a.toNat / 2) := by decide +kernel

/-- the SAPI of an address field -/
def sapiOf : List Byte → Byte
  | a :: _ => oct (a.toNat / 4)
  | [] => 0

/-- the TEI of an address field (0 if it has only one octet) -/
def teiOf : List Byte → Byte
  | [_, b] => oct (b.toNat / 2)
  | _ => 0

/-- the control field, abstractly: the outcome depends on the presence of the octets only -/
theorem parseCtrl_complete (pre ctrl payload : List Byte) (hc : IsCtrl ctrl)
    (hp : pre.length = 1 ∨ pre.length = 2) (l : Lctx) :
    ∃ l', parseCtrl (pre ++ ctrl ++ payload) l pre.length
        = .ok (some (l', pre.length + ctrl.length))
      ∧ l'.tei = l.tei ∧ l'.sapi = l.sapi ∧ l'.cr = l.cr := by
  have r0 : ∀ (x : Byte) (r : List Byte), rd (pre ++ (x :: r)) pre.length = .ok x := by
    intro x r; simp [rd]
  have r1 : ∀ (x y : Byte) (r : List Byte), rd (pre ++ (x :: y :: r)) (pre.length + 1) = .ok y := by
    intro x y r; simp [rd]
  cases hc with
  | @u c h =>
    have f1 : is_I c = false := by rw [i_fact]; simp; omega
    have f2 : is_S c = false := by rw [s_fact]; simp; omega
    have f3 : is_U c = true := by rw [u_fact]; simp [h]
    simp only [List.append_assoc, List.cons_append, List.nil_append, parseCtrl, r0, bind_ok, f1, f2,
      f3, if_true, Bool.false_eq_true, if_false, List.length_cons, List.length_nil]
    exact ⟨_, rfl, rfl, rfl, rfl⟩
  | @is c d h =>
    simp only [List.append_assoc, List.cons_append, List.nil_append, parseCtrl, r0, r1, bind_ok,
      List.length_cons, List.length_nil]
    by_cases f1 : is_I c = true
    · rw [if_pos f1, if_neg (by simp; omega), if_neg (by simp; omega)]
      exact ⟨_, rfl, rfl, rfl, rfl⟩
    · have f2 : is_S c = true := by
        rw [s_fact]
        rw [i_fact] at f1
        simp only [beq_iff_eq] at f1 ⊢
        omega
      rw [if_neg f1, if_pos f2, if_neg (by simp; omega), if_neg (by simp; omega)]
      exact ⟨_, rfl, rfl, rfl, rfl⟩

/-- a complete header is parsed -/
theorem parse_complete {addr ctrl payload : List Byte} (ha : IsAddr addr) (hc : IsCtrl ctrl) :
    ∃ l, parseHeader (addr ++ ctrl ++ payload) = .ok (some (l, addr.length + ctrl.length))
      ∧ l.tei = teiOf addr ∧ l.sapi = sapiOf addr := by
  have hl : 1 ≤ ctrl.length := by cases hc <;> simp
  cases ha with
  | @short a h =>
    obtain ⟨l', h1, h2, h3, -⟩ := parseCtrl_complete [a] ctrl payload hc (Or.inl rfl)
      { Lctx.zero with sapi := ADDR_SAPI a, cr := ADDR_CR a, lpd := 0 }
    refine ⟨l', ?_, by rw [h2]; rfl, by rw [h3]; exact sapi_fact a⟩
    have f : ¬ (ADDR_EA a == 0) = true := by rw [ea_fact]; simp; omega
    unfold parseHeader
    rw [if_neg (by simp; omega)]
    have r0 : rd ([a] ++ ctrl ++ payload) 0 = .ok a := by simp [rd]
    rw [r0, bind_ok]
    simp only
    rw [if_neg f]
    exact h1
  | @long a b h =>
    obtain ⟨l', h1, h2, h3, -⟩ := parseCtrl_complete [a, b] ctrl payload hc (Or.inr rfl)
      { Lctx.zero with sapi := ADDR_SAPI a, cr := ADDR_CR a, lpd := 0, tei := ADDR_TEI b }
    refine ⟨l', ?_, by rw [h2]; exact teiv_fact b, by rw [h3]; exact sapi_fact a⟩
    have f : (ADDR_EA a == 0) = true := by rw [ea_fact]; simp [h]
    unfold parseHeader
    rw [if_neg (by simp)]
    have r0 : rd ([a, b] ++ ctrl ++ payload) 0 = .ok a := by simp [rd]
    have r1 : rd ([a, b] ++ ctrl ++ payload) 1 = .ok b := by simp [rd]
    rw [r0, bind_ok]
    simp only
    rw [if_pos f, if_neg (by simp; omega), r1, bind_ok]
    exact h1

theorem parseCtrl_incomplete (pre : List Byte) (c : Byte) (l : Lctx)
    (hp : pre.length = 1 ∨ pre.length = 2) (h : c.toNat % 4 ≠ 3) :
    parseCtrl (pre ++ [c]) l pre.length = .ok none := by
  have r0 : rd (pre ++ [c]) pre.length = .ok c := by simp [rd]
  unfold parseCtrl
  rw [r0, bind_ok]
  by_cases f1 : is_I c = true
  · rw [if_pos f1]
    rcases hp with hp | hp
    · rw [if_pos (by simp [hp])]
    · rw [if_neg (by simp [hp]), if_pos (by simp [hp])]
  · have f2 : is_S c = true := by
      rw [s_fact]
      rw [i_fact] at f1
      simp only [beq_iff_eq] at f1 ⊢
      omega
    rw [if_neg f1, if_pos f2]
    rcases hp with hp | hp
    · rw [if_pos (by simp [hp])]
    · rw [if_neg (by simp [hp]), if_pos (by simp [hp])]

/-- anything else is reported as too short -/
theorem parse_incomplete {d : List Byte} (h : ¬ Complete d) : parseHeader d = .ok none := by
  unfold parseHeader
  match d, h with
  | [], _ => rfl
  | [a], _ => rfl
  | a :: b :: r, h =>
    rw [if_neg (by simp)]
    have r0 : rd (a :: b :: r) 0 = .ok a := rfl
    have r1 : rd (a :: b :: r) 1 = .ok b := rfl
    rw [r0, bind_ok]
    simp only
    by_cases f : (ADDR_EA a == 0) = true
    · rw [if_pos f]
      rw [ea_fact] at f
      match r, h with
      | [], _ => rfl
      | [c], h =>
        rw [if_neg (by simp), r1, bind_ok]
        refine parseCtrl_incomplete [a, b] c _ (Or.inr rfl) ?_
        intro hc
        exact h ⟨[a, b], [c], [], rfl, .long (by simpa using f), .u hc⟩
      | c :: e :: r, h =>
        exfalso
        by_cases hc : c.toNat % 4 = 3
        · exact h ⟨[a, b], [c], e :: r, rfl, .long (by simpa using f), .u hc⟩
        · exact h ⟨[a, b], [c, e], r, rfl, .long (by simpa using f), .is hc⟩
    · rw [if_neg f]
      rw [ea_fact] at f
      have f' : a.toNat % 2 = 1 := by simp only [beq_iff_eq] at f; omega
      match r, h with
      | [], h =>
        refine parseCtrl_incomplete [a] b _ (Or.inl rfl) ?_
        intro hc
        exact h ⟨[a], [b], [], rfl, .short f', .u hc⟩
      | c :: r, h =>
        exfalso
        by_cases hc : b.toNat % 4 = 3
        · exact h ⟨[a], [b], c :: r, rfl, .short f', .u hc⟩
        · exact h ⟨[a], [b, c], r, rfl, .short f', .is hc⟩

theorem receive_incomplete (li : Li) {d : List Byte} (h : ¬ Complete d) (rc : Int) :
    receive li d rc = .ok ⟨li, -EINVAL, some .badLen, [.pcap false d]⟩ := by
  unfold receive
  rw [parse_incomplete h]
  rfl

theorem receive_some (li : Li) {d payload : List Byte} {l : Lctx} {i : Nat}
    (h : parseHeader d = .ok (some (l, i))) (hd : d.drop i = payload) (rc : Int) :
    receive li d rc = (receiveBody li l payload rc >>= fun r => .ok { r with acts := .pcap false d :: r.acts }) := by
  unfold receive
  rw [h]
  subst hd
  rfl

theorem drop_hdr (addr ctrl payload : List Byte) :
    (addr ++ ctrl ++ payload).drop (addr.length + ctrl.length) = payload := by
  rw [List.drop_append_of_le_length (by simp)]
  simp

/-- what a step does to the tables -/
inductive Eff (li : Li) : Li → Prop
  | same : Eff li li
  | tei (t : Byte) : ¬ Known li t → Eff li (teiAlloc li t)
  | sap (t : Byte) (p : Sap) : Known li t → lookup li t p.sapi = none → p.id = li.nextId →
      p.lctxTei = t → p.lctxSapi = p.sapi → p.maxf = li.profile.n201 →
      Eff li { li with nextId := li.nextId + 1,
                       teis := updTei li.teis t (fun e => { e with saps := p :: e.saps }) }

theorem eff_inv {li li' : Li} (h : Inv li) (e : Eff li li') : Inv li' := by
  cases e with
  | same => exact h
  | tei t hk => exact inv_teiAlloc h t hk
  | sap t p hk hn hi ht hs _ => exact inv_addSap h t p hn hi ht hs

theorem ensureTei_eff (li : Li) (t : Byte) : Eff li (ensureTei li t) ∧ Known (ensureTei li t) t := by
  unfold ensureTei
  cases h : teipFromTei li t with
  | some e => exact ⟨.same, (known_iff li t).2 (by rw [h]; rfl)⟩
  | none => exact ⟨.tei t (known_none.1 h), (known_teiAlloc li t t).2 (Or.inr rfl)⟩

theorem ensureSap_eff {li : Li} (hk : li.profile.k.length = 64) {t s : Byte} {e : Tei}
    (he : teipFromTei li t = some e) :
    ∃ li' p, ensureSap li e t s = .ok (li', p) ∧ Eff li li' ∧ lookup li' t s = some p
      ∧ (lookup li t s = none ∨ (li' = li)) := by
  have hl := lookup_of_teip he s
  have hkn : Known li t := (known_iff li t).2 (by rw [he]; rfl)
  unfold ensureSap
  cases h : sapFind e s with
  | some p => exact ⟨li, p, rfl, .same, by rw [hl, h], Or.inr rfl⟩
  | none =>
    obtain ⟨p, hp, h1, h2, h3, h4, h5, -, -, -⟩ := sapAlloc_ok li hk t s
    refine ⟨_, p, hp, .sap t p hkn (by rw [h2, hl, h]) h1 h3 (by rw [h4, h2]) h5, ?_,
      Or.inl (by rw [hl, h])⟩
    rw [lookup_addSap li _ t p hkn]
    simp [h2]

/-- all that can happen to a frame with a complete header -/
theorem receiveBody_cases (li : Li) (hk : li.profile.k.length = 64) (l : Lctx) (payload : List Byte)
    (rc : Int) :
    (l.tei = 127 ∧ ∃ r, teiReceive li payload = .ok r ∧
      receiveBody li l payload rc = .ok ⟨r.1, r.2.1, none, r.2.2 ++ [.freeMsg]⟩) ∨
    (l.tei ≠ 127 ∧ ¬ Known li l.tei ∧
      receiveBody li l payload rc = .ok ⟨li, -EINVAL, some .unknownTei, [.freeMsg]⟩) ∨
    (l.tei ≠ 127 ∧ Known li l.tei ∧ ∃ li' p, Eff li li' ∧ lookup li' l.tei l.sapi = some p ∧
      (lookup li l.tei l.sapi = none ∨ li' = li) ∧
      ((p.maxf < payload.length ∧
          receiveBody li l payload rc = .ok ⟨li', -EINVAL, some .badLen, [.freeMsg]⟩) ∨
       (payload.length ≤ p.maxf ∧ receiveBody li l payload rc = .ok ⟨li', rc, none,
          [.phDataInd { l with length := payload.length, dl := p.id, n201 := p.maxf } payload]⟩))) := by
  unfold receiveBody
  by_cases ht : l.tei = 127
  · left
    refine ⟨ht, ?_⟩
    rw [if_pos (by simp [ht])]
    have : ∃ r, teiReceive li payload = .ok r := by
      unfold teiReceive
      by_cases h5 : payload.length < 5
      · rw [if_pos h5]; exact ⟨_, rfl⟩
      · rw [if_neg h5, rd_ok (by omega), rd_ok (by omega), bind_ok, bind_ok]
        simp only
        split <;> exact ⟨_, rfl⟩
    obtain ⟨r, hr⟩ := this
    exact ⟨r, hr, by rw [hr]; rfl⟩
  · right
    rw [if_neg (by simpa using ht)]
    unfold dispatch
    simp only
    cases he : teipFromTei li l.tei with
    | none => exact Or.inl ⟨ht, known_none.1 he, rfl⟩
    | some e =>
      right
      refine ⟨ht, (known_iff _ _).2 (by rw [he]; rfl), ?_⟩
      obtain ⟨li', p, h1, h2, h3, h4⟩ := ensureSap_eff (s := l.sapi) hk he
      refine ⟨li', p, h2, h3, h4, ?_⟩
      simp only [h1, bind_ok, deliver]
      by_cases hlen : payload.length > p.maxf
      · left
        exact ⟨hlen, by rw [if_pos hlen]⟩
      · right
        exact ⟨by omega, by rw [if_neg hlen]⟩

end Verif.Lapd
