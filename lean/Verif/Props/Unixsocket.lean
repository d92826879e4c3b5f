import Verif.Spec.Unixsocket
/-!
# C58, C104-C106: the unix socket driver
-/
set_option maxRecDepth 10000
namespace Verif.Us

theorem bind_ok {α β : Type} (x : α) (f : α → M β) : (Except.ok x >>= f) = f x := rfl

theorem fds_append (o : List Nat) (a b : List Act) : fds o (a ++ b) = (fds o a).bind (fun o' => fds o' b) := by
  induction a generalizing o with
  | nil => rfl
  | cons x a ih =>
    cases x <;> simp only [List.cons_append, fds] <;> (try split) <;> simp_all

/-- the state and the descriptors open -/
def Inv (st : St) (o : List Nat) : Prop :=
  match st.cfg with
  | none => o = []
  | some c => if c.reg then o = [c.fd] ∧ c.line = true else o = []

theorem lineUpdate_ok (env : List Env) (st : St) (h : connected st = false) :
    ∃ st' r a o, lineUpdate env st = .ok (st', r, a) ∧ fds [] a = some o ∧ Inv st' o ∧ st'.cfg ≠ none := by
  induction env generalizing st with
  | nil =>
    refine ⟨_, _, _, [], rfl, rfl, ?_, by simp⟩
    obtain ⟨c⟩ := st
    cases c with
    | none => simp [Inv]
    | some c => simp only [connected] at h; simp [Inv, h]
  | cons e es ih =>
    obtain ⟨cfg⟩ := st
    obtain ⟨conn, regOk, wret⟩ := e
    have hr : (cfg.getD ⟨0, false, false, false⟩).reg = false := by
      cases cfg with
      | none => rfl
      | some c => simpa [connected] using h
    cases conn with
    | none => exact ⟨_, _, _, [], rfl, rfl, by simp [Inv, hr], by simp⟩
    | some n =>
      cases regOk with
      | false => exact ⟨_, _, _, [], rfl, by simp [fds], by simp [Inv, hr], by simp⟩
      | true =>
        by_cases hw : wret = -1
        · obtain ⟨st', r, a, o, h1, h2, h3, h4⟩ := ih { cfg := some ⟨n, true, false, false⟩ } rfl
          refine ⟨st', n, [.opened n, .registered n, .write n (altc 0)] ++ [.unregistered n, .close n] ++ a, o, ?_, ?_, h3, h4⟩
          · simp only [lineUpdate, hr, hw, h1, bind_ok, Bool.not_true, if_true]
            rfl
          · simpa [fds] using h2
        · refine ⟨{ cfg := some ⟨n, true, true, false⟩ }, n, [.opened n, .registered n, .write n (altc 0)], [n], ?_, by simp [fds], by simp [Inv], by simp⟩
          simp only [lineUpdate, hr, if_neg hw, Bool.not_true]
          rfl

theorem exception_ok (env : List Env) (c : Cfg) (hl : c.line = true) (hr : c.reg = true) :
    ∃ st' a o, exception env c = .ok (st', a) ∧ fds [c.fd] a = some o ∧ Inv st' o ∧ st'.cfg ≠ none := by
  obtain ⟨st', r, a, o, h1, h2, h3, h4⟩ := lineUpdate_ok env { cfg := some { c with reg := false } } rfl
  refine ⟨st', [.unregistered c.fd, .close c.fd] ++ a, o, ?_, ?_, h3, h4⟩
  · obtain ⟨fd, line, reg, wr⟩ := c
    simp only at hl hr h1
    subst hl hr
    simp only [exception, h1, bind_ok, Bool.not_true, if_true]; rfl
  · simpa [fds] using h2

theorem writeMsg_ok (st : St) (c : Cfg) (d : List Byte) (ret : Int) (env : List Env) (hc : st.cfg = some c) (hl : c.line = true) (hr : c.reg = true) :
    ∃ st' a o, writeMsg st c d ret env = .ok (st', a) ∧ fds [c.fd] a = some o ∧ Inv st' o ∧ st'.cfg ≠ none := by
  by_cases h : ret = -1
  · obtain ⟨st', a, o, h1, h2, h3, h4⟩ := exception_ok env c hl hr
    refine ⟨st', .write c.fd d :: a, o, ?_, ?_, h3, h4⟩
    · simp only [writeMsg, if_pos h, h1, bind_ok]
    · simpa [fds] using h2
  · refine ⟨st, [.write c.fd d], [c.fd], by simp only [writeMsg, if_neg h], by simp [fds], ?_, by simp [hc]⟩
    simp [Inv, hc, hr, hl]

theorem conn_cases {st : St} {o : List Nat} (hi : Inv st o) (h : connected st = true) :
    ∃ c, st.cfg = some c ∧ c.reg = true ∧ c.line = true ∧ o = [c.fd] := by
  obtain ⟨cfg⟩ := st
  cases cfg with
  | none => simp [connected] at h
  | some c =>
    simp only [connected] at h
    simp only [Inv, h, if_true] at hi
    exact ⟨c, rfl, h, hi.2, hi.1⟩

theorem disc_o {st : St} {o : List Nat} (hi : Inv st o) (h : connected st = false) : o = [] := by
  obtain ⟨cfg⟩ := st
  cases cfg with
  | none => exact hi
  | some c => simp only [connected] at h; simpa [Inv, h] using hi

theorem step_ok (st : St) (o : List Nat) (op : Op) (hi : Inv st o) (ha : Adm st op) :
    ∃ st' a o', step st op = .ok (st', a) ∧ fds o a = some o' ∧ Inv st' o' := by
  cases op with
  | update env =>
    obtain ⟨st', r, a, o', h1, h2, h3, _⟩ := lineUpdate_ok env st ha
    have := disc_o hi ha
    subst this
    exact ⟨st', a, o', by simp only [step, h1, bind_ok], h2, h3⟩
  | altc sc ret env =>
    rcases ha with ha | ha
    · obtain ⟨c, hc, hr, hl, rfl⟩ := conn_cases hi ha
      obtain ⟨st', a, o', h1, h2, h3, _⟩ := writeMsg_ok st c (altc sc) ret env hc hl hr
      exact ⟨st', a, o', by simp only [step, setAltc, hc, h1], h2, h3⟩
    · exact ⟨st, [], o, by simp only [step, setAltc, ha], rfl, hi⟩
  | tx d ret env =>
    obtain ⟨c, hc, hr, hl, rfl⟩ := conn_cases hi ha
    obtain ⟨st', a, o', h1, h2, h3, _⟩ := writeMsg_ok st c (frame d) ret env hc hl hr
    exact ⟨st', a, o', by simp only [step, lapdTx, hc, h1], h2, h3⟩
  | read p rc env =>
    cases hcn : connected st with
    | false =>
      refine ⟨st, [], o, ?_, rfl, hi⟩
      obtain ⟨cfg⟩ := st
      cases cfg with
      | none => rfl
      | some c => simp only [connected] at hcn; simp [step, hcn]
    | true =>
      obtain ⟨c, hc, hr, hl, rfl⟩ := conn_cases hi hcn
      simp only [step, hc, hr, if_true]
      cases p with
      | none => exact ⟨st, [], [c.fd], rfl, rfl, hi⟩
      | some p =>
        simp only [readCb]
        match hp : p.take READ_MAX with
        | [] =>
          obtain ⟨st', a, o', h1, h2, h3, _⟩ := exception_ok env c hl hr
          exact ⟨st', a, o', by simp only [h1, bind_ok], h2, h3⟩
        | [_] => exact ⟨st, [], [c.fd], rfl, rfl, hi⟩
        | v :: t :: d =>
          simp only
          by_cases hv : v ≠ VERSION
          · exact ⟨st, [], [c.fd], by rw [if_pos hv]; rfl, rfl, hi⟩
          · rw [if_neg hv]
            by_cases ht : t = DATA
            · exact ⟨st, [.rx d], [c.fd], by rw [if_pos ht]; rfl, rfl, hi⟩
            · exact ⟨st, [], [c.fd], by rw [if_neg ht]; rfl, rfl, hi⟩
  | want =>
    obtain ⟨cfg⟩ := st
    cases cfg with
    | none => exact absurd rfl ha
    | some c => exact ⟨_, [], o, rfl, rfl, hi⟩
  | writable msg =>
    obtain ⟨cfg⟩ := st
    cases cfg with
    | none => exact ⟨_, [], o, rfl, rfl, hi⟩
    | some c =>
      by_cases h : (c.reg && c.wr && !msg) = true
      · exact ⟨{ cfg := some { c with wr := false } }, [], o, by simp only [step, h, if_true], rfl, hi⟩
      · exact ⟨{ cfg := some c }, [], o, by simp only [step, if_neg h], rfl, hi⟩

theorem run_ok (st : St) (o : List Nat) (ops : List Op) (hi : Inv st o) (ha : AdmRun st ops) :
    ∃ st' a o', run st ops = .ok (st', a) ∧ fds o a = some o' ∧ Inv st' o' := by
  induction ops generalizing st o with
  | nil => exact ⟨st, [], o, rfl, rfl, hi⟩
  | cons op ops ih =>
    obtain ⟨s1, a1, o1, h1, h2, h3⟩ := step_ok st o op hi ha.1
    obtain ⟨s2, a2, o2, h4, h5, h6⟩ := ih s1 o1 h3 (ha.2 _ _ h1)
    refine ⟨s2, a1 ++ a2, o2, by simp only [run, h1, h4, bind_ok], ?_, h6⟩
    rw [fds_append, h2]; exact h5

/-! ### C58: packets -/

/-- the packet of a LAPD frame is taken as this frame by the receiver, whatever it contains -/
theorem C58_roundtrip (st : St) (c : Cfg) (d : List Byte) (h : d.length ≤ 1582) (rc : Int) (env : List Env) :
    readCb st c (some (frame d)) rc env = .ok (st, rc, [.rx d]) ∧
    ∀ n ret, ret ≠ -1 → st.cfg = some c → c.fd = n → lapdTx st d ret env = .ok (st, [.write n (1 :: 0 :: d)]) := by
  constructor
  · have : (frame d).take READ_MAX = VERSION :: DATA :: d := by
      rw [List.take_of_length_le (by simp only [frame, READ_MAX, List.length_cons]; omega)]; rfl
    simp only [readCb, this]
    rfl
  · intro n ret hr hc hn
    simp only [lapdTx, hc, writeMsg, if_neg hr, hn]
    rfl

/-- exactly the packets that begin with version 1 and type 0 are accepted; of a longer one the first 1584 octets -/
theorem C58_accepted (st : St) (c : Cfg) (p : List Byte) (hp : p ≠ []) (rc : Int) (env : List Env) :
    ∃ r a, readCb st c (some p) rc env = .ok (st, r, a) ∧
      ((∃ d, p = 1 :: 0 :: d ∧ a = [.rx (d.take 1582)] ∧ r = rc) ∨
       ((¬ ∃ d, p = 1 :: 0 :: d) ∧ a = [] ∧ r = -1)) := by
  match p, hp with
  | [x], _ => exact ⟨-1, [], rfl, .inr ⟨by rintro ⟨d, h⟩; simp at h, rfl, rfl⟩⟩
  | x :: y :: d, _ =>
    have e : (x :: y :: d).take READ_MAX = x :: y :: d.take 1582 := rfl
    simp only [readCb, e]
    by_cases hv : x ≠ VERSION
    · refine ⟨-1, [], by rw [if_pos hv], .inr ⟨?_, rfl, rfl⟩⟩
      rintro ⟨d', h⟩
      exact hv (List.cons.inj h).1
    · rw [if_neg hv]
      have hv' : x = 1 := Decidable.not_not.1 hv
      by_cases ht : y = DATA
      · exact ⟨rc, _, by rw [if_pos ht], .inl ⟨d, by rw [hv', ht]; rfl, rfl, rfl⟩⟩
      · refine ⟨-1, [], by rw [if_neg ht], .inr ⟨?_, rfl, rfl⟩⟩
        rintro ⟨d', h⟩
        exact ht (List.cons.inj (List.cons.inj h).2).1

/-- a control packet is never taken for data -/
theorem C58_control (st : St) (c : Cfg) (sc rc : Int) (env : List Env) :
    readCb st c (some (altc sc)) rc env = .ok (st, -1, []) ∧
    altc sc = [1, 1, 0x23, 0, 0x42, 0, if sc = 0 then 0 else 1] := by
  constructor
  · rfl
  · by_cases h : sc = 0 <;> simp [altc, h, VERSION, CONTROL]

example : readCb init ⟨5, true, true, false⟩ (some [1, 0, 7, 8]) 0 [] = .ok (init, 0, [.rx [7, 8]]) ∧
    readCb init ⟨5, true, true, false⟩ (some [2, 0, 7, 8]) 0 [] = .ok (init, -1, []) := ⟨rfl, rfl⟩

/-! ### C104: descriptors -/

/-- C104, partially: for histories that send only while connected and reconfigure the line only while not connected there is
no fault, nothing is written to, registered or closed that is not an open socket of the driver, and afterwards exactly
the socket of the current connection is open.  Missing: what happens after a failed attempt to reconnect, see below. -/
theorem C104_descriptors_partial (ops : List Op) (ha : AdmRun init ops) :
    ∃ st a o, run init ops = .ok (st, a) ∧ fds [] a = some o ∧
      (connected st = true → ∃ c, st.cfg = some c ∧ o = [c.fd]) ∧ (connected st = false → o = []) := by
  obtain ⟨st, a, o, h1, h2, h3⟩ := run_ok init [] ops rfl ha
  refine ⟨st, a, o, h1, h2, ?_, fun h => disc_o h3 h⟩
  intro h
  obtain ⟨c, hc, _, _, ho⟩ := conn_cases h3 h
  exact ⟨c, hc, ho⟩

/-- C104 is false: when the connection is lost and cannot be established again, the next LAPD frame (e.g. a retransmission) is
written to the closed descriptor, which is closed once more if that fails -/
theorem C104_stale_fd_violated (n : Nat) (d : List Byte) :
    ∃ st a, run init [.update [⟨some n, true, 7⟩], .read (some []) 0 [], .tx d (-1) []] = .ok (st, a) ∧
      a = [.opened n, .registered n, .write n (altc 0), .unregistered n, .close n, .write n (frame d), .close n] ∧ fds [] a = none := by
  refine ⟨_, _, rfl, rfl, ?_⟩
  simp [fds]

/-- C104 is false: before the first successful connection the super channel packet is written to descriptor 0 (standard input), and
if that fails a null pointer is dereferenced -/
theorem C104_stdin_violated (sc : Int) :
    (∃ st, run init [.update [], .altc sc 7 []] = .ok (st, [.write 0 (altc sc)])) ∧
    run init [.update [], .altc sc (-1) []] = .error .badptr := ⟨⟨_, rfl⟩, rfl⟩

/-- C104 is false: updating a line that is connected corrupts the list of descriptors of the select loop -/
theorem C104_update_violated (n m : Nat) (r : Int) (env : List Env) :
    run init [.update [⟨some n, true, 7⟩], .update (⟨some m, true, r⟩ :: env)] = .error .badptr := rfl

/-! ### C105: connections -/

theorem altc_append {a b : List Act} (ha : AltcFirst a) (hb : AltcFirst b)
    (hn : ∀ p n, a ≠ p ++ [.registered n]) : AltcFirst (a ++ b) := by
  intro pre post n h
  rcases List.append_eq_append_iff.1 h with ⟨a', h1, h2⟩ | ⟨c', h1, h2⟩
  · exact hb a' post n h2
  · cases c' with
    | nil => exact hb [] post n (by simpa using h2.symm)
    | cons x xs =>
      simp only [List.cons_append, List.cons.injEq] at h2
      obtain ⟨rfl, h2⟩ := h2
      obtain ⟨q, hq⟩ := ha pre xs n h1
      rw [h2, hq]
      exact ⟨q ++ b, rfl⟩

theorem altc_none {a : List Act} (h : ∀ n, .registered n ∉ a) : AltcFirst a := by
  intro pre post n he
  exact absurd (he ▸ (by simp : Act.registered n ∈ pre ++ .registered n :: post)) (h n)

theorem lineUpdate_altc (env : List Env) (st st' : St) (r : Int) (a : List Act) (h : lineUpdate env st = .ok (st', r, a)) : AltcFirst a := by
  induction env generalizing st st' r a with
  | nil =>
    have := (Prod.mk.inj (Prod.mk.inj (Except.ok.inj h)).2).2
    subst this; exact altc_none (by simp)
  | cons e es ih =>
    obtain ⟨conn, regOk, wret⟩ := e
    cases conn with
    | none =>
      have := (Prod.mk.inj (Prod.mk.inj (Except.ok.inj h)).2).2
      subst this; exact altc_none (by simp)
    | some n =>
      cases regOk with
      | false =>
        have := (Prod.mk.inj (Prod.mk.inj (Except.ok.inj h)).2).2
        subst this; exact altc_none (by simp)
      | true =>
        simp only [lineUpdate, Bool.not_true, Bool.false_eq_true, if_false] at h
        have base : ∀ t, AltcFirst ([Act.opened n, .registered n, .write n (altc 0)] ++ t) ↔ AltcFirst t := by
          intro t
          constructor
          · intro hh pre post m he
            exact hh ([Act.opened n, .registered n, .write n (altc 0)] ++ pre) post m (by rw [he]; simp)
          · intro hh pre post m he
            match pre with
            | [] => simp at he
            | [x] =>
              simp only [List.cons_append, List.nil_append, List.cons.injEq] at he
              obtain ⟨_, he1, he2⟩ := he
              cases he1
              exact ⟨t, he2.symm⟩
            | [x, y] => simp at he
            | x :: y :: z :: pre =>
              simp only [List.cons_append, List.nil_append, List.cons.injEq] at he
              exact hh pre post m he.2.2.2
        split at h
        · cases h
        · split at h
          · cases hx : lineUpdate es { cfg := some ⟨n, true, false, false⟩ } with
            | error e => rw [hx] at h; cases h
            | ok v =>
              rw [hx] at h
              have := (Prod.mk.inj (Prod.mk.inj (Except.ok.inj h)).2).2
              subst this
              have ht := ih _ _ _ _ hx
              rw [List.append_assoc]
              refine (base _).2 ?_
              exact altc_append (altc_none (by simp)) ht (by
                intro p m he
                have := congrArg List.getLast? he
                simp at this)
          · have := (Prod.mk.inj (Prod.mk.inj (Except.ok.inj h)).2).2
            subst this
            exact (base []).2 (altc_none (by simp))

theorem lineUpdate_last (env : List Env) (st st' : St) (r : Int) (a : List Act) (h : lineUpdate env st = .ok (st', r, a)) :
    ∀ p n, a ≠ p ++ [.registered n] := by
  have key : a = [] ∨ (∃ q m d, a = q ++ [.write m d]) ∨ ∃ q m, a = q ++ [.close m] := by
    induction env generalizing st st' r a with
    | nil =>
      exact .inl (Prod.mk.inj (Prod.mk.inj (Except.ok.inj h)).2).2.symm
    | cons e es ih =>
      obtain ⟨conn, regOk, wret⟩ := e
      cases conn with
      | none => exact .inl (Prod.mk.inj (Prod.mk.inj (Except.ok.inj h)).2).2.symm
      | some n =>
        cases regOk with
        | false => exact .inr (.inr ⟨[.opened n], n, (Prod.mk.inj (Prod.mk.inj (Except.ok.inj h)).2).2.symm⟩)
        | true =>
          simp only [lineUpdate, Bool.not_true, Bool.false_eq_true, if_false] at h
          split at h
          · cases h
          · split at h
            · cases hx : lineUpdate es { cfg := some ⟨n, true, false, false⟩ } with
              | error e => rw [hx] at h; cases h
              | ok v =>
                rw [hx] at h
                have := (Prod.mk.inj (Prod.mk.inj (Except.ok.inj h)).2).2
                subst this
                rcases ih _ _ _ _ hx with h | ⟨q, m, d, h⟩ | ⟨q, m, h⟩
                · refine .inr (.inr ⟨[Act.opened n, .registered n, .write n (altc 0), .unregistered n], n, ?_⟩)
                  have h' : v.2.2 = [] := h
                  rw [h']; rfl
                · have h' : v.2.2 = _ := h
                  exact .inr (.inl ⟨_, m, d, by rw [h', ← List.append_assoc]⟩)
                · have h' : v.2.2 = _ := h
                  exact .inr (.inr ⟨_, m, by rw [h', ← List.append_assoc]⟩)
            · exact .inr (.inl ⟨[.opened n, .registered n], n, altc 0, (Prod.mk.inj (Prod.mk.inj (Except.ok.inj h)).2).2.symm⟩)
  intro p n he
  rcases key with h | ⟨q, m, d, h⟩ | ⟨q, m, h⟩
  · rw [h] at he; simp at he
  · rw [h] at he
    have := congrArg List.getLast? he
    simp at this
  · rw [h] at he
    have := congrArg List.getLast? he
    simp at this

/-- what is prepended contains no registration -/
theorem altc_cons {x : Act} {a : List Act} (hx : ∀ n, x ≠ .registered n) (h : AltcFirst a) : AltcFirst (x :: a) := by
  have := altc_append (a := [x]) (b := a) (altc_none (by
    intro n hm; simp only [List.mem_singleton] at hm; exact hx n hm.symm)) h (by
    intro p n he
    have := congrArg List.getLast? he
    simp at this
    exact hx n this)
  exact this

theorem exception_altc (env : List Env) (c : Cfg) (st' : St) (a : List Act) (h : exception env c = .ok (st', a)) :
    AltcFirst a ∧ ∀ p n, a ≠ p ++ [.registered n] := by
  simp only [exception] at h
  split at h
  · cases h
  · cases hx : lineUpdate env { cfg := some { c with reg := false } } with
    | error e => rw [hx] at h; cases h
    | ok v =>
      rw [hx] at h
      have := (Prod.mk.inj (Except.ok.inj h)).2
      have h1 := lineUpdate_altc _ _ _ _ _ hx
      have h2 := lineUpdate_last _ _ _ _ _ hx
      have hl : ∀ (q : List Act) (x : Act), (∀ n, x ≠ .registered n) → ∀ p n, (q ++ [x]) ++ v.2.2 ≠ p ++ [.registered n] := by
        intro q x hxx p n he
        rcases List.eq_nil_or_concat v.2.2 with h0 | ⟨l, y, hy⟩
        · rw [h0] at he
          have := congrArg List.getLast? he
          simp at this
          exact hxx n this
        · rw [List.concat_eq_append] at hy
          rw [hy, ← List.append_assoc] at he
          have h9 := (List.append_inj' he rfl).2
          exact h2 l n (by rw [hy, h9])
      subst this
      cases hr : c.reg with
      | true =>
        simp only [if_true]
        exact ⟨altc_cons (by simp) (altc_cons (by simp) h1), hl [.unregistered c.fd] (.close c.fd) (by simp)⟩
      | false =>
        simp only [Bool.false_eq_true, if_false]
        exact ⟨altc_cons (by simp) h1, hl [] (.close c.fd) (by simp)⟩

theorem writeMsg_altc (st : St) (c : Cfg) (d : List Byte) (ret : Int) (env : List Env) (st' : St) (a : List Act)
    (h : writeMsg st c d ret env = .ok (st', a)) : AltcFirst a ∧ ∀ p n, a ≠ p ++ [.registered n] := by
  simp only [writeMsg] at h
  split at h
  · cases hx : exception env c with
    | error e => rw [hx] at h; cases h
    | ok v =>
      rw [hx] at h
      have := (Prod.mk.inj (Except.ok.inj h)).2
      subst this
      obtain ⟨h1, h2⟩ := exception_altc _ _ _ _ hx
      refine ⟨altc_cons (by simp) h1, ?_⟩
      intro p n he
      cases p with
      | nil => simp at he
      | cons y p =>
        simp only [List.cons_append, List.cons.injEq] at he
        exact h2 p n he.2
  · have := (Prod.mk.inj (Except.ok.inj h)).2
    subst this
    exact ⟨altc_none (by simp), by intro p n he; have := congrArg List.getLast? he; simp at this⟩

theorem nil_altc : AltcFirst [] ∧ ∀ p n, ([] : List Act) ≠ p ++ [.registered n] := ⟨altc_none (by simp), by simp⟩

theorem step_altc (st st' : St) (op : Op) (a : List Act) (h : step st op = .ok (st', a)) :
    AltcFirst a ∧ ∀ p n, a ≠ p ++ [.registered n] := by
  cases op with
  | update env =>
    simp only [step] at h
    cases hx : lineUpdate env st with
    | error e => rw [hx] at h; cases h
    | ok v =>
      rw [hx] at h
      have := (Prod.mk.inj (Except.ok.inj h)).2
      subst this
      exact ⟨lineUpdate_altc _ _ _ _ _ hx, lineUpdate_last _ _ _ _ _ hx⟩
  | altc sc ret env =>
    simp only [step, setAltc] at h
    split at h
    · have := (Prod.mk.inj (Except.ok.inj h)).2
      subst this; exact nil_altc
    · exact writeMsg_altc _ _ _ _ _ _ _ h
  | tx d ret env =>
    simp only [step, lapdTx] at h
    split at h
    · cases h
    · exact writeMsg_altc _ _ _ _ _ _ _ h
  | read p rc env =>
    simp only [step] at h
    split at h
    · have := (Prod.mk.inj (Except.ok.inj h)).2
      subst this; exact nil_altc
    · rename_i c hc
      split at h
      · cases hx : readCb st c p rc env with
        | error e => rw [hx] at h; cases h
        | ok v =>
          rw [hx] at h
          have := (Prod.mk.inj (Except.ok.inj h)).2
          subst this
          simp only [readCb] at hx
          split at hx
          · have := (Except.ok.inj hx); subst this; exact nil_altc
          · split at hx
            · cases hy : exception env c with
              | error e => rw [hy] at hx; cases hx
              | ok w =>
                rw [hy] at hx
                have := Except.ok.inj hx
                subst this
                exact exception_altc _ _ _ _ hy
            · have := (Except.ok.inj hx); subst this; exact nil_altc
            · split at hx
              · have := (Except.ok.inj hx); subst this; exact nil_altc
              · split at hx
                · have := (Except.ok.inj hx); subst this
                  exact ⟨altc_none (by simp), by intro p n he; have := congrArg List.getLast? he; simp at this⟩
                · have := (Except.ok.inj hx); subst this; exact nil_altc
      · have := (Prod.mk.inj (Except.ok.inj h)).2
        subst this; exact nil_altc
  | want =>
    simp only [step, wantWrite] at h
    split at h
    · cases h
    · have := (Prod.mk.inj (Except.ok.inj h)).2
      subst this; exact nil_altc
  | writable msg =>
    simp only [step] at h
    split at h
    · have := (Prod.mk.inj (Except.ok.inj h)).2
      subst this; exact nil_altc
    · split at h <;>
      · have := (Prod.mk.inj (Except.ok.inj h)).2
        subst this; exact nil_altc

/-- C105: in every history, whatever fails, the first packet on every new connection is the one that turns the super channel off -/
theorem C105_altc_first (ops : List Op) (st st' : St) (a : List Act) (h : run st ops = .ok (st', a)) : AltcFirst a := by
  have key : AltcFirst a ∧ ∀ p n, a ≠ p ++ [.registered n] := by
    induction ops generalizing st st' a with
    | nil =>
      have := (Prod.mk.inj (Except.ok.inj h)).2
      subst this; exact nil_altc
    | cons op ops ih =>
      simp only [run] at h
      cases hx : step st op with
      | error e => rw [hx] at h; cases h
      | ok v =>
        rw [hx, bind_ok] at h
        cases hy : run v.1 ops with
        | error e => rw [hy] at h; cases h
        | ok w =>
          rw [hy] at h
          have := (Prod.mk.inj (Except.ok.inj h)).2
          subst this
          obtain ⟨h1, h2⟩ := step_altc _ _ _ _ hx
          obtain ⟨h3, h4⟩ := ih _ _ _ hy
          refine ⟨altc_append h1 h3 h2, ?_⟩
          intro p n he
          rcases List.eq_nil_or_concat w.2 with h0 | ⟨l, y, hy⟩
          · rw [h0, List.append_nil] at he; exact h2 p n he
          · rw [List.concat_eq_append] at hy
            rw [hy, ← List.append_assoc] at he
            have h9 := (List.append_inj' he rfl).2
            exact h4 l n (by rw [hy, h9])
  exact key.1

/-- C105: a connection closed by the peer is established again at once: the old socket is taken out of the select loop and closed,
a new one connected and registered -/
theorem C105_reconnect (n m : Nat) (wr : Bool) (w rc : Int) (hw : w ≠ -1) (es : List Env) :
    step { cfg := some ⟨n, true, true, wr⟩ } (.read (some []) rc (⟨some m, true, w⟩ :: es)) =
      .ok ({ cfg := some ⟨m, true, true, false⟩ },
        [.unregistered n, .close n, .opened m, .registered m, .write m [1, 1, 0x23, 0, 0x42, 0, 0]]) := by
  simp [step, readCb, exception, lineUpdate, hw, bind_ok, altc, VERSION, CONTROL]

/-- ... but when this fails once, no event makes the driver try again -/
theorem C105_no_retry_violated (c : Cfg) (h : c.reg = false) (ops : List Op)
    (ho : ∀ op ∈ ops, (∃ p rc env, op = .read p rc env) ∨ op = .want ∨ ∃ b, op = .writable b) :
    ∃ st, run { cfg := some c } ops = .ok (st, []) := by
  induction ops generalizing c with
  | nil => exact ⟨_, rfl⟩
  | cons op ops ih =>
    have hop := ho op List.mem_cons_self
    have hrest : ∀ op ∈ ops, (∃ p rc env, op = .read p rc env) ∨ op = .want ∨ ∃ b, op = .writable b :=
      fun x hx => ho x (List.mem_cons_of_mem _ hx)
    have hs : ∃ c', c'.reg = false ∧ step { cfg := some c } op = .ok ({ cfg := some c' }, []) := by
      rcases hop with ⟨p, rc, env, rfl⟩ | rfl | ⟨b, rfl⟩
      · exact ⟨c, h, by simp [step, h]⟩
      · exact ⟨{ c with wr := true }, h, rfl⟩
      · exact ⟨c, h, by simp [step, h]⟩
    obtain ⟨c', hc', hs⟩ := hs
    obtain ⟨st, h2⟩ := ih c' hc' hrest
    exact ⟨st, by simp only [run, hs, bind_ok, h2]; rfl⟩

/-- C106 is false: write events enabled for a queued message are forgotten when the connection is established again -/
theorem C106_wake_violated (n m : Nat) (w : Int) (hw : w ≠ -1) :
    ∃ a, run { cfg := some ⟨n, true, true, false⟩ } [.want, .read (some []) 0 [⟨some m, true, w⟩]] =
      .ok ({ cfg := some ⟨m, true, true, false⟩ }, a) := by
  refine ⟨[.unregistered n, .close n, .opened m, .registered m, .write m [1, 1, 0x23, 0, 0x42, 0, 0]], ?_⟩
  simp only [run, C105_reconnect n m true w 0 hw [], bind_ok, show step { cfg := some ⟨n, true, true, false⟩ } .want = .ok ({ cfg := some ⟨n, true, true, true⟩ }, []) from rfl]
  rfl

/-- C106, partially: as long as the connection lives, write events stay enabled until there is nothing left to send -/
theorem C106_wake_partial (c : Cfg) (hr : c.reg = true) :
    step { cfg := some c } .want = .ok ({ cfg := some { c with wr := true } }, []) ∧
    step { cfg := some { c with wr := true } } (.writable true) = .ok ({ cfg := some { c with wr := true } }, []) ∧
    (∀ d ret env, ret ≠ -1 → ∃ a, step { cfg := some { c with wr := true } } (.tx d ret env) = .ok ({ cfg := some { c with wr := true } }, a)) ∧
    (∀ p rc env, p ≠ [] → ∃ a, step { cfg := some { c with wr := true } } (.read (some p) rc env) = .ok ({ cfg := some { c with wr := true } }, a)) := by
  refine ⟨rfl, by simp [step], ?_, ?_⟩
  · intro d ret env h
    exact ⟨_, by simp only [step, lapdTx, writeMsg, if_neg h]; rfl⟩
  · intro p rc env hp
    obtain ⟨r, a, h, _⟩ := C58_accepted { cfg := some { c with wr := true } } { c with wr := true } p hp rc env
    obtain ⟨fd, line, reg, wr⟩ := c
    simp only at hr h
    subst hr
    exact ⟨a, by simp only [step, if_true, h, bind_ok]⟩

/-- a non-trivial history: connect, send, loss with a failed first packet on the new connection, a second attempt, receive,
loss without new connection, update of the line -/
def hist : List Op :=
  [.altc 1 7 [], .update [⟨some 5, true, 7⟩], .want, .tx [1, 2, 3] 5 [], .writable false,
   .read (some []) 0 [⟨some 6, true, -1⟩, ⟨some 6, true, 7⟩], .read (some [1, 0, 9]) 0 [], .altc 1 (-1) [⟨none, true, 0⟩],
   .update [⟨some 8, false, 0⟩], .update [⟨some 8, true, 7⟩]]

def admB (st : St) : Op → Bool
  | .update _ => !connected st
  | .altc _ _ _ => connected st || st.cfg == none
  | .tx _ _ _ => connected st
  | .read _ _ _ => true
  | .want => st.cfg != none
  | .writable _ => true

def admRunB (st : St) : List Op → Bool
  | [] => true
  | op :: ops => admB st op && (match step st op with | .ok (st', _) => admRunB st' ops | .error _ => false)

theorem admB_ok {st : St} {op : Op} (h : admB st op = true) : Adm st op := by
  cases op <;> simp_all [admB, Adm]

theorem admRunB_ok {st : St} {ops : List Op} (h : admRunB st ops = true) : AdmRun st ops := by
  induction ops generalizing st with
  | nil => trivial
  | cons op ops ih =>
    simp only [admRunB, Bool.and_eq_true] at h
    refine ⟨admB_ok h.1, ?_⟩
    intro st' a hs
    rw [hs] at h
    exact ih h.2

example : AdmRun init hist ∧ ∃ st a, run init hist = .ok (st, a) ∧ a.length = 23 ∧ fds [] a = some [8] :=
  ⟨admRunB_ok (by decide +kernel), _, _, rfl, by decide +kernel, by decide +kernel⟩

end Verif.Us
