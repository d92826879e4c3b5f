import Verif.Spec.Rs232Drv
/-!
# C162, C163: transmission on the serial line, setting up the line
-/
set_option maxRecDepth 10000
namespace Verif.Rs232.Drv

theorem bind_ok {α β : Type} (x : α) (f : α → M β) : (Except.ok x >>= f) = f x := rfl

theorem run_cons {w w' : W} {op : Op} {ops : List Op} {acts : List Act} (h : run w (op :: ops) = .ok (w', acts)) :
    ∃ w1 a b, step w op = .ok (w1, a) ∧ run w1 ops = .ok (w', b) ∧ acts = a ++ b := by
  simp only [run] at h
  cases hs : step w op with
  | error e => rw [hs] at h; cases h
  | ok x =>
    obtain ⟨w1, a⟩ := x
    rw [hs] at h
    simp only [bind_ok] at h
    cases hr : run w1 ops with
    | error e => rw [hr] at h; cases h
    | ok y =>
      obtain ⟨w2, b⟩ := y
      rw [hr] at h
      obtain ⟨rfl, rfl⟩ := Prod.mk.inj (Except.ok.inj h)
      exact ⟨w1, a, b, rfl, hr, rfl⟩

theorem run_append (w : W) (xs ys : List Op) {w1 : W} {a : List Act} (h : run w xs = .ok (w1, a)) :
    run w (xs ++ ys) = (run w1 ys >>= fun r => .ok (r.1, a ++ r.2)) := by
  induction xs generalizing w a with
  | nil =>
    obtain ⟨rfl, rfl⟩ := Prod.mk.inj (Except.ok.inj h)
    simp only [List.nil_append]
    cases run w ys with
    | error e => rfl
    | ok r => rfl
  | cons x xs ih =>
    obtain ⟨w2, b, c, h1, h2, rfl⟩ := run_cons h
    simp only [List.cons_append, run, h1, bind_ok, ih _ h2]
    cases run w1 ys with
    | error e => rfl
    | ok r => simp only [bind_ok, List.append_assoc]

/-! ## What is written -/

theorem writtenOf_append (k : Nat) (a b : List Act) : writtenOf k (a ++ b) = writtenOf k a ++ writtenOf k b := List.filterMap_append

theorem writtenOf_rx (k : Nat) (a : List Rs232.Act) : writtenOf k (a.map .rx) = [] := by
  induction a with
  | nil => rfl
  | cons x a ih => exact ih

theorem writes_append (a b : List Act) : writes (a ++ b) = writes a + writes b := List.countP_append

theorem writes_rx (a : List Rs232.Act) : writes (a.map .rx) = 0 := by
  induction a with
  | nil => rfl
  | cons x a ih => exact ih


theorem serWrite_one (m : List Byte) (n : Int) :
    (serWrite (some m) n).2 = [.write ((buildMsg m).take (min n (buildMsg m).length).toNat)] := by
  simp only [serWrite]
  split
  · rename_i h
    rw [show min n ((buildMsg m).length : Int) = n by omega]
  · rename_i h
    rw [show min n ((buildMsg m).length : Int) = (buildMsg m).length by omega]
    simp

theorem take_spec : ∀ (ls : List (List (List Byte))),
    (takeMsg ls = none ∧ ∀ q ∈ ls, q = []) ∨
    ∃ k m ls', takeMsg ls = some (k, m, ls') ∧ k < ls.length ∧ ls'.length = ls.length ∧
      ls.flatten.length = ls'.flatten.length + 1 ∧
      ∀ j, (ls[j]?).getD [] = (if k = j then [m] else []) ++ (ls'[j]?).getD []
  | [] => Or.inl ⟨rfl, by intro q hq; cases hq⟩
  | (m :: q) :: r => by
    refine Or.inr ⟨0, m, q :: r, rfl, by simp, by simp, by simp <;> omega, ?_⟩
    intro j
    cases j with
    | zero => simp
    | succ j => simp
  | [] :: r => by
    rcases take_spec r with ⟨h1, h2⟩ | ⟨k, m, ls', h1, h2, h3, h4, h5⟩
    · refine Or.inl ⟨by simp [takeMsg, h1], ?_⟩
      intro q hq
      rcases List.mem_cons.1 hq with rfl | hq
      · rfl
      · exact h2 q hq
    · refine Or.inr ⟨k + 1, m, [] :: ls', by simp [takeMsg, h1], by simpa using h2, by simpa using h3, by simpa using h4, ?_⟩
      intro j
      cases j with
      | zero => simp
      | succ j => simpa using h5 j

theorem serWriteEv_spec (w : W) (n : Int) (k : Nat) :
    ((w.links[k]?).getD [] = writtenOf k (serWriteEv w n).2 ++ ((serWriteEv w n).1.links[k]?).getD []) ∧
    w.links.length = (serWriteEv w n).1.links.length ∧
    w.links.flatten.length = writes (serWriteEv w n).2 + (serWriteEv w n).1.links.flatten.length ∧
    (w.links.flatten ≠ [] → writes (serWriteEv w n).2 = 1) := by
  unfold serWriteEv
  rcases take_spec w.links with ⟨h1, h2⟩ | ⟨j, m, ls', h1, h2, h3, h4, h5⟩
  · rw [h1]
    refine ⟨by simp [writtenOf], rfl, by simp [writes], ?_⟩
    intro h
    exact absurd (List.flatten_eq_nil_iff.2 h2) h
  · rw [h1]
    simp only [serWrite_one, List.map_cons, List.map_nil]
    have hw : writtenOf k [Act.tx j m (.write ((buildMsg m).take (min n (buildMsg m).length).toNat))] = if j = k then [m] else [] := by
      simp only [writtenOf, List.filterMap_cons, List.filterMap_nil]
      split <;> simp_all
    refine ⟨by rw [hw]; exact h5 k, h3.symm, ?_, fun _ => rfl⟩
    rw [h4]; simp only [writes, List.countP_cons, List.countP_nil]; simp; omega

theorem writable_spec (w : W) (n : Option Int) (k : Nat) :
    ((w.links[k]?).getD [] = writtenOf k (writable w n).2 ++ ((writable w n).1.links[k]?).getD []) ∧
    w.links.length = (writable w n).1.links.length := by
  cases n with
  | none => exact ⟨rfl, rfl⟩
  | some n => exact ⟨(serWriteEv_spec w n k).1, (serWriteEv_spec w n k).2.1⟩

theorem event_links {w w' : W} {rd : Option (Except Unit (List Byte))} {wn : Option Int} {a : List Act} (h : event w rd wn = .ok (w', a)) (k : Nat) :
    (w.links[k]?).getD [] = writtenOf k a ++ (w'.links[k]?).getD [] := by
  unfold event at h
  split at h
  · obtain ⟨rfl, rfl⟩ := Prod.mk.inj (Except.ok.inj h); rfl
  split at h
  · cases h
  · rename_i sh hsh
    cases hr : serReadEv sh rd with
    | error e => rw [hr] at h; cases h
    | ok x =>
      obtain ⟨sh', rc, b⟩ := x
      rw [hr, bind_ok] at h
      simp only at h
      split at h
      · obtain ⟨rfl, rfl⟩ := Prod.mk.inj (Except.ok.inj h)
        rw [writtenOf_rx]; rfl
      · obtain ⟨rfl, rfl⟩ := Prod.mk.inj (Except.ok.inj h)
        rw [writtenOf_append, writtenOf_rx]
        exact (writable_spec { w with sh := some sh' } _ k).1

theorem setup_links {w w' : W} {y : Sys} {rc : Int} (h : setup w y = .ok (w', rc)) : w'.links = w.links := by
  unfold setup at h
  split at h
  · obtain ⟨rfl, -⟩ := Prod.mk.inj (Except.ok.inj h); rfl
  simp only at h
  split at h
  · obtain ⟨rfl, -⟩ := Prod.mk.inj (Except.ok.inj h); rfl
  split at h
  · obtain ⟨rfl, -⟩ := Prod.mk.inj (Except.ok.inj h); rfl
  split at h
  · obtain ⟨rfl, -⟩ := Prod.mk.inj (Except.ok.inj h); rfl
  unfold register at h
  simp only at h
  split at h
  · split at h
    · cases h
    · obtain ⟨rfl, -⟩ := Prod.mk.inj (Except.ok.inj h); rfl
  · obtain ⟨rfl, -⟩ := Prod.mk.inj (Except.ok.inj h); rfl

theorem step_links {w w' : W} {op : Op} {a : List Act} (h : step w op = .ok (w', a)) (k : Nat) :
    (w.links[k]?).getD [] ++ sentTo k [op] = writtenOf k a ++ (w'.links[k]?).getD [] := by
  cases op with
  | link =>
    obtain ⟨rfl, rfl⟩ := Prod.mk.inj (Except.ok.inj h)
    simp only [sentTo, List.filterMap_cons, List.filterMap_nil, List.append_nil, writtenOf, List.nil_append]
    rcases Nat.lt_trichotomy k w.links.length with hk | hk | hk
    · rw [List.getElem?_append_left hk]
    · subst hk; simp
    · rw [List.getElem?_eq_none (by omega), List.getElem?_eq_none (by simp; omega)]
  | send j m =>
    simp only [step, send] at h
    cases hl : w.links[j]? with
    | none => rw [hl] at h; cases h
    | some q =>
      rw [hl] at h
      obtain ⟨rfl, rfl⟩ := Prod.mk.inj (Except.ok.inj h)
      simp only [sentTo, List.filterMap_cons, List.filterMap_nil, writtenOf, List.nil_append, wantWrite]
      by_cases hjk : j = k
      · subst hjk
        have hj : j < w.links.length := by
          rcases Nat.lt_or_ge j w.links.length with h | h
          · exact h
          · rw [List.getElem?_eq_none h] at hl; cases hl
        have hq : w.links[j] = q := by rw [List.getElem?_eq_getElem hj] at hl; exact Option.some.inj hl
        simp [hj, hq]
      · simp [hjk]
  | update y =>
    simp only [step] at h
    cases hs : setup w y with
    | error e => rw [hs] at h; cases h
    | ok x =>
      obtain ⟨w1, rc⟩ := x
      rw [hs] at h
      obtain ⟨rfl, rfl⟩ := Prod.mk.inj (Except.ok.inj h)
      simp [sentTo, writtenOf, setup_links hs]
  | event rd wn =>
    simp only [sentTo, List.filterMap_cons, List.filterMap_nil, List.append_nil]
    exact event_links h k

theorem run_links {w w' : W} {ops : List Op} {acts : List Act} (h : run w ops = .ok (w', acts)) (k : Nat) :
    (w.links[k]?).getD [] ++ sentTo k ops = writtenOf k acts ++ (w'.links[k]?).getD [] := by
  induction ops generalizing w acts with
  | nil =>
    obtain ⟨rfl, rfl⟩ := Prod.mk.inj (Except.ok.inj h)
    simp [sentTo, writtenOf]
  | cons op ops ih =>
    obtain ⟨w1, a, b, h1, h2, rfl⟩ := run_cons h
    have e : sentTo k (op :: ops) = sentTo k [op] ++ sentTo k ops := by
      rw [← List.singleton_append]; exact List.filterMap_append
    rw [e, ← List.append_assoc, step_links h1 k, List.append_assoc, ih h2, writtenOf_append, List.append_assoc]

/-- **C162** Whatever happens on a line, the messages of each link are written in the order they were sent, none twice, and
those not yet written are still queued, in order. -/
theorem C162_order_partial (cb : Bool) (ops : List Op) (w : W) (acts : List Act) (h : run (init cb) ops = .ok (w, acts)) (k : Nat) :
    sentTo k ops = writtenOf k acts ++ (w.links[k]?).getD [] := by
  have := run_links h k
  simpa [init] using this

/-- **C162** What is given to `write()` for a message is the message with its CRAPD header (the octets `write()` accepts). -/
theorem C162_octets {w w' : W} {ops : List Op} {acts : List Act} (h : run w ops = .ok (w', acts)) {k : Nat} {m : List Byte} {a : Rs232.Act}
    (ha : Act.tx k m a ∈ acts) : ∃ n, a = .write ((buildMsg m).take n) := by
  induction ops generalizing w acts with
  | nil => obtain ⟨rfl, rfl⟩ := Prod.mk.inj (Except.ok.inj h); cases ha
  | cons op ops ih =>
    obtain ⟨w1, x, b, h1, h2, rfl⟩ := run_cons h
    rcases List.mem_append.1 ha with ha | ha
    · cases op with
      | link => obtain ⟨rfl, rfl⟩ := Prod.mk.inj (Except.ok.inj h1); cases ha
      | send j m =>
        simp only [step] at h1
        cases hs : send w j m with
        | error e => rw [hs] at h1; cases h1
        | ok y => rw [hs] at h1; obtain ⟨rfl, rfl⟩ := Prod.mk.inj (Except.ok.inj h1); cases ha
      | update y =>
        simp only [step] at h1
        cases hs : setup w y with
        | error e => rw [hs] at h1; cases h1
        | ok y => rw [hs] at h1; obtain ⟨rfl, rfl⟩ := Prod.mk.inj (Except.ok.inj h1); cases ha
      | event rd wn =>
        simp only [step, event] at h1
        split at h1
        · obtain ⟨rfl, rfl⟩ := Prod.mk.inj (Except.ok.inj h1); cases ha
        split at h1
        · cases h1
        · rename_i sh hsh
          cases hr : serReadEv sh rd with
          | error e => rw [hr] at h1; cases h1
          | ok y =>
            obtain ⟨sh', rc, c⟩ := y
            rw [hr, bind_ok] at h1
            simp only at h1
            split at h1
            · obtain ⟨rfl, rfl⟩ := Prod.mk.inj (Except.ok.inj h1); simp at ha
            · obtain ⟨rfl, rfl⟩ := Prod.mk.inj (Except.ok.inj h1)
              rcases List.mem_append.1 ha with ha | ha
              · simp at ha
              · revert ha
                generalize (if w.wr = true then wn else none) = o
                cases o with
                | none => intro ha; cases ha
                | some n =>
                  intro ha
                  simp only [writable, serWriteEv] at ha
                  cases ht : takeMsg w.links with
                  | none => rw [ht] at ha; cases ha
                  | some z =>
                    obtain ⟨j, m', ls⟩ := z
                    rw [ht] at ha
                    simp only [serWrite_one, List.map_cons, List.map_nil, List.mem_singleton] at ha
                    cases ha
                    exact ⟨_, rfl⟩
    · exact ih h2 ha

/-! ## When it is written -/

theorem event_quiet {w w' : W} (hw : w.wr = false) {rd : Option (Except Unit (List Byte))} {wn : Option Int} {a : List Act}
    (h : event w rd wn = .ok (w', a)) : w'.wr = false ∧ w'.links = w.links ∧ writes a = 0 := by
  unfold event at h
  split at h
  · obtain ⟨rfl, rfl⟩ := Prod.mk.inj (Except.ok.inj h); exact ⟨hw, rfl, rfl⟩
  split at h
  · cases h
  · rename_i sh hsh
    cases hr : serReadEv sh rd with
    | error e => rw [hr] at h; cases h
    | ok x =>
      obtain ⟨sh', rc, b⟩ := x
      rw [hr, bind_ok] at h
      simp only [hw] at h
      split at h
      · obtain ⟨rfl, rfl⟩ := Prod.mk.inj (Except.ok.inj h)
        exact ⟨rfl, rfl, writes_rx b⟩
      · obtain ⟨rfl, rfl⟩ := Prod.mk.inj (Except.ok.inj h)
        exact ⟨rfl, rfl, by rw [writes_append, writes_rx]; rfl⟩

/-- **C162** (defect) Once the driver does not wait for the descriptor to become writable, nothing is ever written until a further message
is sent (or the line is set up again), whatever is queued. -/
theorem C162_stall_violated {w w' : W} (hw : w.wr = false) {ops : List Op} (hq : Quiet ops) {acts : List Act} (h : run w ops = .ok (w', acts)) :
    writes acts = 0 ∧ w'.wr = false ∧ ∀ (k : Nat) (q : List (List Byte)), w.links[k]? = some q → w'.links[k]? = some q := by
  induction ops generalizing w acts with
  | nil => obtain ⟨rfl, rfl⟩ := Prod.mk.inj (Except.ok.inj h); exact ⟨rfl, hw, fun _ _ h => h⟩
  | cons op ops ih =>
    obtain ⟨w1, a, b, h1, h2, rfl⟩ := run_cons h
    have hq' : Quiet ops := fun o ho => hq o (List.mem_cons_of_mem _ ho)
    have h0 := hq op List.mem_cons_self
    cases op with
    | link =>
      obtain ⟨rfl, rfl⟩ := Prod.mk.inj (Except.ok.inj h1)
      obtain ⟨i1, i2, i3⟩ := ih (w := { w with links := w.links ++ [[]] }) hw hq' h2
      refine ⟨i1, i2, fun k q hk => i3 k q ?_⟩
      have : k < w.links.length := by
        rcases Nat.lt_or_ge k w.links.length with h | h
        · exact h
        · rw [List.getElem?_eq_none h] at hk; cases hk
      exact (List.getElem?_append_left this).trans hk
    | send k m => exact absurd rfl (h0.1 k m)
    | update y => exact absurd rfl (h0.2 y)
    | event rd wn =>
      obtain ⟨e1, e2, e3⟩ := event_quiet hw h1
      obtain ⟨i1, i2, i3⟩ := ih e1 hq' h2
      exact ⟨by rw [writes_append, e3, i1], i2, fun k q hk => i3 k q (by rw [e2]; exact hk)⟩

/-- **C162** (defect) Two messages sent before the descriptor becomes writable: the second is not written, however often the descriptor
becomes writable, as long as no third message is sent. -/
theorem C162_two_violated (cb : Bool) (fd : Nat) (m1 m2 : List Byte) (n : Int) (ops : List Op) (hq : Quiet ops) (w : W) (acts : List Act)
    (h : run (up cb fd 1) ([.send 0 m1, .send 0 m2, .event none (some n)] ++ ops) = .ok (w, acts)) :
    writtenOf 0 acts = [m1] ∧ w.links[0]? = some [m2] := by
  have h0 : run (up cb fd 1) [.send 0 m1, .send 0 m2, .event none (some n)] =
      .ok ({ up cb fd 1 with links := [[m2]] }, (serWrite (some m1) n).2.map (.tx 0 m1)) := by
    simp [run, step, send, up, wantWrite, event, serReadEv, bind_ok, writable, serWriteEv, takeMsg]
  rw [run_append _ _ _ h0] at h
  cases hr : run { up cb fd 1 with links := [[m2]] } ops with
  | error e => rw [hr] at h; cases h
  | ok x =>
    obtain ⟨w1, b⟩ := x
    rw [hr] at h
    obtain ⟨rfl, rfl⟩ := Prod.mk.inj (Except.ok.inj h)
    obtain ⟨i1, i2, i3⟩ := C162_stall_violated rfl hq hr
    have hl := run_links hr 0
    have e3 := i3 0 [m2] rfl
    refine ⟨?_, e3⟩
    rw [writtenOf_append]
    have hs : sentTo 0 ops = [] := by
      unfold sentTo
      rw [List.filterMap_eq_nil_iff]
      intro o ho
      cases o with
      | send k m => exact absurd rfl ((hq _ ho).1 k m)
      | link => rfl
      | update y => rfl
      | event rd wn => rfl
    have hl : writtenOf 0 b = [] := by
      change [m2] ++ sentTo 0 ops = writtenOf 0 b ++ (w1.links[0]?).getD [] at hl
      rw [hs, e3] at hl
      have := congrArg List.length hl
      simp at this
      simpa using this
    rw [hl, serWrite_one]
    rfl

/-- **C162** (defect) A message sent before the line is set up is not written either. -/
theorem C162_before_violated (cb : Bool) (fd : Nat) (m : List Byte) (ops : List Op) (hq : Quiet ops) (w : W) (acts : List Act)
    (h : run (init cb) ([.link, .send 0 m, .update (okSys fd)] ++ ops) = .ok (w, acts)) :
    writes acts = 0 ∧ w.links[0]? = some [m] := by
  have h0 : run (init cb) [.link, .send 0 m, .update (okSys fd)] = .ok ({ up cb fd 1 with links := [[m]] }, []) := by
    simp [run, step, send, up, wantWrite, init, setup, okSys, register, bind_ok]
  rw [run_append _ _ _ h0] at h
  cases hr : run { up cb fd 1 with links := [[m]] } ops with
  | error e => rw [hr] at h; cases h
  | ok x =>
    obtain ⟨w1, b⟩ := x
    rw [hr] at h
    obtain ⟨rfl, rfl⟩ := Prod.mk.inj (Except.ok.inj h)
    obtain ⟨i1, i2, i3⟩ := C162_stall_violated rfl hq hr
    exact ⟨by simpa using i1, i3 0 [m] rfl⟩

theorem send_flat (ls : List (List (List Byte))) (k : Nat) (q : List (List Byte)) (m : List Byte) (h : ls[k]? = some q) :
    (ls.set k (q ++ [m])).flatten.length = ls.flatten.length + 1 := by
  induction ls generalizing k with
  | nil => cases h
  | cons x ls ih =>
    cases k with
    | zero =>
      have : x = q := by simpa using h
      subst this
      simp; omega
    | succ k =>
      have := ih k (by simpa using h)
      simp only [List.set_cons_succ, List.flatten_cons, List.length_append, this]; omega

/-- a line in operation with `n` links, some messages queued -/
structure Live (w : W) (n : Nat) : Prop where
  len : w.links.length = n
  reg : w.reg = true
  sh : ∃ s, w.sh = some s

theorem tx_run (n : Nat) : ∀ (os : List TxOp), (∀ o ∈ os, ∀ k m, o = .send k m → k < n) → ∀ (w : W), Live w n →
    (w.wr = true → w.links.flatten ≠ []) →
    ∃ w' acts, run w (os.map TxOp.op) = .ok (w', acts) ∧ Live w' n ∧ writes acts = turns w.wr os ∧
      w.links.flatten.length + os.countP isSend = writes acts + w'.links.flatten.length := by
  intro os
  induction os with
  | nil => intro _ w hl _; exact ⟨w, [], rfl, hl, by cases w.wr <;> rfl, by simp [writes]⟩
  | cons o os ih =>
    intro hk w hl hne
    have hk' : ∀ o ∈ os, ∀ k m, o = .send k m → k < n := fun o ho => hk o (List.mem_cons_of_mem _ ho)
    cases o with
    | send k m =>
      have hkn := hk _ List.mem_cons_self k m rfl
      have hg : w.links[k]? = some (w.links[k]'(by rw [hl.len]; exact hkn)) := List.getElem?_eq_getElem _
      have hf := send_flat w.links k _ m hg
      have hs : step w (.send k m) = .ok (wantWrite { w with links := w.links.set k (w.links[k]'(by rw [hl.len]; exact hkn) ++ [m]) }, []) := by
        simp only [step, send, hg, bind_ok]
      obtain ⟨w', acts, h1, h2, h3, h4⟩ := ih hk' (wantWrite { w with links := w.links.set k (w.links[k]'(by rw [hl.len]; exact hkn) ++ [m]) })
        ⟨by simp [wantWrite, hl.len], hl.reg, hl.sh⟩ (by intro _ h; simp only [wantWrite] at h; rw [h] at hf; simp at hf)
      refine ⟨w', acts, ?_, h2, ?_, ?_⟩
      · simp only [List.map_cons, TxOp.op, run, hs, bind_ok, h1, List.nil_append]
      · rw [h3]; cases w.wr <;> rfl
      · rw [List.countP_cons]
        simp only [wantWrite] at h4
        rw [hf] at h4
        have : isSend (.send k m) = true := rfl
        rw [this, if_pos rfl]; omega
    | ready x =>
      obtain ⟨s, hs⟩ := hl.sh
      cases hw : w.wr with
      | false =>
        have e : step w (.event none (some x)) = .ok (w, []) := by
          obtain ⟨l, sh, cb, wr, reg, cur, fds⟩ := w
          have hr : reg = true := hl.reg
          have hs : sh = some s := hs
          have hw : wr = false := hw
          subst hr hs hw
          rfl
        obtain ⟨w', acts, h1, h2, h3, h4⟩ := ih hk' w hl hne
        refine ⟨w', acts, ?_, h2, ?_, ?_⟩
        · simp only [List.map_cons, TxOp.op, run, e, bind_ok, h1, List.nil_append]
        · rw [h3, hw]; rfl
        · rw [List.countP_cons]
          have : isSend (.ready x) = false := rfl
          rw [this]; simpa using h4
      | true =>
        have e : step w (.event none (some x)) = .ok (serWriteEv w x) := by
          obtain ⟨l, sh, cb, wr, reg, cur, fds⟩ := w
          have hr : reg = true := hl.reg
          have hs : sh = some s := hs
          have hw : wr = true := hw
          subst hr hs hw
          rfl
        obtain ⟨-, a2, a3, a4⟩ := serWriteEv_spec w x 0
        have a4 := a4 (hne hw)
        have a5 : (serWriteEv w x).1.wr = false ∧ (serWriteEv w x).1.reg = w.reg ∧ (serWriteEv w x).1.sh = w.sh := by
          unfold serWriteEv
          split <;> exact ⟨rfl, rfl, rfl⟩
        obtain ⟨w', acts, h1, h2, h3, h4⟩ := ih hk' (serWriteEv w x).1 ⟨by rw [← a2]; exact hl.len, a5.2.1.trans hl.reg, ⟨s, a5.2.2.trans hs⟩⟩
          (by rw [a5.1]; intro h; cases h)
        refine ⟨w', (serWriteEv w x).2 ++ acts, ?_, h2, ?_, ?_⟩
        · simp only [List.map_cons, TxOp.op, run, e, bind_ok, h1]
        · rw [writes_append, a4, h3, a5.1]; rfl
        · rw [List.countP_cons, writes_append]
          have : isSend (.ready x) = false := rfl
          rw [this]; simp only [Bool.false_eq_true, if_false]; omega

/-- **C162** (exact) On a line in operation, as many messages are written as times the descriptor becomes writable for the first
time after a message was sent.  All messages are written exactly if that happens as often as messages are sent, that is, behind each message
before the next one. -/
theorem C162_exact_partial (cb : Bool) (fd n : Nat) (os : List TxOp) (hk : ∀ o ∈ os, ∀ k m, o = .send k m → k < n) :
    ∃ w acts, run (up cb fd n) (os.map TxOp.op) = .ok (w, acts) ∧ writes acts = turns false os ∧
      ((∀ q ∈ w.links, q = []) ↔ os.countP isSend = turns false os) := by
  have hf : (up cb fd n).links.flatten = [] := by simp [up]
  obtain ⟨w, acts, h1, h2, h3, h4⟩ := tx_run n os hk (up cb fd n) ⟨by simp [up], rfl, ⟨_, rfl⟩⟩ (by intro h; cases h)
  refine ⟨w, acts, h1, h3, ?_⟩
  rw [hf] at h4
  rw [← List.flatten_eq_nil_iff, ← List.length_eq_zero_iff]
  have h3 : writes acts = turns false os := h3
  simp only [List.length_nil] at h4
  omega

/-- **C162** After each message, the descriptor becomes writable before the next one is sent: all of them are written. -/
theorem C162_paced_partial (cb : Bool) (fd n : Nat) (ms : List (Nat × List Byte × Int)) (hk : ∀ x ∈ ms, x.1 < n) :
    ∃ w acts, run (up cb fd n) ((ms.flatMap fun x => [TxOp.send x.1 x.2.1, .ready x.2.2]).map TxOp.op) = .ok (w, acts) ∧
      (∀ q ∈ w.links, q = []) ∧ writes acts = ms.length := by
  have ht : ∀ ms : List (Nat × List Byte × Int), turns false (ms.flatMap fun x => [TxOp.send x.1 x.2.1, .ready x.2.2]) = ms.length ∧
      (ms.flatMap fun x => [TxOp.send x.1 x.2.1, .ready x.2.2]).countP isSend = ms.length := by
    intro ms
    induction ms with
    | nil => exact ⟨rfl, rfl⟩
    | cons x ms ih =>
      simp only [List.flatMap_cons, List.cons_append, List.nil_append, turns, List.countP_cons, isSend, List.length_cons, ih.1, ih.2]
      simp; omega
  obtain ⟨w, acts, h1, h2, h3⟩ := C162_exact_partial cb fd n (ms.flatMap fun x => [TxOp.send x.1 x.2.1, .ready x.2.2]) (by
    intro o ho k m he
    obtain ⟨x, hx, hm⟩ := List.mem_flatMap.1 ho
    simp only [List.mem_cons, List.not_mem_nil, or_false] at hm
    rcases hm with hm | hm
    · rw [hm] at he; cases he; exact hk x hx
    · rw [hm] at he; cases he)
  exact ⟨w, acts, h1, h3.2 ((ht ms).2.trans (ht ms).1.symm), h2.trans (ht ms).1⟩

/-! ## Setting up the line -/

/-- **C163** (exact) A set-up that fails leaves no descriptor open exactly if not the attributes of the opened port are the reason. -/
theorem C163_fail_iff (w w' : W) (y : Sys) (rc : Int) (h : setup w y = .ok (w', rc)) (hrc : rc < 0) :
    w'.fds = w.fds ↔ y.fd = none ∨ (y.getOk = true ∧ y.setOk = true) := by
  obtain ⟨fd, g, s, me, r⟩ := y
  unfold setup at h
  cases fd with
  | none => obtain ⟨rfl, -⟩ := Prod.mk.inj (Except.ok.inj h); simp
  | some fd =>
    cases g <;> cases s <;> cases me <;> cases r <;> simp only [Bool.not_true, Bool.not_false, if_true, Bool.false_eq_true, if_false, register] at h
    all_goals first
      | (obtain ⟨rfl, rfl⟩ := Prod.mk.inj (Except.ok.inj h); simp; done)
      | (split at h
         · cases h
         · obtain ⟨rfl, rfl⟩ := Prod.mk.inj (Except.ok.inj h); exact absurd hrc (by decide))

/-- **C163** A set-up of a line not set up before: it succeeds if all calls do, and then the descriptor is open, watched for reading, and
reception starts with an empty buffer. -/
theorem C163_success_partial (w : W) (fd : Nat) (hr : w.reg = false) :
    ∃ w', setup w (okSys fd) = .ok (w', 0) ∧ w'.fds = w.fds ++ [fd] ∧ w'.cur = some fd ∧ w'.reg = true ∧ w'.wr = false ∧
      w'.sh = some (Rs232.init w.cb) ∧ w'.links = w.links := by
  exact ⟨{ w with cur := some fd, sh := some (Rs232.init w.cb), wr := false, reg := true, fds := w.fds ++ [fd] }, by
    simp [setup, okSys, register, hr], rfl, rfl, rfl, rfl, rfl, rfl⟩

/-- **C163** (defect) Updating a line that is in operation puts its descriptor into the list of the select loop a second time. -/
theorem C163_update_violated (w : W) (fd : Nat) (hr : w.reg = true) : setup w (okSys fd) = .error .ub := by
  simp [setup, okSys, register, hr]

/-- **C163** (defect) If the attributes cannot be read, the new descriptor stays open, and replaces the one in use, which stays open as well. -/
theorem C163_leak_violated (w : W) (fd : Nat) (y : Sys) (hy : y.fd = some fd) (hg : y.getOk = false) :
    ∃ w', setup w y = .ok (w', -1) ∧ w'.fds = w.fds ++ [fd] ∧ w'.cur = some fd ∧ w'.reg = w.reg := by
  exact ⟨{ w with cur := some fd, fds := w.fds ++ [fd] }, by simp [setup, hy, hg], rfl, rfl, rfl⟩

/-! ## The hypotheses are met -/

/-- the line `up` is what links and a set-up lead to -/
example : run (init true) [.link, .link, .update (okSys 7)] = .ok (up true 7 2, []) := by decide +kernel

/-- two links: the first in the list goes first -/
example : (run (up true 7 2) [.send 1 [1], .send 0 [2], .event none (some 11), .send 1 [3], .event none (some 11)]).map
    (fun r => (writtenOf 0 r.2, writtenOf 1 r.2, r.1.links)) = .ok ([[2]], [[1]], [[], [[3]]]) := by decide +kernel

example : turns false [.send 0 [1], .send 0 [2], .ready 11, .ready 11, .send 0 [3], .ready 11] = 2 := by decide

example : Quiet [.event none (some 300), .event (some (.ok [0, 8])) none, .link] := by
  intro o ho
  simp only [List.mem_cons, List.not_mem_nil, or_false] at ho
  rcases ho with rfl | rfl | rfl <;> exact ⟨(fun _ _ h => by cases h), (fun _ h => by cases h)⟩

example : (run (up true 7 1) ([.send 0 [1], .send 0 [2], .event none (some 11)] ++ [.event none (some 300), .event (some (.ok [0, 8])) none])).map
    (fun r => r.1.links) = .ok [[[2]]] := by decide +kernel

example : (up true 7 1).reg = true := rfl

end Verif.Rs232.Drv
