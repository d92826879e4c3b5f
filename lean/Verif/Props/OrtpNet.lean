import Verif.Spec.OrtpNet
/-!
# C166: descriptors of RTP sockets
-/
set_option maxRecDepth 10000
set_option linter.unusedSimpArgs false
namespace Verif.Ortp.Net

private theorem closes_append (a b : List Act) : closes (a ++ b) = closes a ++ closes b := by
  induction a with
  | nil => rfl
  | cons x a ih => cases x <;> simp [closes, ih]

private theorem run_cons {n n' : N} {op : Op} {h : List Op} {a : List Act} (hr : run n (op :: h) = .ok (n', a)) :
    ∃ n1 a1 a2, step n op = .ok (n1, a1) ∧ run n1 h = .ok (n', a2) ∧ a = a1 ++ a2 := by
  simp only [run] at hr
  split at hr
  · cases hr
  · rename_i r hs
    split at hr
    · cases hr
    · rename_i q hq
      obtain ⟨e1, e2⟩ := Prod.mk.inj (Except.ok.inj hr)
      exact ⟨r.1, r.2, q.2, hs, by rw [hq, ← e1], e2.symm⟩

/-- what a single call does -/
private structure Eff (n n1 : N) (a : List Act) (op : Op) : Prop where
  poll : n1.poll = n.poll
  held : n1.sess = held n.sess [op]
  bal : fds n.sess ++ opened n.sess [op] = closes a ++ fds n1.sess
  known : ∀ k, (k = true → n.bfd = sessFds n) → inStep n.poll n.sess k [op] = true → n1.bfd = sessFds n1
  watch : (∀ f ∈ watched n1, f ∈ watched n) ∨ n1.bfd = sessFds n1
  stale : n.poll = true → (∀ p r, op ≠ .bind p (some r)) → n1.bfd = n.bfd

private theorem fdreg_eff {n n1 : N} {ok1 ok2 b : Bool} (h : fdreg n ok1 ok2 = .ok (n1, b)) :
    n1.poll = n.poll ∧ n1.sess = n.sess ∧ n1.bfd = sessFds n1 := by
  simp only [fdreg] at h
  split at h
  · obtain ⟨e, -⟩ := Prod.mk.inj (Except.ok.inj h); subst e; exact ⟨rfl, rfl, rfl⟩
  · split at h
    · cases h
    · split at h
      · obtain ⟨e, -⟩ := Prod.mk.inj (Except.ok.inj h); subst e; exact ⟨rfl, rfl, rfl⟩
      · split at h
        · cases h
        · obtain ⟨e, -⟩ := Prod.mk.inj (Except.ok.inj h); subst e; exact ⟨rfl, rfl, rfl⟩

private theorem step_eff {n n1 : N} {a : List Act} {op : Op} (h : step n op = .ok (n1, a)) : Eff n n1 a op := by
  obtain ⟨poll, sess, bfd, r1, r2, fr⟩ := n
  simp only [step] at h
  split at h
  · cases h
  · cases op with
    | bind port r =>
      obtain ⟨e1, e2⟩ := Prod.mk.inj (Except.ok.inj h)
      subst e1 e2
      cases r with
      | none =>
        cases sess with
        | none =>
          exact ⟨rfl, rfl, rfl, fun k hk hi => by simpa [inStep, bind, setLocal, release, sessFds] using hk (by simpa [inStep] using hi),
            .inl (fun f hf => hf), fun _ _ => rfl⟩
        | some s =>
          exact ⟨rfl, rfl, rfl, fun k hk hi => by simp [inStep] at hi, .inl (fun f hf => hf), fun _ _ => rfl⟩
      | some r =>
        cases sess with
        | none => exact ⟨rfl, rfl, rfl, fun k hk hi => rfl, .inr rfl, fun _ hn => absurd rfl (hn _ _)⟩
        | some s => exact ⟨rfl, rfl, rfl, fun k hk hi => rfl, .inr rfl, fun _ hn => absurd rfl (hn _ _)⟩
    | connect port auto remote ok1 ok2 =>
      dsimp only at h
      split at h
      · cases h
      · rename_i v hc
        obtain ⟨e1, e2⟩ := Prod.mk.inj (Except.ok.inj h)
        subst e1 e2
        obtain ⟨v1, v2⟩ := v
        simp only [connect] at hc
        by_cases hp : port = 0
        · rw [if_pos hp] at hc
          obtain ⟨e1, -⟩ := Prod.mk.inj (Except.ok.inj hc)
          subst e1 hp
          refine ⟨rfl, by simp [held], ?_, ?_, .inl (fun f hf => hf), fun _ _ => rfl⟩
          · cases sess with
            | none => cases auto <;> simp [opened, fds, closes]
            | some s => simp [opened, closes]
          · intro k hk hi
            exact hk (by simpa [inStep] using hi)
        · rw [if_neg hp] at hc
          cases sess with
          | none =>
            simp only [if_true] at hc
            cases auto with
            | none =>
              rw [if_pos (.inr rfl)] at hc
              obtain ⟨e1, -⟩ := Prod.mk.inj (Except.ok.inj hc)
              subst e1
              refine ⟨rfl, by simp [held], by simp [opened, fds, closes], ?_, .inl (fun f hf => hf), fun _ _ => rfl⟩
              intro k hk hi
              exact hk (by simpa [inStep, hp] using hi)
            | some s =>
              have hb : fds none ++ opened none [Op.connect port (some s) remote ok1 ok2] = closes [] ++ fds (some s) := by
                obtain ⟨x, y⟩ := s
                simp [opened, hp, fds, closes]
              cases hr : remote with
              | false =>
                rw [if_pos (.inl hr)] at hc
                obtain ⟨e1, -⟩ := Prod.mk.inj (Except.ok.inj hc)
                subst e1 hr
                exact ⟨rfl, by simp [held, hp], hb, fun k hk hi => by simp [inStep, hp] at hi, .inl (fun f hf => hf), fun _ _ => rfl⟩
              | true =>
                subst hr
                rw [if_neg (by simp)] at hc
                cases poll with
                | true =>
                  rw [if_pos rfl] at hc
                  obtain ⟨e1, -⟩ := Prod.mk.inj (Except.ok.inj hc)
                  subst e1
                  exact ⟨rfl, by simp [held, hp], hb, fun k hk hi => by simp [inStep, hp] at hi, .inl (fun f hf => hf), fun _ _ => rfl⟩
                | false =>
                  rw [if_neg (by simp)] at hc
                  obtain ⟨f1, f2, f3⟩ := fdreg_eff hc
                  exact ⟨f1, by rw [f2]; simp [held, hp], by rw [f2]; exact hb, fun _ _ _ => f3, .inr f3, fun hx => by cases hx⟩
          | some s =>
            rw [if_neg (by simp : ¬ (some s = none))] at hc
            have hb : fds (some s) ++ opened (some s) [Op.connect port auto remote ok1 ok2] = closes [] ++ fds (some s) := by
              cases auto <;> simp [opened, closes]
            cases hr : remote with
            | false =>
              rw [if_pos (.inl hr)] at hc
              obtain ⟨e1, -⟩ := Prod.mk.inj (Except.ok.inj hc)
              subst e1 hr
              exact ⟨rfl, by simp [held, hp], hb, fun k hk hi => hk (by simpa [inStep, hp] using hi), .inl (fun f hf => hf), fun _ _ => rfl⟩
            | true =>
              subst hr
              rw [if_neg (by simp)] at hc
              cases poll with
              | true =>
                rw [if_pos rfl] at hc
                obtain ⟨e1, -⟩ := Prod.mk.inj (Except.ok.inj hc)
                subst e1
                exact ⟨rfl, by simp [held, hp], hb, fun k hk hi => hk (by simpa [inStep, hp] using hi), .inl (fun f hf => hf), fun _ _ => rfl⟩
              | false =>
                rw [if_neg (by simp)] at hc
                obtain ⟨f1, f2, f3⟩ := fdreg_eff hc
                exact ⟨f1, by rw [f2]; simp [held, hp], by rw [f2]; exact hb, fun _ _ _ => f3, .inr f3, fun hx => by cases hx⟩
    | autoconnect ok1 ok2 =>
      dsimp only at h
      split at h
      · cases h
      · rename_i v hc
        obtain ⟨e1, e2⟩ := Prod.mk.inj (Except.ok.inj h)
        subst e1 e2
        obtain ⟨v1, v2⟩ := v
        simp only [autoconnect] at hc
        cases poll with
        | true =>
          rw [if_pos rfl] at hc
          obtain ⟨e1, -⟩ := Prod.mk.inj (Except.ok.inj hc)
          subst e1
          exact ⟨rfl, rfl, by simp [opened, closes], fun k hk hi => hk (by simpa [inStep] using hi), .inl (fun f hf => hf), fun _ _ => rfl⟩
        | false =>
          rw [if_neg (by simp)] at hc
          obtain ⟨f1, f2, f3⟩ := fdreg_eff hc
          exact ⟨f1, f2, by rw [f2]; simp [opened, closes], fun _ _ _ => f3, .inr f3, fun hx => by cases hx⟩
    | setPriority ok =>
      obtain ⟨e1, e2⟩ := Prod.mk.inj (Except.ok.inj h)
      subst e1 e2
      refine ⟨rfl, rfl, ?_, fun k hk hi => hk (by simpa [inStep] using hi), .inl (fun f hf => hf), fun _ _ => rfl⟩
      cases ok <;> simp [opened, closes, setPriority]
    | bound =>
      obtain ⟨e1, e2⟩ := Prod.mk.inj (Except.ok.inj h)
      subst e1 e2
      exact ⟨rfl, rfl, by simp [opened, closes, bound], fun k hk hi => hk (by simpa [inStep] using hi), .inl (fun f hf => hf), fun _ _ => rfl⟩
    | free =>
      obtain ⟨e1, e2⟩ := Prod.mk.inj (Except.ok.inj h)
      subst e1 e2
      cases sess with
      | none =>
        exact ⟨rfl, rfl, rfl, fun k hk hi => by simpa [free, release, sessFds] using hk (by simpa [inStep] using hi),
          .inl (fun f hf => by simp [free, release, watched] at hf), fun _ _ => rfl⟩
      | some s =>
        exact ⟨rfl, rfl, rfl, fun k hk hi => by simp [inStep] at hi,
          .inl (fun f hf => by simp [free, release, watched] at hf), fun _ _ => rfl⟩

private theorem held_cons (s : Option (Nat × Nat)) (op : Op) (h : List Op) : held s (op :: h) = held (held s [op]) h := by
  cases op <;> rfl

private theorem opened_cons (s : Option (Nat × Nat)) (op : Op) (h : List Op) :
    opened s (op :: h) = opened s [op] ++ opened (held s [op]) h := by
  cases op with
  | bind p r => cases r <;> rfl
  | connect port auto remote ok1 ok2 =>
    cases s with
    | none =>
      cases auto with
      | none => simp [opened, held]
      | some r => by_cases hp : port = 0 <;> simp [opened, held, hp]
    | some s => cases auto <;> simp [opened, held]
  | autoconnect => rfl
  | setPriority => rfl
  | bound => rfl
  | free => rfl

private theorem inStep_cons (p : Bool) (s : Option (Nat × Nat)) (k : Bool) (op : Op) (h : List Op) :
    inStep p s k (op :: h) = inStep p (held s [op]) (inStep p s k [op]) h := by
  cases op with
  | bind q r => cases r <;> rfl
  | connect port auto remote ok1 ok2 =>
    by_cases hp : port = 0
    · simp [inStep, held, hp]
    · cases s with
      | none => cases auto <;> simp [inStep, held, hp]
      | some s => simp [inStep, held, hp]
  | autoconnect => rfl
  | setPriority => rfl
  | bound => rfl
  | free => rfl

private theorem run_eff : ∀ (h : List Op) {n n' : N} {a : List Act}, run n h = .ok (n', a) →
    n'.poll = n.poll ∧ n'.sess = held n.sess h ∧ fds n.sess ++ opened n.sess h = closes a ++ fds n'.sess ∧
    (∀ k, (k = true → n.bfd = sessFds n) → inStep n.poll n.sess k h = true → n'.bfd = sessFds n') ∧
    (n.poll = true → (∀ p r, Op.bind p (some r) ∉ h) → n'.bfd = n.bfd) := by
  intro h
  induction h with
  | nil =>
    intro n n' a hr
    obtain ⟨e1, e2⟩ := Prod.mk.inj (Except.ok.inj hr)
    subst e1 e2
    exact ⟨rfl, rfl, by simp [opened, closes], fun k hk hi => hk hi, fun _ _ => rfl⟩
  | cons op h ih =>
    intro n n' a hr
    obtain ⟨n1, a1, a2, hs, hr2, rfl⟩ := run_cons hr
    have E := step_eff hs
    obtain ⟨i1, i2, i3, i4, i5⟩ := ih hr2
    refine ⟨by rw [i1, E.poll], by rw [i2, E.held, ← held_cons], ?_, ?_, ?_⟩
    · rw [opened_cons, ← List.append_assoc, E.bal, closes_append, List.append_assoc, ← E.held, i3, List.append_assoc]
    · intro k hk hi
      rw [inStep_cons] at hi
      rw [← E.held, ← E.poll] at hi
      exact i4 _ (fun e => E.known k hk (by rw [← E.poll]; exact e)) hi
    · intro hp hn
      rw [i5 (by rw [E.poll, hp]) (fun p r hm => hn p r (by simp [hm])), E.stale hp (fun p r e => hn p r (by simp [e]))]

/-- **C166**: every socket that is opened for an RTP socket is closed exactly once, in the order of opening: those not closed are the ones
the session holds, and these are the ones of the last successful bind; after `osmo_rtp_socket_free()` none is left -/
theorem C166_closed (poll : Bool) (h : List Op) (n : N) (a : List Act) (hr : run (create poll) h = .ok (n, a)) :
    n.sess = held none h ∧ opened none h = closes a ++ fds (held none h) ∧
    (∀ n' b, step n .free = .ok (n', b) → opened none h = closes (a ++ b) ∧ watched n' = []) := by
  obtain ⟨-, h2, h3, -⟩ := run_eff h hr
  have h2' : n.sess = held none h := h2
  have h3' : opened none h = closes a ++ fds n.sess := h3
  refine ⟨h2', by rw [← h2']; exact h3', fun n' b hs => ?_⟩
  have E := step_eff hs
  have hb := E.bal
  rw [E.held] at hb
  have hb' : fds n.sess ++ [] = closes b ++ [] := hb
  simp only [List.append_nil] at hb'
  refine ⟨by rw [closes_append, ← hb', h3'], ?_⟩
  simp only [step] at hs
  split at hs
  · cases hs
  · obtain ⟨e1, -⟩ := Prod.mk.inj (Except.ok.inj hs)
    subst e1
    obtain ⟨p, s, bf, r1, r2, fr⟩ := n
    cases s <;> rfl

private theorem sess_fds {n : N} (h : n.bfd = sessFds n) (i : Int) (hi : i = n.bfd.1 ∨ i = n.bfd.2) :
    i = -1 ∨ ∃ f ∈ fds n.sess, i = (f : Int) := by
  rw [h] at hi
  obtain ⟨p, s, bf, r1, r2, fr⟩ := n
  cases s with
  | none => rcases hi with rfl | rfl <;> exact .inl rfl
  | some s => rcases hi with rfl | rfl <;> exact .inr ⟨_, by simp [fds], rfl⟩

/-- **C166 (partial)**: while the numbers kept are those of the session (`inStep`: after a successful bind, or after connecting a socket that is
not in polling mode, until a bind fails), whatever is called next uses, and the select loop watches, only descriptors the session holds
(or the invalid descriptor -1) -/
theorem C166_own_partial (poll : Bool) (h : List Op) (n : N) (a : List Act) (hr : run (create poll) h = .ok (n, a))
    (hi : inStep poll none false h = true) :
    (∀ i ∈ watched n, i = -1 ∨ ∃ f ∈ fds (held none h), i = (f : Int)) ∧
    ∀ op n' b, step n op = .ok (n', b) → ∀ x ∈ b, ∀ i ∈ uses x, i = -1 ∨ ∃ f ∈ fds (held none h), i = (f : Int) := by
  obtain ⟨-, h2, -, h4, -⟩ := run_eff h hr
  have hb : n.bfd = sessFds n := h4 false (by simp) hi
  have h2' : n.sess = held none h := h2
  rw [← h2']
  constructor
  · intro i hw
    apply sess_fds hb
    simp only [watched, List.mem_append] at hw
    rcases hw with hw | hw
    · split at hw
      · simp at hw; exact .inl hw
      · simp at hw
    · split at hw
      · simp at hw; exact .inr hw
      · simp at hw
  · intro op n' b hs x hx i hu
    apply sess_fds hb
    simp only [step] at hs
    split at hs
    · cases hs
    · cases op with
      | bind port r =>
        obtain ⟨-, e2⟩ := Prod.mk.inj (Except.ok.inj hs)
        subst e2
        exfalso
        obtain ⟨p, s, bf, r1, r2, fr⟩ := n
        cases r <;> cases s <;> simp [bind, setLocal, release] at hx
        all_goals (first | (subst hx; simp [uses] at hu) | (rcases hx with rfl | rfl | rfl <;> simp [uses] at hu))
      | connect port auto remote ok1 ok2 =>
        dsimp only at hs
        split at hs
        · cases hs
        · obtain ⟨-, e2⟩ := Prod.mk.inj (Except.ok.inj hs)
          subst e2
          cases hx
      | autoconnect ok1 ok2 =>
        dsimp only at hs
        split at hs
        · cases hs
        · obtain ⟨-, e2⟩ := Prod.mk.inj (Except.ok.inj hs)
          subst e2
          cases hx
      | setPriority ok =>
        obtain ⟨-, e2⟩ := Prod.mk.inj (Except.ok.inj hs)
        subst e2
        simp only [setPriority] at hx
        split at hx
        · simp only [List.mem_cons, List.not_mem_nil, or_false] at hx
          rcases hx with rfl | rfl
          · simp only [uses, List.mem_singleton] at hu; exact .inl hu
          · simp only [uses, List.mem_singleton] at hu; exact .inr hu
        · simp only [List.mem_singleton] at hx
          subst hx
          simp only [uses, List.mem_singleton] at hu; exact .inl hu
      | bound =>
        obtain ⟨-, e2⟩ := Prod.mk.inj (Except.ok.inj hs)
        subst e2
        simp only [bound, List.mem_singleton] at hx
        subst hx
        simp only [uses, List.mem_singleton] at hu; exact .inl hu
      | free =>
        obtain ⟨-, e2⟩ := Prod.mk.inj (Except.ok.inj hs)
        subst e2
        exfalso
        obtain ⟨p, s, bf, r1, r2, fr⟩ := n
        cases s <;> simp [free, release] at hx
        rcases hx with rfl | rfl <;> simp [uses] at hu

/-- **C166 violated**: the priority and the address of an RTP socket in polling mode that was never bound explicitly, whether it was
connected or not, are those of descriptor 0, the standard input of the program -/
theorem C166_stdin_violated (h : List Op) (n : N) (a : List Act) (hr : run (create true) h = .ok (n, a))
    (hn : ∀ p r, Op.bind p (some r) ∉ h) (ok : Bool) :
    setPriority n ok = (if ok then [.prio 0, .prio 0] else [.prio 0]) ∧ bound n = [.name 0] := by
  obtain ⟨-, -, -, -, h5⟩ := run_eff h hr
  have hb : n.bfd = (0, 0) := h5 rfl hn
  simp only [setPriority, bound, hb, and_self]

/-- such a socket, with the sockets 5 and 6 -/
example : ((run (create true) [.connect 4000 (some (5, 6)) true true true, .bound]).map (fun r => (r.1.sess, r.2)) =
    .ok (some (5, 6), [.name 0])) := by decide +kernel

/-- **C166 violated**: the same without polling mode, before the socket is bound or connected -/
theorem C166_fresh_violated (poll ok : Bool) : step (create poll) (.setPriority ok) = .ok (create poll, if ok then [.prio 0, .prio 0] else [.prio 0]) ∧
    step (create poll) .bound = .ok (create poll, [.name 0]) := by
  cases poll <;> cases ok <;> decide

/-- **C166 violated**: after a bind of a bound socket has failed, the sockets are closed, but their numbers are still used, and watched by
the select loop if it did so before -/
theorem C166_rebind_violated (poll : Bool) (h : List Op) (n : N) (a : List Act) (hr : run (create poll) h = .ok (n, a))
    (hi : inStep poll none false h = true) (x y : Nat) (hh : held none h = some (x, y)) (hf : n.freed = false) (port : Int) :
    ∃ n' b, step n (.bind port none) = .ok (n', b) ∧ closes b = [x, y] ∧ n'.sess = none ∧
      watched n' = watched n ∧ setPriority n' true = [.prio x, .prio y] ∧ bound n' = [.name x] := by
  obtain ⟨-, h2, -, h4, -⟩ := run_eff h hr
  have hb : n.bfd = sessFds n := h4 false (by simp) hi
  have h2' : n.sess = held none h := h2
  rw [hh] at h2'
  obtain ⟨p, s, bf, r1, r2, fr⟩ := n
  cases h2'
  cases hb
  cases hf
  exact ⟨_, _, rfl, rfl, rfl, rfl, rfl, rfl⟩

/-- a history that meets the hypotheses: bound, connected and watched, then a bind fails -/
example : (run (create false) [.bind 4000 (some (5, 6)), .connect 4002 none true true true]).map
      (fun r => (r.1.sess, watched r.1, r.1.freed)) = .ok (some (5, 6), [5, 6], false) ∧
    inStep false none false [.bind 4000 (some (5, 6)), .connect 4002 none true true true] = true ∧
    held none [.bind 4000 (some (5, 6)), .connect 4002 none true true true] = some (5, 6) ∧
    (run (create false) [.bind 4000 (some (5, 6)), .connect 4002 none true true true, .bind 4010 none, .setPriority true]).map
      (fun r => (r.1.sess, watched r.1, r.2)) =
      .ok (none, [5, 6], [.bind 4000 4001, .closed 5, .closed 6, .bind 4010 4011, .prio 5, .prio 6]) := by
  decide +kernel

private theorem fdreg_res {n n1 : N} {ok1 ok2 b : Bool} (h : fdreg n ok1 ok2 = .ok (n1, b)) :
    (b = true ↔ n.sess ≠ none ∧ ok1 = true ∧ ok2 = true) ∧
    (b = true → watched n1 = (fds n.sess).map (fun f : Nat => (f : Int))) ∧ (b = false → n1.reg1 = n.reg1 ∧ n1.reg2 = n.reg2) := by
  obtain ⟨p, s, bf, r1, r2, fr⟩ := n
  cases s with
  | none =>
    rw [fdreg, if_pos (.inr (by simp [sessFds]))] at h
    obtain ⟨e1, e2⟩ := Prod.mk.inj (Except.ok.inj h)
    subst e1 e2
    simp
  | some s =>
    obtain ⟨x, y⟩ := s
    have hx : ¬ ((x : Int) < 0) := by omega
    have hy : ¬ ((y : Int) < 0) := by omega
    simp only [fdreg, sessFds, hx, hy, or_false] at h
    cases ok1 with
    | false =>
      rw [if_pos rfl] at h
      obtain ⟨e1, e2⟩ := Prod.mk.inj (Except.ok.inj h)
      subst e1 e2
      simp
    | true =>
      rw [if_neg (by simp)] at h
      cases r1 with
      | true => rw [if_pos rfl] at h; cases h
      | false =>
        rw [if_neg (by simp)] at h
        cases ok2 with
        | false =>
          rw [if_pos rfl] at h
          obtain ⟨e1, e2⟩ := Prod.mk.inj (Except.ok.inj h)
          subst e1 e2
          simp
        | true =>
          rw [if_neg (by simp)] at h
          cases r2 with
          | true => rw [if_pos rfl] at h; cases h
          | false =>
            rw [if_neg (by simp)] at h
            obtain ⟨e1, e2⟩ := Prod.mk.inj (Except.ok.inj h)
            subst e1 e2
            simp [watched, fds]

/-- **C166**: connecting reports success exactly if the session has sockets, the remote address is accepted, and (unless the socket is in polling
mode) both sockets can be registered; then the select loop watches exactly the two sockets of the session.  If it reports a failure,
the select loop watches what it did before. -/
theorem C166_connect (n n' : N) (port : Nat) (auto : Option (Nat × Nat)) (remote ok1 ok2 b : Bool) (hp : port ≠ 0)
    (h : connect n port auto remote ok1 ok2 = .ok (n', b)) :
    (b = true ↔ n'.sess ≠ none ∧ remote = true ∧ (n.poll = true ∨ (ok1 = true ∧ ok2 = true))) ∧
    (b = true → n.poll = false → watched n' = (fds n'.sess).map (fun f : Nat => (f : Int))) ∧
    (b = false → n'.reg1 = n.reg1 ∧ n'.reg2 = n.reg2) := by
  simp only [connect] at h
  rw [if_neg hp] at h
  have hn : ∃ m, (if n.sess = none then { n with sess := auto } else n) = m ∧ m.poll = n.poll ∧ m.reg1 = n.reg1 ∧ m.reg2 = n.reg2 := by
    split <;> exact ⟨_, rfl, rfl, rfl, rfl⟩
  obtain ⟨m, e, m1, m2, m3⟩ := hn
  rw [e] at h
  rw [← m1, ← m2, ← m3]
  by_cases h1 : remote = false ∨ m.sess = none
  · rw [if_pos h1] at h
    obtain ⟨e1, e2⟩ := Prod.mk.inj (Except.ok.inj h)
    subst e1 e2
    refine ⟨⟨(fun h => by cases h), ?_⟩, (fun h => by cases h), (fun _ => ⟨rfl, rfl⟩)⟩
    rintro ⟨g1, g2, -⟩
    rcases h1 with h1 | h1
    · rw [g2] at h1; cases h1
    · exact absurd h1 g1
  · rw [if_neg h1] at h
    have hr : remote = true := by cases remote <;> simp_all
    have hs : m.sess ≠ none := fun h => h1 (.inr h)
    cases hm : m.poll with
    | true =>
      rw [if_pos hm] at h
      obtain ⟨e1, e2⟩ := Prod.mk.inj (Except.ok.inj h)
      subst e1 e2
      exact ⟨⟨fun _ => ⟨hs, hr, .inl rfl⟩, fun _ => rfl⟩, (fun _ h => by cases h), (fun h => by cases h)⟩
    | false =>
      rw [hm, if_neg (by simp)] at h
      obtain ⟨-, f2, -⟩ := fdreg_eff h
      obtain ⟨g1, g2, g3⟩ := fdreg_res h
      rw [f2]
      refine ⟨?_, fun h _ => g2 h, g3⟩
      rw [g1]
      simp [hr]

/-- **C166**: the same for connecting to the first sender -/
theorem C166_autoconnect (n n' : N) (ok1 ok2 b : Bool) (h : autoconnect n ok1 ok2 = .ok (n', b)) :
    (b = true ↔ n.poll = true ∨ (n'.sess ≠ none ∧ ok1 = true ∧ ok2 = true)) ∧ n'.sess = n.sess ∧
    (b = true → n.poll = false → watched n' = (fds n'.sess).map (fun f : Nat => (f : Int))) ∧
    (b = false → n'.reg1 = n.reg1 ∧ n'.reg2 = n.reg2) := by
  simp only [autoconnect] at h
  cases hm : n.poll with
  | true =>
    rw [if_pos hm] at h
    obtain ⟨e1, e2⟩ := Prod.mk.inj (Except.ok.inj h)
    subst e1 e2
    exact ⟨⟨fun _ => .inl rfl, fun _ => rfl⟩, rfl, (fun _ h => by cases h), (fun h => by cases h)⟩
  | false =>
    rw [hm, if_neg (by simp)] at h
    obtain ⟨-, f2, -⟩ := fdreg_eff h
    obtain ⟨g1, g2, g3⟩ := fdreg_res h
    rw [f2]
    refine ⟨?_, rfl, fun h _ => g2 h, g3⟩
    rw [g1]
    simp

/-- a socket that is connected, and one whose second descriptor cannot be registered -/
example : (connect (create false) 4002 (some (5, 6)) true true true).map (fun r => (watched r.1, r.2)) = .ok ([5, 6], true) ∧
    (connect (create false) 4002 (some (5, 6)) true true false).map (fun r => (watched r.1, r.2)) = .ok ([], false) ∧
    (autoconnect (bind (create false) 4000 (some (5, 6))).1 true true).map (fun r => (watched r.1, r.2)) = .ok ([5, 6], true) := by
  decide +kernel

/-- **C166**: the ports: RTCP uses the port after that of RTP, -1 (any port) is passed on for both -/
theorem C166_ports (n : N) (port : Int) (r : Option (Nat × Nat)) (hf : n.freed = false) :
    ∃ n' b, step n (.bind port r) = .ok (n', b) ∧ b.getLast? = some (.bind port (if port = -1 then -1 else port + 1)) := by
  refine ⟨_, _, by rw [step, hf, if_neg (by simp)], ?_⟩
  by_cases hp : port = -1
  · subst hp
    cases r <;> simp [bind]
  · cases r <;> simp [bind, hp]

end Verif.Ortp.Net
