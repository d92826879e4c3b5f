import Verif.Props.IpAccess
/-!
# C115: two connections of the same TRX
-/
set_option maxRecDepth 10000
namespace Verif.IpAccess.Bsc

/-- C115 is false for every pair of connections of the same time slot: after every history in which the time slot knows the connection `y` (and its
keepalive FSM, if any, is that of `y`), the end of the other connection `x` leaves `y` in existence, on the same line and time slot, but the time slot knows
no connection and has no keepalive FSM any more -/
theorem C115_reconnect_every_violated {kap pcap : Bool} {ops : List Op} {w : W} {acts : List Act} (h : run (init kap pcap) ops = .ok (w, acts))
    {x y : Conn} (hx : x ∈ w.conns) (hy : y ∈ w.conns) (hne : x.id ≠ y.id) (hl : x.line = y.line) (ht : x.ts = y.ts)
    (hk : ∀ c, (w.ts y.line y.ts).ka = some c → c = y.id) :
    ∃ w' a, run (init kap pcap) (ops ++ [.closed x.id]) = .ok (w', acts ++ a) ∧ y ∈ w'.conns ∧ (w'.ts y.line y.ts).conn = none ∧
      (w'.ts y.line y.ts).ka = none ∧ w'.links = w.links := by
  obtain ⟨I, -, -⟩ := reach h
  have hd := destroy_eq I hx (by rw [kaOk, hl, ht]; exact fun c hc => ⟨y, hy, (hk c hc).symm⟩)
  have happ : ∀ (ops : List Op) (w0 : W) (b : List Act), run w0 ops = .ok (w, b) → ∀ w' a, step w (.closed x.id) = .ok (w', a) →
      run w0 (ops ++ [.closed x.id]) = .ok (w', b ++ a) := by
    intro ops
    induction ops with
    | nil =>
      intro w0 b hb w' a hs
      cases hb
      simp only [List.nil_append, run, hs, bind, Except.bind, List.append_nil]
    | cons op ops ih =>
      intro w0 b hb w' a hs
      simp only [run, bind, Except.bind, List.cons_append] at hb ⊢
      cases e1 : step w0 op with
      | error e => rw [e1] at hb; cases hb
      | ok p =>
        rw [e1] at hb
        simp only at hb ⊢
        cases e2 : run p.1 ops with
        | error e => rw [e2] at hb; cases hb
        | ok q =>
          rw [e2] at hb
          simp only at hb
          cases hb
          rw [ih p.1 q.2 e2 w' a hs]
          simp [List.append_assoc]
  refine ⟨_, _, happ ops _ _ h _ _ hd, ?_, ?_, ?_, rfl⟩
  · simp only [without, List.mem_filter]
    exact ⟨hy, by simpa using fun e => hne e.symm⟩
  · simp only [without, hl, ht]; simp
  · simp only [without, hl, ht]; simp

/-- such a history: the RSL of a TRX is connected a second time -/
example : check (run (init true false) (twice.take 9)) (fun w _ => decide ((⟨4, 0, 1⟩ : Conn) ∈ w.conns) && decide ((⟨7, 0, 1⟩ : Conn) ∈ w.conns) &&
    decide ((w.ts 0 1).conn = some 7) && decide ((w.ts 0 1).ka = some 7)) = true := by decide +kernel

end Verif.IpAccess.Bsc
