import Verif.Props.Demux
/-!
# C62: exactly when re-initialising a demultiplexer gives a fresh one
-/
namespace Verif.Demux
open Verif.Spec
open Verif.RaaPrime (bind_ok bind_err)
set_option linter.unusedSimpArgs false
set_option maxRecDepth 10000

/-- the two structures agree on everything the C structure holds (four sub-channels) -/
private structure Agree (d e : Dmx) : Prop where
  act : d.chanActiv = e.chanActiv
  sub : ∀ c < 4, d.subch c = e.subch c

/-- both calls fail alike, or deliver the same and agree afterwards -/
private def Same (a b : M (Dmx × List Ev)) : Prop :=
  (∃ f, a = .error f ∧ b = .error f) ∨
  ∃ x y, a = .ok x ∧ b = .ok y ∧ Agree x.1 y.1 ∧ x.2 = y.2

private theorem feed_same {d e : Dmx} (h : Agree d e) (c : Nat) (hc : c < 4) (b : Bool) :
    Same (feed d c b) (feed e c b) := by
  simp only [feed, h.sub c hc]
  cases appendBitResyncOut (e.subch c) b with
  | error f => exact .inl ⟨f, rfl, rfl⟩
  | ok r =>
    refine .inr ⟨_, _, rfl, rfl, ⟨h.act, ?_⟩, rfl⟩
    intro i hi
    simp only [setSub]
    split
    · rfl
    · exact h.sub i hi

private theorem same_bind {a b : M (Dmx × List Ev)} (h : Same a b)
    (f g : Dmx → M (Dmx × List Ev)) (hfg : ∀ d e, Agree d e → Same (f d) (g e)) :
    Same (a >>= fun r => f r.1 >>= fun r' => .ok (r'.1, r.2 ++ r'.2))
      (b >>= fun r => g r.1 >>= fun r' => .ok (r'.1, r.2 ++ r'.2)) := by
  rcases h with ⟨f', rfl, rfl⟩ | ⟨x, y, rfl, rfl, h1, h2⟩
  · exact .inl ⟨f', rfl, rfl⟩
  · simp only [bind_ok]
    rcases hfg _ _ h1 with ⟨f', h3, h4⟩ | ⟨x', y', h3, h4, h5, h6⟩
    · rw [h3, h4]; exact .inl ⟨f', rfl, rfl⟩
    · rw [h3, h4]
      exact .inr ⟨_, _, rfl, rfl, h5, by simp only [h2, h6]⟩

private theorem demuxSub_same {d e : Dmx} (h : Agree d e) (x : Byte) (c : Nat) (hc : c < 4) :
    Same (demuxSub d x c) (demuxSub e x c) := by
  simp only [demuxSub, h.act]
  split
  · exact .inr ⟨_, _, rfl, rfl, h, rfl⟩
  · exact same_bind (feed_same h c hc _) (fun d => feed d c _) (fun d => feed d c _)
      (fun d e h => feed_same h c hc _)

private theorem demuxSubs_same (x : Byte) : ∀ (cs : List Nat), (∀ c ∈ cs, c < 4) → ∀ {d e : Dmx},
    Agree d e → Same (demuxSubs d x cs) (demuxSubs e x cs)
  | [], _, _, _, h => .inr ⟨_, _, rfl, rfl, h, rfl⟩
  | c :: cs, hc, _, _, h =>
    same_bind (demuxSub_same h x c (hc c (by simp))) (fun d => demuxSubs d x cs)
      (fun d => demuxSubs d x cs)
      (fun _ _ h => demuxSubs_same x cs (fun c h => hc c (by simp [h])) h)

private theorem demuxIn_same : ∀ (bs : List Byte) {d e : Dmx}, Agree d e →
    Same (demuxIn d bs) (demuxIn e bs)
  | [], _, _, h => .inr ⟨_, _, rfl, rfl, h, rfl⟩
  | b :: bs, _, _, h =>
    same_bind (demuxSubs_same b _ (by decide) h) (fun d => demuxIn d bs) (fun d => demuxIn d bs)
      (fun _ _ h => demuxIn_same bs h)

private theorem step_same {d e : Dmx} (h : Agree d e) (o : Op) : Same (step d o) (step e o) := by
  cases o with
  | activate n =>
    simp only [step, activate]
    split
    · exact .inr ⟨_, _, rfl, rfl, h, rfl⟩
    · split
      · exact .inl ⟨_, rfl, rfl⟩
      · exact .inr ⟨_, _, rfl, rfl, ⟨by simp only [h.act], h.sub⟩, rfl⟩
  | deactivate n =>
    simp only [step, deactivate]
    split
    · exact .inr ⟨_, _, rfl, rfl, h, rfl⟩
    · split
      · exact .inl ⟨_, rfl, rfl⟩
      · exact .inr ⟨_, _, rfl, rfl, ⟨by simp only [h.act], h.sub⟩, rfl⟩
  | input bs => exact demuxIn_same bs h

private theorem run_same : ∀ (os : List Op) {d e : Dmx}, Agree d e → Same (run d os) (run e os)
  | [], _, _, h => .inr ⟨_, _, rfl, rfl, h, rfl⟩
  | o :: os, _, _, h =>
    same_bind (step_same h o) (fun d => run d os) (fun d => run d os)
      (fun _ _ h => run_same os h)

private theorem same_out {a b : M (Dmx × List Ev)} (h : Same a b) :
    a.map (fun r => r.2) = b.map (fun r => r.2) := by
  rcases h with ⟨f, rfl, rfl⟩ | ⟨x, y, rfl, rfl, _, h2⟩
  · rfl
  · simp only [Except.map, h2]

/-- the sub-channel state left by `subch_demux_init` -/
private def sch (z : Nat) (sy : Bool) : Sch :=
  { outBitbuf := List.replicate 320 0xff, outIdx := 0, consecutiveZeros := z, inSync := sy }

private theorem probe (d : Dmx) (c : Nat) (hc : c < 4) (bs : List Byte) :
    ((run (init d) [.activate c, .input bs]).map fun r => evOf c r.2) =
      .ok (runS (sch (d.subch c).consecutiveZeros (d.subch c).inSync) (chanBits c bs)).2 := by
  have hw : ∀ i < 4, ((init d).subch i).WF := fun i _ =>
    ⟨List.length_replicate, (by decide : (0 : Nat) < 320)⟩
  let d1 : Dmx := { (init d) with chanActiv := (init d).chanActiv ||| ((1 : Byte) <<< c) }
  obtain ⟨r, h1, _, h3, _, _⟩ := demuxIn_eq bs d1 hw
  have e1 : step (init d) (.activate c) = .ok (d1, []) := by
    simp only [step, activate]
    rw [if_neg (by omega), if_neg (by omega)]
    rfl
  have ha : active d1.chanActiv c = true := by
    have : ∀ c : Fin 4, active ((0 : Byte) ||| ((1 : Byte) <<< (c : Nat))) c = true := by decide
    exact this ⟨c, hc⟩
  have h4 := (h3 c hc).ev
  rw [if_pos ha] at h4
  have e2 : step d1 (.input bs) = .ok r := h1
  simp only [run, e1, e2, bind_ok, Except.map, List.nil_append, List.append_nil]
  rw [h4]
  rfl

private theorem out_ev {a b : M (Dmx × List Ev)} (h : a.map (fun r => r.2) = b.map (fun r => r.2))
    (c : Nat) : (a.map fun r => evOf c r.2) = (b.map fun r => evOf c r.2) := by
  cases a <;> cases b <;> simp_all [Except.map]

/-- all-ones input -/
private def ones : List Byte := List.replicate 160 0xff
/-- fifteen zeros, then ones -/
private def z15 : List Byte := List.replicate 7 0 ++ [0xaa] ++ List.replicate 160 0xff

private theorem ones_bits : ∀ c : Fin 4, chanBits c ones = true :: List.replicate 319 true := by
  decide +kernel
private theorem z15_bits : ∀ c : Fin 4,
    chanBits c z15 = List.replicate 15 false ++ List.replicate 321 true := by
  decide +kernel

private theorem ones_fresh : (runS (sch 0 false) (true :: List.replicate 319 true)).2 = [] := by
  decide +kernel
private theorem z15_fresh :
    (runS (sch 0 false) (List.replicate 15 false ++ List.replicate 321 true)).2 = [] := by
  decide +kernel
private theorem z15_mid : ∀ z : Fin 15, (runS (sch (z + 1) false)
    (List.replicate 15 false ++ List.replicate 321 true)).2 ≠ [] := by
  decide +kernel
private theorem ones_sync (z : Nat) : (runS (sch z true) (true :: List.replicate 319 true)).2 ≠ [] := by
  by_cases h : 16 ≤ z
  · have e : stepS (sch z true) true = stepS (sch 16 true) true := by
      simp [stepS, sch, h]
    simp only [runS, e]
    decide +kernel
  · have e : stepS (sch z true) true = stepS (sch 0 true) true := by
      simp [stepS, sch, h]
    simp only [runS, e]
    decide +kernel
private theorem ones_16 (z : Nat) (h : 16 ≤ z) :
    (runS (sch z false) (true :: List.replicate 319 true)).2 ≠ [] := by
  have e : stepS (sch z false) true = stepS (sch 16 false) true := by
    simp [stepS, sch, h]
  simp only [runS, e]
  decide +kernel

/-- **C62 (exact extent)** `subch_demux_init` gives a demultiplexer that behaves like a fresh one under
every later history of calls *exactly* when, at the time of the call, no sub-channel was inside a frame
and none had seen a zero bit since the last one bit.  In every other state some later history (activate
the sub-channel, feed at most 168 octets) tells the two apart. -/
theorem C62_reinit_iff (d : Dmx) :
    (∀ os : List Op, (∀ o ∈ os, o.ok) →
      (run (init d) os).map (fun r => r.2) = (run fresh os).map (fun r => r.2)) ↔
    ∀ c < 4, (d.subch c).inSync = false ∧ (d.subch c).consecutiveZeros = 0 := by
  constructor
  · intro h c hc
    have hp : ∀ bs, (runS (sch (d.subch c).consecutiveZeros (d.subch c).inSync) (chanBits c bs)).2
        = (runS (sch 0 false) (chanBits c bs)).2 := by
      intro bs
      have := out_ev (h [.activate c, .input bs] (by simp [Op.ok])) c
      rw [probe d c hc, fresh, probe zeroed c hc] at this
      exact Except.ok.inj this
    have p1 := hp ones
    have p2 := hp z15
    rw [ones_bits ⟨c, hc⟩, ones_fresh] at p1
    rw [z15_bits ⟨c, hc⟩, z15_fresh] at p2
    have hs : (d.subch c).inSync = false := by
      cases e : (d.subch c).inSync with
      | false => rfl
      | true => rw [e] at p1; exact absurd p1 (ones_sync _)
    rw [hs] at p1 p2
    refine ⟨hs, ?_⟩
    by_cases hz : 16 ≤ (d.subch c).consecutiveZeros
    · exact absurd p1 (ones_16 _ hz)
    · cases e : (d.subch c).consecutiveZeros with
      | zero => rfl
      | succ n =>
        rw [e] at p2 hz
        exact absurd p2 (z15_mid ⟨n, by omega⟩)
  · intro h os _
    refine same_out (run_same os ⟨rfl, ?_⟩)
    intro c hc
    simp only [init, fresh, zeroed, h c hc]

/-- both sides of the equivalence occur: a demultiplexer that has only seen ones may be re-used, one
that has seen a single zero may not -/
example : (∀ c < 4, (fresh.subch c).inSync = false ∧ (fresh.subch c).consecutiveZeros = 0) ∧
    ¬ ∀ os : List Op, (∀ o ∈ os, o.ok) →
      (run (init { fresh with subch := fun _ => { fresh.subch 0 with consecutiveZeros := 1 } }) os).map
        (fun r => r.2) = (run fresh os).map (fun r => r.2) := by
  refine ⟨fun c _ => ⟨rfl, rfl⟩, fun h => ?_⟩
  have := ((C62_reinit_iff _).1 h 0 (by decide)).2
  cases this

end Verif.Demux
