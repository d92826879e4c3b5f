import Verif.Proof.MuxAny
import Verif.Props.Mux
/-!
# C12 for frames of any length
-/
namespace Verif.Mux
open Verif.Spec Verif.Spec.MuxAny
open Verif.RaaPrime (bind_ok bind_err)
set_option linter.unusedSimpArgs false
set_option maxRecDepth 4000

/-- the part of a history that concerns sub-channel `c` -/
def ofChan (c : Nat) : List Op → List COp
  | [] => []
  | .enqueue c' f :: os => if c' = c then .frame f :: ofChan c os else ofChan c os
  | .output n :: os => .out n :: ofChan c os

theorem outLoop_any (idle : List Bool) (hi : idle.length = 320) : ∀ (n : Nat) (m : Mux), Sane m →
    ((pulls idle (rest (m.queue 3)) n).2.2 = false → ∃ bs m', muxOutLoop idle m n = .ok (bs, m') ∧ Sane m' ∧
      ∀ c < 4, chanBits c bs = (pulls idle (rest (m.queue c)) n).1 ∧ rest (m'.queue c) = (pulls idle (rest (m.queue c)) n).2.1) ∧
    ((pulls idle (rest (m.queue 3)) n).2.2 = true → muxOutLoop idle m n = .error .oob) := by
  intro n
  induction n with
  | zero =>
    intro m hm
    exact ⟨fun _ => ⟨[], m, rfl, hm, fun c hc => ⟨rfl, rfl⟩⟩, fun h => absurd h (by simp [pulls])⟩
  | succ n ih =>
    intro m hm
    obtain ⟨hok, herr⟩ := outputByte_any idle hi m hm
    cases hl : (pull idle (rest (m.queue 3))).lost with
    | some x =>
      constructor
      · intro h
        simp only [pulls, hl, Option.isSome_some, Bool.true_or] at h
        cases h
      · intro _
        rw [muxOutLoop, herr (by rw [hl]; simp)]; rfl
    | none =>
      obtain ⟨b, m1, h1, h2, h3⟩ := hok hl
      obtain ⟨iok, ierr⟩ := ih m1 h2
      have e3 := (h3 3 (by omega)).2
      rw [e3] at iok ierr
      constructor
      · intro h
        simp only [pulls, hl, Option.isSome_none, Bool.false_or] at h
        obtain ⟨bs, m2, g1, g2, g3⟩ := iok h
        refine ⟨b :: bs, m2, by rw [muxOutLoop, h1]; simp only [bind_ok, g1], g2, ?_⟩
        intro c hc
        obtain ⟨a1, a2⟩ := h3 c hc
        obtain ⟨b1, b2⟩ := g3 c hc
        have hcb : chanBits c (b :: bs) = chanBits c [b] ++ chanBits c bs := by simp [chanBits]
        rw [hcb, a1, b1, b2, a2]
        exact ⟨rfl, rfl⟩
      · intro h
        simp only [pulls, hl, Option.isSome_none, Bool.false_or] at h
        rw [muxOutLoop, h1]
        simp only [bind_ok, ierr h]; rfl

theorem rest_enqueue (q : List Entry) (f : List Bool) : rest (enqueueQ q f) = (rest q).drop ((rest q).length - 2) ++ [f] := by
  rw [enqueueQ_eq]
  simp [rest, List.map_drop]

theorem sane_enqueue {m : Mux} (h : Sane m) (c : Nat) (f : List Bool) : Sane (setQ m c (enqueueQ (m.queue c) f)) := by
  intro c' hc' e he
  simp only [setQ] at he
  split at he
  · rename_i hcc
    subst hcc
    rw [enqueueQ_eq] at he
    rcases List.mem_append.1 he with he | he
    · exact h _ hc' e (List.mem_of_mem_drop he)
    · rw [List.mem_singleton.1 he]; exact Nat.zero_le _
  · exact h c' hc' e he

theorem run_any (idle : List Bool) (hi : IsIdle idle) (h320 : idle.length = 320) : ∀ (os : List Op) (m : Mux), Sane m →
    (∀ o ∈ os, ∀ c f, o = .enqueue c f → c < 4) →
    ((history idle (rest (m.queue 3)) (ofChan 3 os)).2.2 = false → ∃ m' bs, run m os = .ok (m', bs) ∧
      ∀ c < 4, chanBits c bs = (history idle (rest (m.queue c)) (ofChan c os)).1 ∧
        rest (m'.queue c) = (history idle (rest (m.queue c)) (ofChan c os)).2.1) ∧
    ((history idle (rest (m.queue 3)) (ofChan 3 os)).2.2 = true → run m os = .error .oob) := by
  intro os
  induction os with
  | nil =>
    intro m hm _
    exact ⟨fun _ => ⟨m, [], rfl, fun c hc => ⟨rfl, rfl⟩⟩, fun h => absurd h (by simp [history, ofChan])⟩
  | cons o os ih =>
    intro m hm ho
    have ho' : ∀ o ∈ os, ∀ c f, o = .enqueue c f → c < 4 := fun o h => ho o (List.mem_cons_of_mem _ h)
    cases o with
    | enqueue c f =>
      have hc := ho _ List.mem_cons_self c f rfl
      have hs : step m (.enqueue c f) = .ok (setQ m c (enqueueQ (m.queue c) f), []) := by
        simp only [step, enqueue, if_pos hc, bind_ok]
      have hh : ∀ c', history idle (rest (m.queue c')) (ofChan c' (.enqueue c f :: os)) =
          history idle (rest ((setQ m c (enqueueQ (m.queue c) f)).queue c')) (ofChan c' os) := by
        intro c'
        simp only [ofChan, setQ]
        by_cases e : c = c'
        · subst e
          rw [if_pos rfl, if_pos rfl, history, rest_enqueue]
        · rw [if_neg e, if_neg (fun h => e h.symm)]
      obtain ⟨iok, ierr⟩ := ih _ (sane_enqueue hm c f) ho'
      constructor
      · intro h
        rw [hh] at h
        obtain ⟨m', bs, h1, h2⟩ := iok h
        refine ⟨m', [] ++ bs, by rw [run, hs]; simp only [bind_ok, h1], ?_⟩
        intro c' hc'
        rw [hh]
        exact h2 c' hc'
      · intro h
        rw [hh] at h
        rw [run, hs]
        simp only [bind_ok, ierr h]; rfl
    | output n =>
      obtain ⟨hok, herr⟩ := outLoop_any idle h320 n m hm
      have hm' : muxOut m n = muxOutLoop idle m n := by
        unfold muxOut
        rw [show OldTrau.trauIdleFrame = .ok idle from hi]; rfl
      cases hl : (pulls idle (rest (m.queue 3)) n).2.2 with
      | true =>
        constructor
        · intro h
          simp only [ofChan, history, hl, Bool.true_or] at h
          cases h
        · intro _
          rw [run, step, hm', herr hl]; rfl
      | false =>
        obtain ⟨bs, m1, h1, h2, h3⟩ := hok hl
        have hs : step m (.output n) = .ok (m1, bs) := by simp only [step, hm', h1, bind_ok]
        obtain ⟨iok, ierr⟩ := ih m1 h2 ho'
        have e3 := (h3 3 (by omega)).2
        rw [e3] at iok ierr
        constructor
        · intro h
          simp only [ofChan, history, hl, Bool.false_or] at h
          obtain ⟨m2, bs', g1, g2⟩ := iok h
          refine ⟨m2, bs ++ bs', by rw [run, hs]; simp only [bind_ok, g1], ?_⟩
          intro c hc
          obtain ⟨a1, a2⟩ := h3 c hc
          obtain ⟨b1, b2⟩ := g2 c hc
          have hcb : chanBits c (bs ++ bs') = chanBits c bs ++ chanBits c bs' := by simp [chanBits]
          rw [hcb, a1, b1, b2, a2]
          exact ⟨rfl, rfl⟩
        · intro h
          simp only [ofChan, history, hl, Bool.false_or] at h
          rw [run, hs]
          simp only [bind_ok, ierr h]; rfl

/-- **C161** (and the exact extent of C12) The multiplexer with frames of any length, for every history of calls: what is sent and what is left of every
sub-channel depends on this sub-channel only, and is what the specification says; the scratch buffer is overrun exactly if a bit of
sub-channel 3 gets lost. -/
theorem C161_exact (os : List Op) (ho : ∀ o ∈ os, ∀ c f, o = .enqueue c f → c < 4) (idle : List Bool) (hi : IsIdle idle) :
    ((history idle [] (ofChan 3 os)).2.2 = false → ∃ m bs, run init os = .ok (m, bs) ∧
      ∀ c < 4, chanBits c bs = (history idle [] (ofChan c os)).1 ∧
        (m.queue c).map (fun e => e.bits.drop e.nextBit) = (history idle [] (ofChan c os)).2.1) ∧
    ((history idle [] (ofChan 3 os)).2.2 = true → run init os = .error .oob) := by
  obtain ⟨idle', i1, i2, -⟩ := idle_ok
  have : idle' = idle := Except.ok.inj (i1.symm.trans hi)
  subst this
  exact run_any idle' hi i2 os init (fun c _ e he => by cases he) ho

theorem front_even {idle : List Bool} (hi : idle.length % 2 = 0) : ∀ {q : List (List Bool)}, (∀ f ∈ q, f.length % 2 = 0) →
    (front idle q).1.length % 2 = 0 ∧ ∀ f ∈ (front idle q).2, f.length % 2 = 0
  | [], _ => ⟨hi, by intro f hf; cases hf⟩
  | [] :: r, h => front_even hi (q := r) fun f hf => h f (List.mem_cons_of_mem _ hf)
  | (b :: f) :: r, h => ⟨h _ List.mem_cons_self, fun g hg => h g (List.mem_cons_of_mem _ hg)⟩

theorem pull_even {idle : List Bool} (hi : idle.length % 2 = 0) {q : List (List Bool)} (h : ∀ f ∈ q, f.length % 2 = 0) :
    (pull idle q).lost = none ∧ ∀ f ∈ (pull idle q).left, f.length % 2 = 0 := by
  obtain ⟨h1, h2⟩ := front_even hi h
  unfold pull
  match hf : front idle q with
  | ([], r) => rw [hf] at h2; exact ⟨rfl, h2⟩
  | ([a], r) => rw [hf] at h1; simp at h1
  | (a :: b :: f, r) =>
    rw [hf] at h1 h2
    simp only [List.length_cons] at h1
    refine ⟨rfl, ?_⟩
    simp only [keep]
    split
    · exact h2
    · intro g hg
      rcases List.mem_cons.1 hg with rfl | hg
      · omega
      · exact h2 g hg

/-- **C161** No bit is lost as long as all frames have even lengths. -/
theorem C161_even (idle : List Bool) (hi : IsIdle idle) : ∀ (os : List COp) (q : List (List Bool)), (∀ f ∈ q, f.length % 2 = 0) →
    (∀ o ∈ os, ∀ f, o = .frame f → f.length % 2 = 0) → (history idle q os).2.2 = false := by
  obtain ⟨idle', i1, i2, -⟩ := idle_ok
  have : idle' = idle := Except.ok.inj (i1.symm.trans hi)
  subst this
  have hp : ∀ (n : Nat) (q : List (List Bool)), (∀ f ∈ q, f.length % 2 = 0) →
      (pulls idle' q n).2.2 = false ∧ ∀ f ∈ (pulls idle' q n).2.1, f.length % 2 = 0 := by
    intro n
    induction n with
    | zero => intro q h; exact ⟨rfl, h⟩
    | succ n ih =>
      intro q h
      obtain ⟨h1, h2⟩ := pull_even (by omega : idle'.length % 2 = 0) h
      obtain ⟨h3, h4⟩ := ih _ h2
      exact ⟨by simp only [pulls, h1, h3]; rfl, h4⟩
  intro os
  induction os with
  | nil => intro q _ _; rfl
  | cons o os ih =>
    intro q hq ho
    have ho' : ∀ o ∈ os, ∀ f, o = COp.frame f → f.length % 2 = 0 := fun o h => ho o (List.mem_cons_of_mem _ h)
    cases o with
    | frame f =>
      refine ih _ ?_ ho'
      intro g hg
      rcases List.mem_append.1 hg with hg | hg
      · exact hq g (List.mem_of_mem_drop hg)
      · rw [List.mem_singleton.1 hg]; exact ho _ List.mem_cons_self f rfl
    | out n =>
      obtain ⟨h1, h2⟩ := hp n q hq
      simp only [history, h1, Bool.false_or]
      exact ih _ h2 ho'

/-- both cases occur: on sub-channel 2 a bit is lost, on sub-channel 3 the buffer is overrun; a frame of odd length followed by another one of
one bit is harmless -/
example (idle : List Bool) :
    history idle [] (ofChan 3 [.enqueue 3 [true], .enqueue 3 [false], .enqueue 2 [true], .enqueue 2 [false, true, false], .output 1]) =
      ([true, false], [], false) ∧
    history idle [] (ofChan 2 [.enqueue 3 [true], .enqueue 3 [false], .enqueue 2 [true], .enqueue 2 [false, true, false], .output 1]) =
      ([true, false], [[false]], true) ∧
    (history idle [] (ofChan 3 [.enqueue 3 [true], .enqueue 3 [false, true], .output 1])).2.2 = true := ⟨rfl, rfl, rfl⟩

end Verif.Mux
