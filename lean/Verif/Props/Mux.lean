import Verif.Proof.Mux
import Verif.Props.Demux
/-!
# C11 – C14: the sub-channel multiplexer
-/
namespace Verif.Mux
open Verif.Spec
open Verif.RaaPrime (bind_ok bind_err)
set_option linter.unusedSimpArgs false
set_option maxRecDepth 4000

/-- An API call on a multiplexer. -/
inductive Op where
  | enqueue (subch : Nat) (frame : List Bool)
  | output (len : Nat)

/-- Effect of a call: new state and octets returned. -/
def step (m : Mux) : Op → M (Mux × List Byte)
  | .enqueue c f => do let m ← enqueue m c f; .ok (m, [])
  | .output n => do let (bs, m) ← muxOut m n; .ok (m, bs)

/-- A history of calls; the octets returned by all of them are concatenated. -/
def run (m : Mux) : List Op → M (Mux × List Byte)
  | [] => .ok (m, [])
  | o :: os => do
    let (m, bs) ← step m o
    let (m, bs') ← run m os
    .ok (m, bs ++ bs')

/-- Frames enqueued on sub-channel `c` by a history, oldest first. -/
def enqueued (c : Nat) : List Op → List (List Bool)
  | [] => []
  | .enqueue c' f :: os => if c' = c then f :: enqueued c os else enqueued c os
  | .output _ :: os => enqueued c os

/-- Bits of the queue that have not been sent yet. -/
def pending (q : List Entry) : List Bool := q.flatMap fun e => e.bits.drop e.nextBit

/-! ### C11 -/

/-- **C11** Enqueueing keeps exactly the newest three frames (of the queued ones and the new one), in
order. -/
theorem C11_enqueue_keeps_newest (m : Mux) (c : Nat) (hc : c < 4) (f : List Bool)
    (h3 : (m.queue c).length ≤ 3) :
    ∃ m', enqueue m c f = .ok m' ∧
      m'.queue c = ((m.queue c) ++ [(⟨f, 0⟩ : Entry)]).drop ((m.queue c).length + 1 - 3) ∧
      ∀ c', c' ≠ c → m'.queue c' = m.queue c' := by
  refine ⟨setQ m c (enqueueQ (m.queue c) f), by rw [enqueue, if_pos hc], ?_, ?_⟩
  · simp only [setQ, if_true, enqueueQ_eq]
    rw [List.drop_append_of_le_length (by omega)]
    congr 2
  · intro c' h; simp [setQ, h]

private theorem ite_len {α : Type} (c : Prop) [Decidable c] (x : α) (l : List α) :
    (if c then l else x :: l).length ≤ l.length + 1 := by
  split <;> simp

private theorem getSub_len (idle : List Bool) (off : Nat) : ∀ (fuel : Nat) (sc : List (Option Bool))
    (q : List Entry) (nb : Nat) (r : List (Option Bool) × List Entry), q.length ≤ 3 →
    getSubchBits idle off 2 fuel sc q nb = .ok r → r.2.length ≤ 3 := by
  intro fuel
  induction fuel with
  | zero => intro sc q nb r _ h; simp [getSubchBits] at h
  | succ fuel ih =>
    intro sc q nb r hq h
    rw [getSubchBits] at h
    split at h
    · split at h
      · cases h
      · rename_i e rest heq
        have hrest : rest.length ≤ 2 := by
          have h1 := congrArg List.length heq
          simp only [List.length_cons] at h1
          by_cases hem : q.isEmpty
          · rw [if_pos hem, enqueueQ_eq] at h1
            simp only [List.isEmpty_iff] at hem
            subst hem
            simp only [List.length_append, List.length_drop, List.length_nil, List.length_cons] at h1
            omega
          · rw [if_neg hem] at h1; omega
        simp only at h
        generalize hsl : slice e.bits e.nextBit _ = sl at h
        cases sl with
        | error _ => simp at h
        | ok src =>
          simp only [bind_ok] at h
          generalize hbl : blit sc _ _ = bl at h
          cases bl with
          | error _ => simp at h
          | ok sc' =>
            simp only [bind_ok] at h
            refine ih _ _ _ _ ?_ h
            refine Nat.le_trans (ite_len _ _ _) (by omega)
    · cases h; exact hq

private theorem getBits2_len (idle : List Bool) (m : Mux) (sc : List (Option Bool)) (c : Nat)
    (r : List (Option Bool) × Mux) (h : ∀ c, (m.queue c).length ≤ 3)
    (hr : getBits2 idle m sc c = .ok r) : ∀ c, (r.2.queue c).length ≤ 3 := by
  rw [getBits2] at hr
  generalize hg : getSubchBits idle _ _ _ _ _ _ = g at hr
  cases g with
  | error _ => simp at hr
  | ok g =>
    simp only [bind_ok] at hr
    cases hr
    intro c'
    simp only [setQ]
    split
    · exact getSub_len _ _ _ _ _ _ _ (h _) hg
    · exact h c'

private theorem bind_inv {α β : Type} {x : M α} {k : α → M β} {r : β}
    (h : (x >>= k) = .ok r) : ∃ y, x = .ok y ∧ k y = .ok r := by
  cases x with
  | error e => simp at h
  | ok y => exact ⟨y, rfl, h⟩

private theorem loop_len (idle : List Bool) : ∀ (n : Nat) (m : Mux) (r : List Byte × Mux),
    (∀ c, (m.queue c).length ≤ 3) → muxOutLoop idle m n = .ok r → ∀ c, (r.2.queue c).length ≤ 3 := by
  intro n
  induction n with
  | zero => intro m r h hr; simp only [muxOutLoop] at hr; cases hr; exact h
  | succ n ih =>
    intro m r h hr
    rw [muxOutLoop] at hr
    obtain ⟨y, hy, hr⟩ := bind_inv hr
    obtain ⟨z, hz, hr⟩ := bind_inv hr
    cases hr
    refine ih y.2 z ?_ hz
    rw [muxOutputByte] at hy
    obtain ⟨a, ha, hy⟩ := bind_inv hy
    obtain ⟨b, hb, hy⟩ := bind_inv hy
    obtain ⟨c, hc, hy⟩ := bind_inv hy
    obtain ⟨d, hd, hy⟩ := bind_inv hy
    obtain ⟨e, he, hy⟩ := bind_inv hy
    cases hy
    exact getBits2_len _ _ _ _ _ (getBits2_len _ _ _ _ _ (getBits2_len _ _ _ _ _
      (getBits2_len _ _ _ _ _ h ha) hb) hc) hd

/-- **C11** After any history of calls (frames of any length) no queue is longer than three. -/
theorem C11_queue_bounded (os : List Op) : ∀ (m m' : Mux) (bs : List Byte),
    (∀ c, (m.queue c).length ≤ 3) → run m os = .ok (m', bs) → ∀ c, (m'.queue c).length ≤ 3 := by
  induction os with
  | nil => intro m m' bs h hr; simp only [run] at hr; cases hr; exact h
  | cons o os ih =>
    intro m m' bs h hr
    rw [run] at hr
    obtain ⟨y, hy, hr⟩ := bind_inv hr
    obtain ⟨z, hz, hr⟩ := bind_inv hr
    have hr' := Except.ok.inj hr
    simp only [Prod.mk.injEq] at hr'
    rw [← hr'.1]
    refine ih y.1 z.1 z.2 ?_ (by rw [hz])
    cases o with
    | enqueue c f =>
      simp only [step] at hy
      obtain ⟨w, hw, hy⟩ := bind_inv hy
      cases hy
      rw [enqueue] at hw
      split at hw
      · cases hw
        intro c'
        simp only [setQ]
        split
        · rw [enqueueQ_eq]; simp; omega
        · exact h c'
      · cases hw
    | output n =>
      simp only [step, muxOut] at hy
      obtain ⟨w, hw, hy⟩ := bind_inv hy
      cases hy
      obtain ⟨idle, _, hw⟩ := bind_inv hw
      exact loop_len idle n m w h hw

/-- the initial state meets the hypothesis, and five frames can be enqueued -/
example : (∀ c, (init.queue c).length ≤ 3) ∧
    (run init (List.replicate 5 (.enqueue 1 [true, false]))).map (fun r => (r.1.queue 1).length)
      = .ok 3 := by
  refine ⟨by simp [init], by decide⟩

/-! ### C12 -/

/-- frames of even length only -/
def Op.even : Op → Prop
  | .enqueue c f => c < 4 ∧ f.length % 2 = 0
  | .output _ => True

/-- What every queue of a multiplexer that only was given frames of even length looks like. -/
def AllEven (m : Mux) : Prop := ∀ c < 4, ∀ e ∈ m.queue c,
  e.bits.length % 2 = 0 ∧ e.nextBit % 2 = 0 ∧ e.nextBit ≤ e.bits.length

private theorem AllEven.e {m : Mux} (h : AllEven m) : ∀ c < 4, ∀ e ∈ m.queue c, e.Even :=
  fun c hc e he => ⟨(h c hc e he).1, (h c hc e he).2.1, (h c hc e he).2.2⟩

private theorem step_even (m : Mux) (o : Op) (ho : o.even) (h : AllEven m) :
    ∃ r, step m o = .ok r ∧ AllEven r.1 ∧ ∀ n, o = .output n → r.2.length = n := by
  cases o with
  | enqueue c f =>
    obtain ⟨hc, hf⟩ := ho
    refine ⟨(setQ m c (enqueueQ (m.queue c) f), []), ?_, ?_, by simp⟩
    · simp only [step, enqueue, if_pos hc, bind_ok]
    · intro c' hc' e he
      simp only [setQ] at he
      split at he
      · rw [enqueueQ_eq] at he
        rcases List.mem_append.1 he with he | he
        · exact h c hc e (List.mem_of_mem_drop he)
        · rw [List.mem_singleton.1 he]
          exact ⟨hf, rfl, by simp⟩
      · exact h c' hc' e he
  | output n =>
    obtain ⟨idle, i1, i2, i3⟩ := idle_ok
    obtain ⟨bs, m', h1, h2, h3⟩ := muxOut_spec n m h.e idle i1 i2
    refine ⟨(m', bs), by simp only [step, h1, bind_ok], ?_, ?_⟩
    · intro c hc e he
      obtain ⟨k, hk⟩ := h3 c hc
      have := hk.even e he
      exact ⟨this.len, this.nxt, this.le⟩
    · intro n' hn; cases hn; exact h2

/-- **C12 (partial: frames of even length)** No history of calls with frames of even length on sub-channels
0..3 copies more than two bits into the scratch buffer (any excess would be a fault here or show up as an
overwritten neighbour), runs into another invalid access or fails to terminate. -/
theorem C12_no_overrun_partial (os : List Op) (ho : ∀ o ∈ os, o.even) :
    ∃ m bs, run init os = .ok (m, bs) := by
  have : ∀ (os : List Op) (m : Mux), (∀ o ∈ os, o.even) → AllEven m →
      ∃ m' bs, run m os = .ok (m', bs) := by
    intro os
    induction os with
    | nil => intro m _ _; exact ⟨m, [], rfl⟩
    | cons o os ih =>
      intro m ho h
      obtain ⟨r, h1, h2, _⟩ := step_even m o (ho o (by simp)) h
      obtain ⟨m', bs, h3⟩ := ih r.1 (fun o' h' => ho o' (by simp [h'])) h2
      exact ⟨m', r.2 ++ bs, by rw [run, h1]; simp only [bind_ok, h3]⟩
  exact this os init ho (by intro c _ e he; simp [init] at he)

/-- **C12 (violated)** A single frame of odd length on sub-channel 3 makes `subchan_mux_out` write behind
the end of its 8 element array. -/
theorem C12_overrun_violated :
    ∃ os : List Op, (∀ o ∈ os, ∀ c f, o = .enqueue c f → c < 4) ∧ run init os = .error .oob := by
  refine ⟨[.enqueue 3 [true], .output 1], ?_, ?_⟩
  rotate_left
  · have h : (run init [.enqueue 3 [true], .output 1]).map (fun r => r.2) = .error .oob := by decide +kernel
    generalize run init [.enqueue 3 [true], .output 1] = x at h ⊢
    cases x with
    | error e => simp only [Except.map] at h; cases h; rfl
    | ok r => cases h
  intro o ho c f h
  subst h
  simp at ho
  omega

/-- **C12 (violated)** On the other sub-channels the excess bit is lost: it is neither sent nor pending. -/
theorem C12_bit_lost_violated :
    ∃ m bs, run init [.enqueue 0 [true], .enqueue 0 [false, true, false], .output 1] = .ok (m, bs) ∧
      chanBits 0 bs ++ pending (m.queue 0) = [true, false, false] := by
  have h : (run init [.enqueue 0 [true], .enqueue 0 [false, true, false], .output 1]).map
      (fun r => chanBits 0 r.2 ++ pending (r.1.queue 0)) = .ok [true, false, false] := by decide +kernel
  generalize run init [.enqueue 0 [true], .enqueue 0 [false, true, false], .output 1] = x at h
  cases x with
  | error e => cases h
  | ok r => exact ⟨r.1, r.2, rfl, Except.ok.inj h⟩

/-! ### C13 -/

/-- the bits of the idle frame -/
def IsIdle (idle : List Bool) : Prop := OldTrau.trauIdleFrame = .ok idle

/-- **C13** A request for `n` octets is always satisfied completely; the bits leaving on sub-channel `c`,
followed by what is still pending, are what was pending before, followed by `k` complete idle frames; and
an idle frame was only inserted when everything before it had been sent (`k` is minimal). -/
theorem C13_output (m : Mux) (h : AllEven m) (n : Nat) (idle : List Bool) (hi : IsIdle idle) :
    ∃ bs m', muxOut m n = .ok (bs, m') ∧ bs.length = n ∧ AllEven m' ∧
      ∀ c < 4, ∃ k, chanBits c bs ++ pending (m'.queue c)
          = pending (m.queue c) ++ (List.replicate k idle).flatten ∧
        (0 < k → (pending (m.queue c)).length + 320 * (k - 1) < 2 * n) := by
  obtain ⟨idle', i1, i2, i3⟩ := idle_ok
  rw [hi] at i1
  cases i1
  obtain ⟨bs, m', h1, h2, h3⟩ := muxOut_spec n m h.e idle hi i2
  refine ⟨bs, m', h1, h2, ?_, ?_⟩
  · intro c hc e he
    obtain ⟨k, hk⟩ := h3 c hc
    have := hk.even e he
    exact ⟨this.len, this.nxt, this.le⟩
  · intro c hc
    obtain ⟨k, hk⟩ := h3 c hc
    refine ⟨k, hk.eq, ?_⟩
    intro h0
    have := hk.bound h0
    have hl : (chanBits c bs).length = 2 * n := by
      simp only [chanBits, List.length_flatMap, List.length_cons, List.length_nil]
      rw [List.map_const', List.sum_replicate_nat, h2]; omega
    rw [hl] at this
    exact this

/-- Specification: `seq` consists of the frames `fs`, in order, with idle frames inserted. -/
inductive Padded (idle : List Bool) : List (List Bool) → List (List Bool) → Prop
  | nil : Padded idle [] []
  | frame {fs seq} (f : List Bool) : Padded idle fs seq → Padded idle (fs ++ [f]) (seq ++ [f])
  | idle {fs seq} : Padded idle fs seq → Padded idle fs (seq ++ [idle])

/-- Specification: the history never enqueues on a sub-channel that already has three frames queued (in
which case the oldest one would be dropped). -/
def NoEvict : Mux → List Op → Prop
  | _, [] => True
  | m, o :: os =>
    (match o with
      | .enqueue c _ => (m.queue c).length ≤ 2
      | .output _ => True) ∧
    ∀ r, step m o = .ok r → NoEvict r.1 os

private theorem padded_idles {idle : List Bool} {fs seq : List (List Bool)} (h : Padded idle fs seq) :
    ∀ k, Padded idle fs (seq ++ List.replicate k idle)
  | 0 => by simpa using h
  | k + 1 => by
    rw [List.replicate_succ', ← List.append_assoc]
    exact .idle (padded_idles h k)

private theorem history (idle : List Bool) (hi : IsIdle idle) : ∀ (os : List Op) (m : Mux)
    (out0 : List Byte) (fs0 : Nat → List (List Bool)),
    (∀ o ∈ os, o.even) → AllEven m → NoEvict m os →
    (∀ c < 4, ∃ seq, Padded idle (fs0 c) seq ∧ chanBits c out0 ++ pending (m.queue c) = seq.flatten) →
    ∃ m' bs, run m os = .ok (m', bs) ∧
      ∀ c < 4, ∃ seq, Padded idle (fs0 c ++ enqueued c os) seq ∧
        chanBits c (out0 ++ bs) ++ pending (m'.queue c) = seq.flatten := by
  intro os
  induction os with
  | nil =>
    intro m out0 fs0 _ _ _ h
    exact ⟨m, [], rfl, by simpa [enqueued] using h⟩
  | cons o os ih =>
    intro m out0 fs0 ho hm hn h
    obtain ⟨r, h1, h2, _⟩ := step_even m o (ho o (by simp)) hm
    have hn' := hn.2 r h1
    cases o with
    | enqueue c f =>
      obtain ⟨hc, hf⟩ := ho _ (List.mem_cons_self ..)
      have hlen : (m.queue c).length ≤ 2 := hn.1
      simp only [step, enqueue, if_pos hc, bind_ok] at h1
      cases h1
      obtain ⟨m', bs, g1, g2⟩ := ih (setQ m c (enqueueQ (m.queue c) f)) out0
        (fun i => if i = c then fs0 c ++ [f] else fs0 i)
        (fun o' h' => ho o' (by simp [h'])) h2 hn' (by
          intro c' hc'
          obtain ⟨seq, s1, s2⟩ := h c' hc'
          by_cases he : c' = c
          · subst he
            refine ⟨seq ++ [f], by simpa using .frame f s1, ?_⟩
            simp only [setQ, if_true, enqueueQ_eq]
            rw [show (m.queue c').length - 2 = 0 by omega]
            simp only [pending] at s2
            simp [pending, ← s2]
          · exact ⟨seq, by simpa [he] using s1, by simpa [setQ, he] using s2⟩)
      refine ⟨m', bs, ?_, ?_⟩
      · rw [run]; simp only [step, enqueue, if_pos hc, bind_ok, g1, List.nil_append]
      · intro c' hc'
        obtain ⟨seq, s1, s2⟩ := g2 c' hc'
        refine ⟨seq, ?_, s2⟩
        by_cases he : c' = c
        · subst he; simpa [enqueued] using s1
        · simpa [enqueued, he, Ne.symm he] using s1
    | output n =>
      obtain ⟨bs1, m1, a1, a2, a3, a4⟩ := C13_output m hm n idle hi
      simp only [step, a1, bind_ok] at h1
      cases h1
      obtain ⟨m', bs, g1, g2⟩ := ih m1 (out0 ++ bs1) fs0 (fun o' h' => ho o' (by simp [h'])) h2 hn' (by
        intro c hc
        obtain ⟨seq, s1, s2⟩ := h c hc
        obtain ⟨k, k1, _⟩ := a4 c hc
        refine ⟨seq ++ List.replicate k idle, padded_idles s1 k, ?_⟩
        have hcb : chanBits c (out0 ++ bs1) = chanBits c out0 ++ chanBits c bs1 := by simp [chanBits]
        rw [hcb, List.append_assoc, k1, ← List.append_assoc, s2, List.flatten_append])
      refine ⟨m', bs1 ++ bs, ?_, ?_⟩
      · rw [run]; simp only [step, a1, bind_ok, g1]
      · intro c hc
        obtain ⟨seq, s1, s2⟩ := g2 c hc
        exact ⟨seq, by simpa [enqueued] using s1, by rw [← List.append_assoc]; exact s2⟩

/-- **C13** For any history without eviction, what has left on sub-channel `c` followed by what is still
pending is the sequence of all frames enqueued on `c` in order, with complete idle frames inserted between
them: nothing is lost, duplicated, reordered or cut. -/
theorem C13_history (os : List Op) (ho : ∀ o ∈ os, o.even) (hn : NoEvict init os) (idle : List Bool)
    (hi : IsIdle idle) :
    ∃ m bs, run init os = .ok (m, bs) ∧
      ∀ c < 4, ∃ seq, Padded idle (enqueued c os) seq ∧
        chanBits c bs ++ pending (m.queue c) = seq.flatten := by
  have := history idle hi os init [] (fun _ => []) ho (by intro c _ e he; simp [init] at he) hn (by
    intro c _
    exact ⟨[], .nil, by simp [chanBits, pending, init]⟩)
  simpa using this

/-- a history meeting the hypotheses -/
example : ∃ idle, IsIdle idle ∧
    NoEvict init [.enqueue 0 [true, false], .enqueue 0 [true, true]] := by
  obtain ⟨idle, h, _⟩ := idle_ok
  refine ⟨idle, h, ⟨by simp [init], ?_⟩⟩
  intro r hr
  simp only [step, enqueue, show (0 : Nat) < 4 by omega, if_true, bind_ok] at hr
  cases hr
  refine ⟨by simp [setQ, enqueueQ_eq, init], ?_⟩
  intro _ _
  trivial

/-- Eviction drops a frame that is partly transmitted: the receiver sees a cut frame. -/
theorem C13_eviction_cuts_frames :
    ∃ m bs, run init [.enqueue 0 [true, true, true, true], .output 1, .enqueue 0 [false, false],
        .enqueue 0 [false, false], .enqueue 0 [false, false]] = .ok (m, bs) ∧
      chanBits 0 bs = [true, true] ∧ pending (m.queue 0) = List.replicate 6 false := by
  have h : (run init [.enqueue 0 [true, true, true, true], .output 1, .enqueue 0 [false, false],
        .enqueue 0 [false, false], .enqueue 0 [false, false]]).map
      (fun r => (chanBits 0 r.2, pending (r.1.queue 0))) = .ok ([true, true], List.replicate 6 false) := by
    decide +kernel
  generalize run init _ = x at h
  cases x with
  | error e => cases h
  | ok r =>
    have h' := Except.ok.inj h
    simp only [Prod.mk.injEq] at h'
    exact ⟨r.1, r.2, rfl, h'.1, h'.2⟩

/-! ### C14 -/

private theorem take_flatten_frames : ∀ (fs : List (List Bool)) (n : Nat),
    (∀ f ∈ fs, f.length = 320) → n ≤ fs.flatten.length →
    fs.flatten.take n = (fs.take (n / 320)).flatten ++ (((fs.drop (n / 320)).headD []).take (n % 320)) := by
  intro fs
  induction fs with
  | nil => intro n _ h; simp at h; subst h; simp
  | cons f fs ih =>
    intro n hl hn
    have hf := hl f (by simp)
    by_cases h : n < 320
    · rw [Nat.div_eq_of_lt h, Nat.mod_eq_of_lt h, List.flatten_cons,
        List.take_append_of_le_length (by omega)]
      simp
    · have hn' : n - 320 ≤ fs.flatten.length := by
        simp only [List.flatten_cons, List.length_append] at hn; omega
      have := ih (n - 320) (fun g hg => hl g (by simp [hg])) hn'
      have e1 : n / 320 = (n - 320) / 320 + 1 := by omega
      have e2 : n % 320 = (n - 320) % 320 := by omega
      rw [e1, e2, List.flatten_cons, List.take_append, List.take_of_length_le (by omega), hf, this]
      simp

private theorem padded_mem {idle : List Bool} {fs seq : List (List Bool)} (h : Padded idle fs seq) :
    ∀ g ∈ seq, g = idle ∨ g ∈ fs := by
  induction h with
  | nil => simp
  | frame f _ ih =>
    intro g hg
    rcases List.mem_append.1 hg with hg | hg
    · rcases ih g hg with h | h
      · exact Or.inl h
      · exact Or.inr (by simp [h])
    · exact Or.inr (by simpa using Or.inr (List.mem_singleton.1 hg))
  | idle _ ih =>
    intro g hg
    rcases List.mem_append.1 hg with hg | hg
    · exact ih g hg
    · exact Or.inl (List.mem_singleton.1 hg)

/-- the demultiplexer with all four sub-channels active -/
def rx : Demux.Dmx := { Demux.fresh with chanActiv := 0x0f }

/-- **C14** Any history of a multiplexer that is only given clean frames (without eviction), its octets
fed to a demultiplexer: on every sub-channel the demultiplexer delivers exactly the completely transmitted
frames of the sequence sent, i.e. the enqueued frames in order with idle frames in between. -/
theorem C14_mux_demux (os : List Op) (hc : ∀ o ∈ os, ∀ c f, o = .enqueue c f → c < 4 ∧ IsCleanFrame f)
    (hn : NoEvict init os) (idle : List Bool) (hi : IsIdle idle) :
    ∃ m bs d log, run init os = .ok (m, bs) ∧ Demux.demuxIn rx bs = .ok (d, log) ∧
      ∀ c < 4, ∃ seq, Padded idle (enqueued c os) seq ∧
        evOf c log = (seq.take (bs.length / 160)).map ubits ∧
        chanBits c bs ++ pending (m.queue c) = seq.flatten := by
  have ho : ∀ o ∈ os, o.even := by
    intro o h
    cases o with
    | enqueue c f =>
      obtain ⟨h1, h2⟩ := hc _ h c f rfl
      exact ⟨h1, by rw [h2.len]⟩
    | output n => trivial
  obtain ⟨m, bs, h1, h2⟩ := C13_history os ho hn idle hi
  have hwf : ∀ c < 4, (rx.subch c).WF := by
    intro c _
    exact ⟨by simp [rx, Demux.fresh, Demux.init, Demux.TRAU_FRAME_BITS], by simp [rx, Demux.fresh, Demux.init]⟩
  obtain ⟨r, a1, _, a3, _⟩ := Demux.demuxIn_eq bs rx hwf
  refine ⟨m, bs, r.1, r.2, h1, a1, ?_⟩
  intro c hc4
  obtain ⟨seq, s1, s2⟩ := h2 c hc4
  refine ⟨seq, s1, ?_, s2⟩
  obtain ⟨idle', i1, i2, i3⟩ := idle_ok
  rw [hi] at i1
  cases i1
  have hmem : ∀ c (os : List Op), (∀ o ∈ os, ∀ c f, o = .enqueue c f → c < 4 ∧ IsCleanFrame f) →
      ∀ g ∈ enqueued c os, IsCleanFrame g := by
    intro c os
    induction os with
    | nil => intro _ g hg; simp [enqueued] at hg
    | cons o os ih =>
      intro h g hg
      have ih := ih (fun o' h' => h o' (by simp [h']))
      cases o with
      | enqueue c' f =>
        simp only [enqueued] at hg
        split at hg
        · rcases List.mem_cons.1 hg with rfl | hg
          · exact (h _ (List.mem_cons_self ..) c' g rfl).2
          · exact ih g hg
        · exact ih g hg
      | output n => exact ih g (by simpa [enqueued] using hg)
  have hclean : ∀ g ∈ seq, IsCleanFrame g := by
    intro g hg
    rcases padded_mem s1 g hg with rfl | hg
    · exact i3
    · exact hmem c os hc g hg
  have hlen : (chanBits c bs).length = 2 * bs.length := by
    simp only [chanBits, List.length_flatMap, List.length_cons, List.length_nil]
    rw [List.map_const', List.sum_replicate_nat]; omega
  have hact : Demux.active rx.chanActiv c = true := by
    have : ∀ c : Fin 4, Demux.active rx.chanActiv c = true := by decide
    exact this ⟨c, hc4⟩
  rw [(a3 c hc4).ev, if_pos hact]
  have hpre : chanBits c bs = seq.flatten.take (2 * bs.length) := by
    rw [← s2, List.take_left' hlen]
  have hle : 2 * bs.length ≤ seq.flatten.length := by
    rw [← s2, List.length_append, hlen]; omega
  have hdiv : 2 * bs.length / 320 = bs.length / 160 := by omega
  rw [hpre, take_flatten_frames seq _ (fun f hf => (hclean f hf).len) hle, hdiv, Demux.runS_append]
  have hs0 : (rx.subch c).inSync = false := rfl
  have hz0 : (rx.subch c).consecutiveZeros + 16 < 2 ^ 32 := by
    show 0 + 16 < 2 ^ 32; decide
  have hcs := Demux.cleanStream_of_frames (seq.take (bs.length / 160))
    (fun f hf => hclean f (List.mem_of_mem_take hf))
  obtain ⟨pre, p1, p2, p3, p4, p5⟩ := Demux.runS_stream (seq.take (bs.length / 160)) [] (rx.subch c)
    hcs.frames rfl (by simpa using hcs.noEmul) (hwf c hc4) hz0
  rw [p3, p2 hs0]
  have hlast : (Demux.runS (Demux.runS (rx.subch c) (seq.take (bs.length / 160)).flatten).1
      (((seq.drop (bs.length / 160)).headD []).take (2 * bs.length % 320))).2 = [] := by
    cases hd : seq.drop (bs.length / 160) with
    | nil => simp [Demux.runS]
    | cons g gs =>
      simp only [List.headD_cons]
      refine Demux.runS_frame_part _ g (hclean g ?_) (Demux.runS_wf _ (hwf c hc4) _) (p4 hs0) p5 _
        (Nat.mod_lt _ (by decide))
      have : g ∈ seq.drop (bs.length / 160) := by rw [hd]; simp
      exact List.mem_of_mem_drop this
  simp only [hlast, List.nil_append, List.append_nil]
  have hub : (List.map Demux.ub : List Bool → List Byte) = ubits := by
    funext l; simp [ubits, Demux.ub]
  simp only [hub]

/-- the hypotheses can be met: an idle frame is a clean frame -/
example : ∃ f, IsCleanFrame f ∧
    ∀ o ∈ [Op.enqueue 0 f, Op.output 480], ∀ c g, o = .enqueue c g → c < 4 ∧ IsCleanFrame g := by
  obtain ⟨f, _, _, hf⟩ := idle_ok
  refine ⟨f, hf, ?_⟩
  intro o ho c g h
  subst h
  simp at ho
  obtain ⟨rfl, rfl⟩ := ho
  exact ⟨by decide, hf⟩

end Verif.Mux
