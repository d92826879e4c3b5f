import Verif.Props.E1Cfg
/-!
# C157: the trace file for all lines (`e1_set_pcap_fd`), together with the trace files of single lines
-/
namespace Verif.E1.Trace
open Verif Verif.E1
set_option linter.unusedSimpArgs false

/-! ### specification -/

/-- calls that concern trace files: `e1_set_pcap_fd`, `e1_set_pcap_fd2` (`wr`: the file header can be written), `e1inp_line_update`; the driver allocates (lapd.c:690: `pcap_fd` is -1) or frees the LAPD instance of a timeslot -/
inductive POp where
  | setAll (fd : Int) (wr : Bool)
  | setOne (l : Nat) (fd : Int) (wr : Bool)
  | update (l : Nat)
  | lapdNew (r : TsRef)
  | lapdFree (r : TsRef)
  deriving DecidableEq, Repr

/-- what happens to descriptors: the user hands one over, the library closes one -/
inductive Ev where
  | given (fd : Int)
  | closed (fd : Int)
  deriving DecidableEq, Repr

/-- the descriptor belongs to the library: it was handed over and not closed since -/
def Held (evs : List Ev) (fd : Int) : Prop := ∃ pre post, evs = pre ++ .given fd :: post ∧ Ev.closed fd ∉ post

def POp.gives : POp → List Ev
  | .setAll fd wr => if 0 ≤ fd ∧ wr = true then [.given fd] else []
  | .setOne _ fd wr => if 0 ≤ fd ∧ wr = true then [.given fd] else []
  | _ => []

def closes (a : List Act) : List Ev := a.filterMap fun x => match x with | .closeFd fd => some (.closed fd) | _ => none

/-- one call: the state, the result and what happens to descriptors -/
def pstep (st : St) : POp → M (St × Int × List Ev)
  | .setAll fd wr => .ok ((setPcapFd st fd wr).1, (setPcapFd st fd wr).2.1, (POp.setAll fd wr).gives ++ closes (setPcapFd st fd wr).2.2)
  | .setOne l fd wr => do
    let (st', rc, a) ← setPcapFd2 st l fd wr
    .ok (st', rc, (POp.setOne l fd wr).gives ++ closes a)
  | .update l => do
    let st' ← lineUpdate st l
    .ok (st', 0, [])
  | .lapdNew r => .ok (setTs st r { st.ts r with lapd := some (-1) }, 0, [])
  | .lapdFree r => .ok (setTs st r { st.ts r with lapd := none }, 0, [])

/-- a history; `evs` is what happened before -/
def prun (st : St) (evs : List Ev) : List POp → M (St × List Ev)
  | [] => .ok (st, evs)
  | o :: os => do
    let (st', _, e) ← pstep st o
    prun st' (evs ++ e) os

/-- the lines exist, and the user does not hand over a descriptor the library still has -/
def Fair (st : St) : List Ev → List POp → Prop
  | _, [] => True
  | evs, o :: os =>
    (match o with | .setOne l _ _ => (st.line l).isSome | .update l => (st.line l).isSome | _ => True) ∧
    (∀ fd, Ev.given fd ∈ o.gives → ¬ Held evs fd) ∧
    ∀ st' rc e, pstep st o = .ok (st', rc, e) → Fair st' (evs ++ e) os

/-- no trace file was set yet -/
structure Quiet (st : St) : Prop where
  all : st.pcapFd < 0
  line : ∀ l x, st.line l = some x → x.pcapFd < 0
  lapd : ∀ r v, (st.ts r).lapd = some v → v < 0

/-! ### proofs -/

theorem closes_old (fd : Int) : closes (closeOld fd) = if fd < 0 then [] else [.closed fd] := by
  unfold closeOld closes
  split <;> split <;> first | rfl | omega

theorem held_append_given {evs : List Ev} {fd v : Int} : Held (evs ++ [.given fd]) v ↔ v = fd ∨ Held evs v := by
  constructor
  · rintro ⟨pre, post, e, h⟩
    rcases List.eq_nil_or_concat post with rfl | ⟨q, z, rfl⟩
    · have := List.append_inj_right' (s₁ := evs) (s₂ := pre) e (by simp)
      left; simpa using this.symm
    · rw [List.concat_eq_append, ← List.cons_append, ← List.append_assoc] at e
      obtain ⟨e1, -⟩ := List.append_inj' e (by simp)
      exact .inr ⟨pre, q, e1, fun hm => h (by simp [hm])⟩
  · rintro (rfl | ⟨pre, post, rfl, h⟩)
    · exact ⟨evs, [], rfl, by simp⟩
    · exact ⟨pre, post ++ [.given fd], by simp, by simp [h]⟩

theorem held_append_closed {evs : List Ev} {fd v : Int} : Held (evs ++ [.closed fd]) v ↔ v ≠ fd ∧ Held evs v := by
  constructor
  · rintro ⟨pre, post, e, h⟩
    rcases List.eq_nil_or_concat post with rfl | ⟨q, z, rfl⟩
    · have := List.append_inj_right' (s₁ := evs) (s₂ := pre) e (by simp)
      simp at this
    · rw [List.concat_eq_append, ← List.cons_append, ← List.append_assoc] at e
      obtain ⟨e1, e2⟩ := List.append_inj' e (by simp)
      have ez : z = .closed fd := by simpa using e2.symm
      refine ⟨?_, pre, q, e1, fun hm => h (by simp [hm])⟩
      rintro rfl
      exact h (by simp [ez])
  · rintro ⟨hne, pre, post, rfl, h⟩
    exact ⟨pre, post ++ [.closed fd], by simp, by simp [h, hne]⟩

/-- every close is of a descriptor the library has -/
def Proper (evs : List Ev) : Prop := ∀ pre fd post, evs = pre ++ .closed fd :: post → Held pre fd

theorem proper_given {evs : List Ev} {fd : Int} (h : Proper evs) : Proper (evs ++ [.given fd]) := by
  intro pre v post e
  rcases List.eq_nil_or_concat post with rfl | ⟨q, z, rfl⟩
  · have := List.append_inj_right' (s₁ := evs) (s₂ := pre) e (by simp)
    simp at this
  · rw [List.concat_eq_append, ← List.cons_append, ← List.append_assoc] at e
    obtain ⟨e1, -⟩ := List.append_inj' e (by simp)
    exact h pre v q e1

theorem proper_closed {evs : List Ev} {fd : Int} (h : Proper evs) (hh : Held evs fd) : Proper (evs ++ [.closed fd]) := by
  intro pre v post e
  rcases List.eq_nil_or_concat post with rfl | ⟨q, z, rfl⟩
  · obtain ⟨e1, e2⟩ := List.append_inj' (s₁ := evs) (s₂ := pre) e (by simp)
    have : fd = v := by simpa using e2
    rw [← e1, ← this]; exact hh
  · rw [List.concat_eq_append, ← List.cons_append, ← List.append_assoc] at e
    obtain ⟨e1, -⟩ := List.append_inj' e (by simp)
    exact h pre v q e1

structure Inv (st : St) (evs : List Ev) : Prop where
  proper : Proper evs
  held : ∀ v, Held evs v ↔ 0 ≤ v ∧ (v = st.pcapFd ∨ ∃ l x, st.line l = some x ∧ x.pcapFd = v)
  lapd : ∀ r v, (st.ts r).lapd = some v → v < 0 ∨ (v = st.pcapFd ∧ r.1 ∈ st.reg) ∨ ∃ x, st.line r.1 = some x ∧ x.pcapFd = v
  sepAll : ∀ l x, st.line l = some x → x.pcapFd = st.pcapFd → x.pcapFd < 0
  sepOne : ∀ l m x y, st.line l = some x → st.line m = some y → x.pcapFd = y.pcapFd → 0 ≤ x.pcapFd → l = m

theorem inv_quiet {st : St} (h : Quiet st) : Inv st [] := by
  refine ⟨?_, ?_, ?_, ?_, ?_⟩
  · intro pre fd post e; simp at e
  · intro v
    constructor
    · rintro ⟨pre, post, e, -⟩; simp at e
    · rintro ⟨h0, h1 | ⟨l, x, h1, h2⟩⟩
      · have := h.all; omega
      · have := h.line l x h1; omega
  · intro r v hv; exact .inl (h.lapd r v hv)
  · intro l x hx _; exact h.line l x hx
  · intro l m x y hx _ _ h0; have := h.line l x hx; omega

/-- a descriptor `fd` is set in place of `old`: the events -/
theorem inv_swap {evs : List Ev} {fd old : Int} {P Q : Int → Prop} (hp : Proper evs) (hh : ∀ v, Held evs v ↔ 0 ≤ v ∧ (v = old ∨ Q v))
    (hQ : ¬ Q old ∨ old < 0) (hn : 0 ≤ fd → ¬ Held evs fd) (hP : ∀ v, P v ↔ (v = fd ∨ Q v)) :
    Proper (evs ++ ((if 0 ≤ fd then [Ev.given fd] else []) ++ if old < 0 then [] else [.closed old])) ∧
    ∀ v, Held (evs ++ ((if 0 ≤ fd then [Ev.given fd] else []) ++ if old < 0 then [] else [.closed old])) v ↔ 0 ≤ v ∧ P v := by
  by_cases h1 : 0 ≤ fd <;> by_cases h2 : old < 0
  · rw [if_pos h1, if_pos h2, List.append_nil]
    refine ⟨proper_given hp, fun v => ?_⟩
    rw [held_append_given, hh, hP]
    constructor
    · rintro (rfl | ⟨q, rfl | q'⟩)
      · exact ⟨h1, .inl rfl⟩
      · omega
      · exact ⟨q, .inr q'⟩
    · rintro ⟨q, rfl | q'⟩
      · exact .inl rfl
      · exact .inr ⟨q, .inr q'⟩
  · rw [if_pos h1, if_neg h2, ← List.append_assoc]
    have ho : Held evs old := (hh old).2 ⟨by omega, .inl rfl⟩
    have hne : fd ≠ old := by rintro rfl; exact hn h1 ho
    refine ⟨proper_closed (proper_given hp) (held_append_given.2 (.inr ho)), fun v => ?_⟩
    rw [held_append_closed, held_append_given, hh, hP]
    constructor
    · rintro ⟨hv, rfl | ⟨q, rfl | q'⟩⟩
      · exact ⟨h1, .inl rfl⟩
      · exact absurd rfl hv
      · exact ⟨q, .inr q'⟩
    · rintro ⟨q, rfl | q'⟩
      · exact ⟨hne, .inl rfl⟩
      · refine ⟨?_, .inr ⟨q, .inr q'⟩⟩
        rintro rfl
        rcases hQ with hQ | hQ
        · exact hQ q'
        · exact h2 hQ
  · rw [if_neg h1, if_pos h2, List.append_nil, List.append_nil]
    refine ⟨hp, fun v => ?_⟩
    rw [hh, hP]
    constructor
    · rintro ⟨q, rfl | q'⟩
      · omega
      · exact ⟨q, .inr q'⟩
    · rintro ⟨q, rfl | q'⟩
      · omega
      · exact ⟨q, .inr q'⟩
  · rw [if_neg h1, if_neg h2, List.nil_append]
    have ho : Held evs old := (hh old).2 ⟨by omega, .inl rfl⟩
    refine ⟨proper_closed hp ho, fun v => ?_⟩
    rw [held_append_closed, hh, hP]
    constructor
    · rintro ⟨hv, q, rfl | q'⟩
      · exact absurd rfl hv
      · exact ⟨q, .inr q'⟩
    · rintro ⟨q, rfl | q'⟩
      · omega
      · refine ⟨?_, q, .inr q'⟩
        rintro rfl
        rcases hQ with hQ | hQ
        · exact hQ q'
        · exact h2 hQ

theorem lapd_set {fd v : Int} {t : Ts} (h : (tsSetFd fd t).lapd = some v) : v = fd := by
  unfold tsSetFd at h
  cases hl : t.lapd with
  | none => rw [hl] at h; cases h
  | some w => rw [hl] at h; exact (Option.some.inj h).symm

theorem inv_step {st : St} {evs : List Ev} (hi : Inv st evs) {o : POp}
    (h1 : match o with | .setOne l _ _ => (st.line l).isSome | .update l => (st.line l).isSome | _ => True)
    (h2 : ∀ fd, Ev.given fd ∈ o.gives → ¬ Held evs fd) : ∃ st' rc e, pstep st o = .ok (st', rc, e) ∧ Inv st' (evs ++ e) := by
  cases o with
  | setAll fd wr =>
    by_cases hf : 0 ≤ fd ∧ wr = false
    · refine ⟨st, -1, [], ?_, by rw [List.append_nil]; exact hi⟩
      simp [pstep, setPcapFd, hf, POp.gives, closes]
    · have e0 : setPcapFd st fd wr = ({ st with ts := fun r => if r.1 ∈ st.reg then tsSetFd fd (st.ts r) else st.ts r, pcapFd := fd }, 0, closeOld st.pcapFd) := by
        unfold setPcapFd; exact if_neg hf
      have eg : (POp.setAll fd wr).gives = if 0 ≤ fd then [Ev.given fd] else [] := by
        cases wr <;> simp [POp.gives] at hf ⊢
        all_goals (try omega)
      have hn : 0 ≤ fd → ¬ Held evs fd := by
        intro h; exact h2 fd (by rw [eg, if_pos h]; simp)
      obtain ⟨q1, q2⟩ := inv_swap (P := fun v => v = fd ∨ ∃ l x, st.line l = some x ∧ x.pcapFd = v) (Q := fun v => ∃ l x, st.line l = some x ∧ x.pcapFd = v)
        hi.proper hi.held (by
          by_cases h : st.pcapFd < 0
          · exact .inr h
          · refine .inl ?_
            rintro ⟨l, x, hx, e⟩
            have := hi.sepAll l x hx e
            omega) hn (fun v => Iff.rfl)
      refine ⟨_, 0, _, by rw [pstep, e0], ?_⟩
      rw [eg, closes_old]
      refine ⟨q1, q2, ?_, ?_, hi.sepOne⟩
      · intro r v hv
        simp only at hv
        split at hv
        · rename_i hr; exact .inr (.inl ⟨lapd_set hv, hr⟩)
        · rename_i hr
          rcases hi.lapd r v hv with q | ⟨-, q⟩ | q
          · exact .inl q
          · exact absurd q hr
          · exact .inr (.inr q)
      · intro l x hx e
        have e' : x.pcapFd = fd := e
        by_cases h : 0 ≤ fd
        · exact absurd ((hi.held fd).2 ⟨h, .inr ⟨l, x, hx, e'⟩⟩) (hn h)
        · omega
  | setOne l fd wr =>
    obtain ⟨x, hx⟩ := Option.isSome_iff_exists.1 h1
    by_cases hf : 0 ≤ fd ∧ wr = false
    · refine ⟨st, -1, [], ?_, by rw [List.append_nil]; exact hi⟩
      simp [pstep, setPcapFd2, hf, POp.gives, closes, bind_ok]
    · have e0 : setPcapFd2 st l fd wr = .ok ({ setLine st l (some { x with pcapFd := fd }) with
            ts := fun r => if r.1 = l then tsSetFd fd (st.ts r) else st.ts r }, 0, closeOld x.pcapFd) := by
        unfold setPcapFd2; rw [if_neg hf, lineAt_ok hx, bind_ok]
      have eg : (POp.setOne l fd wr).gives = if 0 ≤ fd then [Ev.given fd] else [] := by
        cases wr <;> simp [POp.gives] at hf ⊢
        all_goals (try omega)
      have hn : 0 ≤ fd → ¬ Held evs fd := by
        intro h; exact h2 fd (by rw [eg, if_pos h]; simp)
      have hline : ∀ m, (setLine st l (some { x with pcapFd := fd })).line m = if m = l then some { x with pcapFd := fd } else st.line m := fun m => rfl
      obtain ⟨q1, q2⟩ := inv_swap (P := fun v => v = st.pcapFd ∨ ∃ m y, (setLine st l (some { x with pcapFd := fd })).line m = some y ∧ y.pcapFd = v)
        (Q := fun v => v = st.pcapFd ∨ ∃ m y, m ≠ l ∧ st.line m = some y ∧ y.pcapFd = v) (old := x.pcapFd)
        hi.proper (by
          intro v
          rw [hi.held]
          constructor
          · rintro ⟨q, q' | ⟨m, y, hy, e⟩⟩
            · exact ⟨q, .inr (.inl q')⟩
            · by_cases hm : m = l
              · subst hm; rw [hx] at hy; cases hy; exact ⟨q, .inl e.symm⟩
              · exact ⟨q, .inr (.inr ⟨m, y, hm, hy, e⟩)⟩
          · rintro ⟨q, q' | q' | ⟨m, y, hm, hy, e⟩⟩
            · exact ⟨q, .inr ⟨l, x, hx, q'.symm⟩⟩
            · exact ⟨q, .inl q'⟩
            · exact ⟨q, .inr ⟨m, y, hy, e⟩⟩)
        (by
          by_cases h : x.pcapFd < 0
          · exact .inr h
          · refine .inl ?_
            rintro (e | ⟨m, y, hm, hy, e⟩)
            · have := hi.sepAll l x hx e; omega
            · exact hm (hi.sepOne m l y x hy hx e (by omega))) hn (by
          intro v
          constructor
          · rintro (q | ⟨m, y, hy, e⟩)
            · exact .inr (.inl q)
            · rw [hline] at hy
              split at hy
              · cases hy; exact .inl e.symm
              · rename_i hm; exact .inr (.inr ⟨m, y, hm, hy, e⟩)
          · rintro (q | q | ⟨m, y, hm, hy, e⟩)
            · exact .inr ⟨l, _, by rw [hline, if_pos rfl], q.symm⟩
            · exact .inl q
            · exact .inr ⟨m, y, by rw [hline, if_neg hm]; exact hy, e⟩)
      refine ⟨_, 0, _, by rw [pstep, e0, bind_ok], ?_⟩
      rw [eg, closes_old]
      refine ⟨q1, q2, ?_, ?_, ?_⟩
      · intro r v hv
        simp only at hv
        split at hv
        · rename_i hr
          exact .inr (.inr ⟨_, by show (setLine st l _).line r.1 = _; rw [hline, if_pos hr], (lapd_set hv).symm⟩)
        · rename_i hr
          rcases hi.lapd r v hv with q | q | ⟨y, q, e⟩
          · exact .inl q
          · exact .inr (.inl q)
          · exact .inr (.inr ⟨y, by show (setLine st l _).line r.1 = _; rw [hline, if_neg hr]; exact q, e⟩)
      · intro m y hy e
        have hy' : (setLine st l (some { x with pcapFd := fd })).line m = some y := hy
        have e' : y.pcapFd = st.pcapFd := e
        rw [hline] at hy'
        split at hy'
        · cases hy'
          have e'' : fd = st.pcapFd := e'
          show fd < 0
          by_cases h : 0 ≤ fd
          · exact absurd ((hi.held fd).2 ⟨h, .inl e''⟩) (hn h)
          · omega
        · exact hi.sepAll m y hy' e'
      · intro m k y z hy hz e h0
        have hy' : (setLine st l (some { x with pcapFd := fd })).line m = some y := hy
        have hz' : (setLine st l (some { x with pcapFd := fd })).line k = some z := hz
        rw [hline] at hy' hz'
        split at hy' <;> split at hz'
        · rename_i a b; rw [a, b]
        · cases hy'
          have h0' : 0 ≤ fd := h0
          exact absurd ((hi.held fd).2 ⟨h0', .inr ⟨k, z, hz', e.symm⟩⟩) (hn h0')
        · cases hz'
          have e' : y.pcapFd = fd := e
          have h0' : 0 ≤ fd := by omega
          exact absurd ((hi.held fd).2 ⟨h0', .inr ⟨m, y, hy', e'⟩⟩) (hn h0')
        · exact hi.sepOne m k y z hy' hz' e h0
  | update l =>
    obtain ⟨x, hx⟩ := Option.isSome_iff_exists.1 h1
    refine ⟨_, 0, [], by simp only [pstep, lineUpdate, lineAt_ok hx, bind_ok]; rfl, ?_⟩
    rw [List.append_nil]
    refine ⟨hi.proper, hi.held, ?_, hi.sepAll, hi.sepOne⟩
    intro r v hv
    simp only at hv
    split at hv
    · rename_i hr; exact .inr (.inr ⟨x, by rw [hr]; exact hx, (lapd_set hv).symm⟩)
    · exact hi.lapd r v hv
  | lapdNew r =>
    refine ⟨_, 0, [], rfl, ?_⟩
    rw [List.append_nil]
    refine ⟨hi.proper, hi.held, ?_, hi.sepAll, hi.sepOne⟩
    intro r' v hv
    by_cases hr : r' = r
    · subst hr; simp [setTs] at hv; omega
    · simp [setTs, hr] at hv; exact hi.lapd r' v hv
  | lapdFree r =>
    refine ⟨_, 0, [], rfl, ?_⟩
    rw [List.append_nil]
    refine ⟨hi.proper, hi.held, ?_, hi.sepAll, hi.sepOne⟩
    intro r' v hv
    by_cases hr : r' = r
    · subst hr; simp [setTs] at hv
    · simp [setTs, hr] at hv; exact hi.lapd r' v hv

theorem inv_run : ∀ (os : List POp) (st : St) (evs : List Ev), Inv st evs → Fair st evs os → ∃ st' evs', prun st evs os = .ok (st', evs') ∧ Inv st' evs' := by
  intro os
  induction os with
  | nil => intro st evs h _; exact ⟨st, evs, rfl, h⟩
  | cons o os ih =>
    intro st evs h hf
    obtain ⟨f1, f2, f3⟩ := hf
    obtain ⟨st1, rc, e, e1, i1⟩ := inv_step h f1 f2
    obtain ⟨st2, ev2, e2, i2⟩ := ih st1 (evs ++ e) i1 (f3 _ _ _ e1)
    exact ⟨st2, ev2, by rw [prun, e1, bind_ok]; exact e2, i2⟩

/-- **C157** after every history of trace files set for all lines and for single lines, of updates and of LAPD instances: nothing crashes, each descriptor closed was one the library had (so none is closed twice),
no LAPD instance and no line refers to a descriptor that was closed (so none is written to), and no descriptor is lost -/
theorem C157_owned {st : St} (hq : Quiet st) {ops : List POp} (hf : Fair st [] ops) : ∃ st' evs, prun st [] ops = .ok (st', evs) ∧
    (∀ pre fd post, evs = pre ++ .closed fd :: post → Held pre fd) ∧
    (∀ r v, (st'.ts r).lapd = some v → 0 ≤ v → Held evs v) ∧
    (∀ l x, st'.line l = some x → 0 ≤ x.pcapFd → Held evs x.pcapFd) ∧
    (∀ v, Held evs v → v = st'.pcapFd ∨ ∃ l x, st'.line l = some x ∧ x.pcapFd = v) := by
  obtain ⟨st', evs, h, hi⟩ := inv_run ops st [] (inv_quiet hq) hf
  refine ⟨st', evs, h, hi.proper, ?_, ?_, ?_⟩
  · intro r v hv h0
    refine (hi.held v).2 ⟨h0, ?_⟩
    rcases hi.lapd r v hv with q | ⟨q, -⟩ | ⟨x, q, e⟩
    · omega
    · exact .inl q
    · exact .inr ⟨r.1, x, q, e⟩
  · intro l x hx h0
    exact (hi.held _).2 ⟨h0, .inr ⟨l, x, hx, rfl⟩⟩
  · intro v hv
    exact ((hi.held v).1 hv).2

/-- **C157** `e1_set_pcap_fd`: if the file header cannot be written, -1 is returned and nothing changes; else 0 is returned, the LAPD instances of all lines of the list use the descriptor from now on,
the previous one is closed, and nothing else changes -/
theorem C157_set (st : St) (fd : Int) :
    (0 ≤ fd → setPcapFd st fd false = (st, -1, [])) ∧
    ∃ st', setPcapFd st fd true = (st', 0, if st.pcapFd < 0 then [] else [.closeFd st.pcapFd]) ∧
      (∀ l ∈ st.reg, ∀ i, (st'.ts (l, i)).lapd = if (st.ts (l, i)).lapd = none then none else some fd) ∧
      (∀ l, l ∉ st.reg → ∀ i, st'.ts (l, i) = st.ts (l, i)) ∧
      (∀ r, ∃ v, st'.ts r = { st.ts r with lapd := v }) ∧ st'.line = st.line ∧ st'.link = st.link ∧ st'.reg = st.reg ∧ st'.drivers = st.drivers := by
  refine ⟨fun h => if_pos ⟨h, rfl⟩, ?_⟩
  have e : closeOld st.pcapFd = if st.pcapFd < 0 then [] else [.closeFd st.pcapFd] := by
    unfold closeOld
    split <;> split <;> first | rfl | omega
  refine ⟨{ st with ts := fun r => if r.1 ∈ st.reg then tsSetFd fd (st.ts r) else st.ts r, pcapFd := fd }, by rw [← e]; exact if_neg (by simp), ?_, ?_, ?_, rfl, rfl, rfl, rfl⟩
  · intro l hl i
    simp only [hl, if_true, tsSetFd]
    cases (st.ts (l, i)).lapd <;> rfl
  · intro l hl i
    simp only [hl, if_false]
  · intro r
    simp only
    split
    · exact ⟨_, rfl⟩
    · exact ⟨_, rfl⟩

/-- **C157** `e1inp_line_update`: the LAPD instances of the line use the trace file of the line from now on; nothing else changes -/
theorem C157_update {st : St} {l : Nat} {x : Line} (hx : st.line l = some x) : ∃ st', lineUpdate st l = .ok st' ∧
    (∀ i, (st'.ts (l, i)).lapd = if (st.ts (l, i)).lapd = none then none else some x.pcapFd) ∧
    (∀ r, ∃ v, st'.ts r = { st.ts r with lapd := v }) ∧ (∀ r, r.1 ≠ l → st'.ts r = st.ts r) ∧
    st'.line = st.line ∧ st'.link = st.link ∧ st'.reg = st.reg ∧ st'.drivers = st.drivers ∧ st'.pcapFd = st.pcapFd := by
  refine ⟨{ st with ts := fun r => if r.1 = l then tsSetFd x.pcapFd (st.ts r) else st.ts r }, by simp only [lineUpdate, lineAt_ok hx, bind_ok], ?_, ?_, ?_, rfl, rfl, rfl, rfl, rfl⟩
  · intro i
    simp only [if_true, tsSetFd]
    cases (st.ts (l, i)).lapd <;> rfl
  · intro r
    simp only
    split
    · exact ⟨_, rfl⟩
    · exact ⟨_, rfl⟩
  · intro r hr
    simp only [hr, if_false]

/-- **C157 violated** (all messages are recorded): messages received on a timeslot without LAPD instance, and messages sent there, are not written to the file for all lines: nothing is recorded if the line has no file of its own -/
theorem C157_no_lapd_violated (st : St) (fd : Int) (r : TsRef) (x : Line) (hx : st.line r.1 = some x) (hl : (st.ts r).line = some r.1) (hn : (st.ts r).lapd = none) (hp : x.pcapFd < 0)
    (m : Msg) (tei sapi : Byte) : ∀ st' rc a, rxTs (setPcapFd st fd true).1 r m tei sapi = .ok (st', rc, a) → ∀ e ∈ a, ∀ f o s t n, e ≠ .pcap f o s t n := by
  intro st' rc a h e he f o s t n hE
  subst hE
  have e0 : (setPcapFd st fd true).1 = { st with ts := fun r => if r.1 ∈ st.reg then tsSetFd fd (st.ts r) else st.ts r, pcapFd := fd } := by
    unfold setPcapFd; rw [if_neg (by simp)]
  have et : ((setPcapFd st fd true).1.ts r).u = (st.ts r).u ∧ ((setPcapFd st fd true).1.ts r).line = some r.1 ∧ ((setPcapFd st fd true).1.ts r).lapd = none ∧ ((setPcapFd st fd true).1.ts r).dmx = (st.ts r).dmx := by
    rw [e0]
    simp only
    split
    · exact ⟨rfl, hl, by simp [tsSetFd, hn], rfl⟩
    · exact ⟨rfl, hl, hn, rfl⟩
  have eL : (setPcapFd st fd true).1.line r.1 = some x := by rw [e0]; exact hx
  generalize (setPcapFd st fd true).1 = w at *
  obtain ⟨et1, et2, et3, et4⟩ := et
  have hlo : lineOf w (w.ts r) = .ok x := by simp only [lineOf, et2, lineAt_ok eL]
  unfold rxTs at h
  cases ht : tsAt w r with
  | error q => rw [ht, bind_err] at h; cases h
  | ok t0 =>
    have : t0 = w.ts r := by
      unfold tsAt at ht
      split at ht
      · split at ht
        · exact (Except.ok.inj ht).symm
        · cases ht
      · cases ht
    subst this
    rw [ht, bind_ok] at h
    cases hu : (w.ts r).u with
    | sign links d =>
      rw [hu] at h
      simp only [hlo, bind_ok] at h
      cases hk : lookupIn w tei sapi links with
      | error q => rw [hk, bind_err] at h; cases h
      | ok k =>
        rw [hk, bind_ok] at h
        cases hd : rxDeliver x m k with
        | error q => rw [hd, bind_err] at h; cases h
        | ok p =>
          obtain ⟨rc', acts⟩ := p
          rw [hd, bind_ok] at h
          obtain ⟨-, h⟩ := Prod.mk.inj (Except.ok.inj h)
          obtain ⟨-, h⟩ := Prod.mk.inj h
          rw [← h] at he
          rcases List.mem_append.1 he with he | he
          · simp [tracePcap, et3, pcapActs, hp] at he
          · unfold rxDeliver at hd
            revert hd
            repeat' split
            all_goals
              intro hd
              first
                | (cases hd; done)
                | (obtain ⟨-, hd⟩ := Prod.mk.inj (Except.ok.inj hd); rw [← hd] at he; simp at he)
    | trau cb q =>
      rw [hu] at h
      simp only at h
      cases hd : Demux.demuxIn (w.ts r).dmx m.data with
      | error q => rw [hd, bind_err] at h; cases h
      | ok p =>
        obtain ⟨d, evs⟩ := p
        rw [hd, bind_ok] at h
        obtain ⟨-, h⟩ := Prod.mk.inj (Except.ok.inj h)
        obtain ⟨-, h⟩ := Prod.mk.inj h
        rw [← h] at he
        simp at he
    | stale u => rw [hu] at h; cases h
    | _ =>
      rw [hu] at h
      obtain ⟨-, h⟩ := Prod.mk.inj (Except.ok.inj h)
      obtain ⟨-, h⟩ := Prod.mk.inj h
      rw [← h] at he
      simp at he

/-- **C157 violated** (until another one is set): an update of a line without a file of its own ends the recording of this line, and an LAPD instance allocated later is not recorded -/
theorem C157_update_violated (st : St) (l i : Nat) (x : Line) (hx : st.line l = some x) (hr : l ∈ st.reg) (hl : (st.ts (l, i)).lapd ≠ none) (hp : x.pcapFd = -1) (fd : Int) :
    ((setPcapFd st fd true).1.ts (l, i)).lapd = some fd ∧
    ∃ st', lineUpdate (setPcapFd st fd true).1 l = .ok st' ∧ (st'.ts (l, i)).lapd = some (-1) ∧ st'.pcapFd = fd := by
  obtain ⟨-, st1, h1, h2, -, -, h4, -⟩ := C157_set st fd
  have e1 : (setPcapFd st fd true).1 = st1 := by rw [h1]
  rw [e1]
  have hl1 : (st1.ts (l, i)).lapd = some fd := by rw [h2 l hr i, if_neg hl]
  refine ⟨hl1, ?_⟩
  obtain ⟨st2, u1, u2, -, -, -, -, -, -, u3⟩ := C157_update (st := st1) (l := l) (x := x) (by rw [h4]; exact hx)
  refine ⟨st2, u1, by rw [u2 i, if_neg (by rw [hl1]; simp), hp], ?_⟩
  rw [u3, ← e1]
  unfold setPcapFd
  rw [if_neg (by simp)]

/-! ### the hypotheses are met -/

/-- two lines, both of the list, with LAPD instances; trace files come and go -/
def exSt : St :=
  { St.init with line := fun l => if l < 2 then some { num := BitVec.ofNat 8 l, driver := drv, ops := none, uses := [(0, 1)], pcapFd := -1 } else none,
                 ts := fun r => { freshTs r.1 with lapd := if r.2 = 0 then some (-1) else none }, reg := [1, 0], nextLine := 2 }

example : Quiet exSt := by
  refine ⟨by decide, ?_, ?_⟩
  · intro l x h
    simp only [exSt] at h
    split at h
    · cases h; show (-1 : Int) < 0; decide
    · cases h
  · intro r v h
    simp only [exSt] at h
    split at h
    · cases h; decide
    · cases h

def exOps : List POp := [.setAll 5 true, .setOne 0 6 true, .lapdNew (1, 1), .setAll 7 true, .update 1, .setOne 0 8 false, .setOne 0 9 true, .setAll (-1) true, .lapdFree (1, 0)]

def heldB (evs : List Ev) (fd : Int) : Bool := evs.foldl (fun b e => if e = .given fd then true else if e = .closed fd then false else b) false

theorem heldB_iff (evs : List Ev) (fd : Int) : heldB evs fd = true ↔ Held evs fd := by
  have key : ∀ evs : List Ev, heldB evs.reverse fd = true ↔ Held evs.reverse fd := by
    intro evs
    induction evs with
    | nil => simp [heldB, Held]
    | cons e evs ih =>
      rw [List.reverse_cons]
      unfold heldB at ih ⊢
      rw [List.foldl_append]
      simp only [List.foldl_cons, List.foldl_nil]
      cases e with
      | given v =>
        rw [held_append_given]
        by_cases h : v = fd
        · simp [h]
        · simp only [Ev.given.injEq, h, if_false, reduceCtorEq]
          rw [ih]
          exact ⟨.inr, fun q => q.resolve_left (fun e => h e.symm)⟩
      | closed v =>
        rw [held_append_closed]
        by_cases h : v = fd
        · simp [h]
        · simp only [Ev.closed.injEq, h, if_false, reduceCtorEq]
          rw [ih]
          exact ⟨fun q => ⟨fun e => h e.symm, q⟩, fun q => q.2⟩
  have := key evs.reverse
  rwa [List.reverse_reverse] at this

/-- a check of `Fair` -/
def fairB (st : St) : List Ev → List POp → Bool
  | _, [] => true
  | evs, o :: os =>
    (match o with | .setOne l _ _ => (st.line l).isSome | .update l => (st.line l).isSome | _ => true) &&
    (o.gives.all fun e => match e with | .given fd => !heldB evs fd | _ => true) &&
    match pstep st o with | .ok (st', _, e) => fairB st' (evs ++ e) os | .error _ => true

theorem fairB_ok : ∀ (os : List POp) (st : St) (evs : List Ev), fairB st evs os = true → Fair st evs os := by
  intro os
  induction os with
  | nil => intro _ _ _; trivial
  | cons o os ih =>
    intro st evs h
    simp only [fairB, Bool.and_eq_true] at h
    obtain ⟨⟨h1, h2⟩, h3⟩ := h
    refine ⟨?_, ?_, ?_⟩
    · cases o <;> first | exact trivial | exact h1
    · intro fd hm hh
      have := List.all_eq_true.1 h2 _ hm
      simp [(heldB_iff evs fd).2 hh] at this
    · intro st' rc e he
      rw [he] at h3
      exact ih _ _ h3

example : Fair exSt [] exOps := fairB_ok _ _ _ (by decide +kernel)

example : (match prun exSt [] exOps with
    | .ok (st, evs) => decide (evs = [.given 5, .given 6, .given 7, .closed 5, .given 9, .closed 6, .closed 7]) && decide ((st.ts (0, 0)).lapd = some (-1)) &&
        decide ((st.line 0).map (·.pcapFd) = some 9)
    | .error _ => false) = true := by decide +kernel

end Verif.E1.Trace
